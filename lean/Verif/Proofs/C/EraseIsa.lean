import Verif.Model.C.Isa

/-! # Without the record of calls, Model/C/Isa.lean is Model/C/Hasher.lean -/

set_option linter.unusedVariables false
set_option linter.unusedSimpArgs false

namespace Baokeshed.Proofs.CI
open Baokeshed.Model Baokeshed.Model.C Baokeshed.Model.CI

theorem res_bind {α β : Type} (x : ER α) (f : α → ER β) : (x >>= f).res = x.res >>= fun a => (f a).res := by
  obtain ⟨r, l⟩ := x
  cases r <;> rfl

theorem res_lift {α : Type} (r : R α) : (liftM r : ER α).res = r := rfl

theorem res_pure {α : Type} (a : α) : (pure a : ER α).res = .ok a := rfl

theorem res_enter {β : Type} (c : Ev) (f : Unit → ER β) : (enter c >>= f).res = (f ()).res := rfl

theorem res_ite {α : Type} {c : Prop} [Decidable c] (x y : ER α) :
    (if c then x else y).res = if c then x.res else y.res := by split <;> rfl

theorem res_dite {α : Type} {c : Prop} [Decidable c] (x : c → ER α) (y : ¬c → ER α) :
    (if h : c then x h else y h).res = if h : c then (x h).res else (y h).res := by split <;> rfl

theorem compress_res (cfg : C.Config) (st : Vector Word 8) (b : Bytes) (l : Byte) (off : U64) (f : Byte) :
    (CI.compress cfg st b l off f).res = C.compress cfg st b l off f := by
  simp only [CI.compress, C.compress, res_ite, res_enter, res_lift]

theorem hash_many_portable_loop_res (n : Nat) (key : Vector Word 8) (ds : List U64) (f fs fe : Byte) (num : Nat)
    (xs : List Bytes) (off : U64) (out : Bytes) :
    (CI.hash_many_portable_loop n key ds f fs fe num xs off out).res = C.Portable.hash_many_portable_loop n key ds f fs fe num xs off out := by
  induction num generalizing xs off out with
  | zero => rfl
  | succ num ih =>
    rw [CI.hash_many_portable_loop, C.Portable.hash_many_portable_loop]
    simp only [res_bind, res_lift, ih]
    rfl

theorem hash_many_portable_res (xs : List Bytes) (num n : Nat) (key : Vector Word 8) (off : U64) (ds : List U64) (f fs fe : Byte)
    (out : Bytes) : (CI.hash_many_portable xs num n key off ds f fs fe out).res = C.Portable.hash_many_portable xs num n key off ds f fs fe out :=
  hash_many_portable_loop_res ..

theorem hash_many_sse41_loop1_res (n : Nat) (key : Vector Word 8) (ds : List U64) (f fs fe : Byte) (num : Nat)
    (xs : List Bytes) (off : U64) (out : Bytes) :
    (CI.hash_many_sse41_loop1 n key ds f fs fe num xs off out).res = C.Sse41.hash_many_sse41_loop1 n key ds f fs fe num xs off out := by
  induction num generalizing xs off out with
  | zero => rfl
  | succ num ih =>
    rw [CI.hash_many_sse41_loop1, C.Sse41.hash_many_sse41_loop1]
    simp only [res_bind, res_lift, ih]
    rfl

theorem hash_many_sse41_loop4_res (n : Nat) (key : Vector Word 8) (ds : List U64) (f fs fe : Byte) (num : Nat)
    (xs : List Bytes) (off : U64) (out : Bytes) :
    (CI.hash_many_sse41_loop4 n key ds f fs fe num xs off out).res = C.Sse41.hash_many_sse41_loop4 n key ds f fs fe num xs off out := by
  induction num using Nat.strongRecOn generalizing xs off out with
  | ind num ih =>
  rw [CI.hash_many_sse41_loop4, C.Sse41.hash_many_sse41_loop4, res_dite]
  split
  next h =>
    simp only [res_bind, res_lift, ih (num - 4) (by omega)]
    rfl
  next h => exact hash_many_sse41_loop1_res ..

theorem hash_many_sse41_res (xs : List Bytes) (num n : Nat) (key : Vector Word 8) (off : U64) (ds : List U64) (f fs fe : Byte)
    (out : Bytes) : (CI.hash_many_sse41 xs num n key off ds f fs fe out).res = C.Sse41.hash_many_sse41 xs num n key off ds f fs fe out :=
  hash_many_sse41_loop4_res ..

theorem hash_many_avx2_loop_res (n : Nat) (key : Vector Word 8) (ds : List U64) (f fs fe : Byte) (num : Nat)
    (xs : List Bytes) (off : U64) (out : Bytes) :
    (CI.hash_many_avx2_loop n key ds f fs fe num xs off out).res = C.Avx2.hash_many_avx2_loop n key ds f fs fe num xs off out := by
  induction num using Nat.strongRecOn generalizing xs off out with
  | ind num ih =>
  rw [CI.hash_many_avx2_loop, C.Avx2.hash_many_avx2_loop, res_dite]
  split
  next h =>
    simp only [res_bind, res_lift, ih (num - 8) (by omega)]
    rfl
  next h => exact hash_many_sse41_res ..

theorem hash_many_avx2_res (xs : List Bytes) (num n : Nat) (key : Vector Word 8) (off : U64) (ds : List U64) (f fs fe : Byte)
    (out : Bytes) : (CI.hash_many_avx2 xs num n key off ds f fs fe out).res = C.Avx2.hash_many_avx2 xs num n key off ds f fs fe out :=
  hash_many_avx2_loop_res ..

theorem hash_many_avx512_loop1_res (n : Nat) (key : Vector Word 8) (ds : List U64) (f fs fe : Byte) (num : Nat)
    (xs : List Bytes) (off : U64) (out : Bytes) :
    (CI.hash_many_avx512_loop1 n key ds f fs fe num xs off out).res = C.Avx512.hash_many_avx512_loop1 n key ds f fs fe num xs off out := by
  induction num generalizing xs off out with
  | zero => rfl
  | succ num ih =>
    rw [CI.hash_many_avx512_loop1, C.Avx512.hash_many_avx512_loop1]
    simp only [res_bind, res_lift, ih]
    rfl

theorem hash_many_avx512_loop4_res (n : Nat) (key : Vector Word 8) (ds : List U64) (f fs fe : Byte) (num : Nat)
    (xs : List Bytes) (off : U64) (out : Bytes) :
    (CI.hash_many_avx512_loop4 n key ds f fs fe num xs off out).res = C.Avx512.hash_many_avx512_loop4 n key ds f fs fe num xs off out := by
  induction num using Nat.strongRecOn generalizing xs off out with
  | ind num ih =>
  rw [CI.hash_many_avx512_loop4, C.Avx512.hash_many_avx512_loop4, res_dite]
  split
  next h =>
    simp only [res_bind, res_lift, ih (num - 4) (by omega)]
    rfl
  next h => exact hash_many_avx512_loop1_res ..

theorem hash_many_avx512_loop8_res (n : Nat) (key : Vector Word 8) (ds : List U64) (f fs fe : Byte) (num : Nat)
    (xs : List Bytes) (off : U64) (out : Bytes) :
    (CI.hash_many_avx512_loop8 n key ds f fs fe num xs off out).res = C.Avx512.hash_many_avx512_loop8 n key ds f fs fe num xs off out := by
  induction num using Nat.strongRecOn generalizing xs off out with
  | ind num ih =>
  rw [CI.hash_many_avx512_loop8, C.Avx512.hash_many_avx512_loop8, res_dite]
  split
  next h =>
    simp only [res_bind, res_lift, ih (num - 8) (by omega)]
    rfl
  next h => exact hash_many_avx512_loop4_res ..

theorem hash_many_avx512_loop16_res (n : Nat) (key : Vector Word 8) (ds : List U64) (f fs fe : Byte) (num : Nat)
    (xs : List Bytes) (off : U64) (out : Bytes) :
    (CI.hash_many_avx512_loop16 n key ds f fs fe num xs off out).res = C.Avx512.hash_many_avx512_loop16 n key ds f fs fe num xs off out := by
  induction num using Nat.strongRecOn generalizing xs off out with
  | ind num ih =>
  rw [CI.hash_many_avx512_loop16, C.Avx512.hash_many_avx512_loop16, res_dite]
  split
  next h =>
    simp only [res_bind, res_lift, ih (num - 16) (by omega)]
    rfl
  next h => exact hash_many_avx512_loop8_res ..

theorem hash_many_avx512_res (xs : List Bytes) (num n : Nat) (key : Vector Word 8) (off : U64) (ds : List U64) (f fs fe : Byte)
    (out : Bytes) : (CI.hash_many_avx512 xs num n key off ds f fs fe out).res = C.Avx512.hash_many_avx512 xs num n key off ds f fs fe out :=
  hash_many_avx512_loop16_res ..

theorem hash_many_neon_loop1_res (o : ByteOrder) (n : Nat) (key : Vector Word 8) (ds : List U64) (f fs fe : Byte) (num : Nat)
    (xs : List Bytes) (off : U64) (out : Bytes) :
    (CI.hash_many_neon_loop1 o n key ds f fs fe num xs off out).res = C.Neon.hash_many_neon_loop1 o n key ds f fs fe num xs off out := by
  induction num generalizing xs off out with
  | zero => rfl
  | succ num ih =>
    rw [CI.hash_many_neon_loop1, C.Neon.hash_many_neon_loop1]
    simp only [res_bind, res_lift, ih]
    rfl

theorem hash_many_neon_loop4_res (o : ByteOrder) (n : Nat) (key : Vector Word 8) (ds : List U64) (f fs fe : Byte) (num : Nat)
    (xs : List Bytes) (off : U64) (out : Bytes) :
    (CI.hash_many_neon_loop4 o n key ds f fs fe num xs off out).res = C.Neon.hash_many_neon_loop4 o n key ds f fs fe num xs off out := by
  induction num using Nat.strongRecOn generalizing xs off out with
  | ind num ih =>
  rw [CI.hash_many_neon_loop4, C.Neon.hash_many_neon_loop4, res_dite]
  split
  next h =>
    simp only [res_bind, res_lift, ih (num - 4) (by omega)]
    rfl
  next h => exact hash_many_neon_loop1_res ..

theorem hash_many_neon_res (o : ByteOrder) (xs : List Bytes) (num n : Nat) (key : Vector Word 8) (off : U64) (ds : List U64) (f fs fe : Byte)
    (out : Bytes) : (CI.hash_many_neon o xs num n key off ds f fs fe out).res = C.Neon.hash_many_neon o xs num n key off ds f fs fe out :=
  hash_many_neon_loop4_res ..

theorem hash_many_res (cfg : C.Config) (xs : List Bytes) (num n : Nat) (key : Vector Word 8) (off : U64) (ds : List U64)
    (f fs fe : Byte) (out : Bytes) :
    (CI.hash_many cfg xs num n key off ds f fs fe out).res = C.hash_many cfg xs num n key off ds f fs fe out := by
  simp only [CI.hash_many, C.hash_many, res_ite, hash_many_avx512_res, hash_many_avx2_res, hash_many_sse41_res,
    hash_many_neon_res, hash_many_portable_res]

theorem fill_buf_res (cfg : C.Config) (s : chunk_state) (x : Bytes) (n : Nat) :
    (CI.chunk_state_fill_buf cfg s x n).res = C.chunk_state_fill_buf cfg s x n := by
  simp only [CI.chunk_state_fill_buf, C.chunk_state_fill_buf, res_enter, res_bind, res_lift]
  rfl

theorem update_first_res (cfg : C.Config) (s : chunk_state) (x : Bytes) (n : Nat) :
    (CI.chunk_state_update_first cfg s x n).res = C.chunk_state_update_first cfg s x n := by
  rw [CI.chunk_state_update_first, C.chunk_state_update_first, res_ite]
  simp only [res_bind, res_lift, compress_res, fill_buf_res, hash_many_res, res_ite]
  rfl

theorem update_blocks_res (cfg : C.Config) (s : chunk_state) (x : Bytes) (n : Nat) :
    (CI.chunk_state_update_blocks cfg s x n).res = C.chunk_state_update_blocks cfg s x n := by
  induction n using Nat.strongRecOn generalizing s x with
  | ind n ih =>
  rw [CI.chunk_state_update_blocks, C.chunk_state_update_blocks, res_ite]
  split
  next h =>
    simp only [res_bind, res_lift, compress_res, fill_buf_res, hash_many_res, ih (n - C.BLOCK_LEN) (by simp only [C.BLOCK_LEN] at *; omega)]
  next => rfl

theorem chunk_update_res (cfg : C.Config) (s : chunk_state) (x : Bytes) (n : Nat) :
    (CI.chunk_state_update cfg s x n).res = C.chunk_state_update cfg s x n := by
  simp only [CI.chunk_state_update, C.chunk_state_update, res_bind, res_lift, compress_res, fill_buf_res, hash_many_res, update_first_res, update_blocks_res]
  rfl

theorem chunk_finalize_res (cfg : C.Config) (s : chunk_state) (r : Bool) (out : Bytes) :
    (CI.chunk_state_finalize cfg s r out).res = C.chunk_state_finalize cfg s r out := by
  simp only [CI.chunk_state_finalize, C.chunk_state_finalize, res_bind, res_lift, compress_res, fill_buf_res, hash_many_res]

theorem hash_one_parent_res (cfg : C.Config) (b : Bytes) (k : Vector Word 8) (r : Bool) (f : Byte) (out : Bytes) :
    (CI.hash_one_parent cfg b k r f out).res = C.hash_one_parent cfg b k r f out := by
  simp only [CI.hash_one_parent, C.hash_one_parent, res_bind, res_lift, compress_res, fill_buf_res, hash_many_res]

theorem merge_parent_res (cfg : C.Config) (h : hasher) :
    (CI.hasher_merge_parent cfg h).res = C.hasher_merge_parent cfg h := by
  simp only [CI.hasher_merge_parent, C.hasher_merge_parent, res_bind, res_lift, compress_res, fill_buf_res, hash_many_res, hash_one_parent_res]
  rfl

theorem merge_loop_res (cfg : C.Config) (h : hasher) (off : U64) :
    (CI.merge_loop cfg h off).res = C.merge_loop cfg h off := by
  fun_induction C.merge_loop cfg h off with
  | case1 h hm e he => rw [CI.merge_loop, dif_pos hm]; split <;> simp_all
  | case2 h hm h' he ih =>
    rw [CI.merge_loop, dif_pos hm]
    split
    next e he' => rw [he] at he'; cases he'
    next h'' he' => rw [he] at he'; cases he'; exact ih
  | case3 h hm => rw [CI.merge_loop, dif_neg hm]; rfl

theorem push_res (cfg : C.Config) (h : hasher) (x : Bytes) (off : U64) :
    (CI.hasher_push_chunk_hash cfg h x off).res = C.hasher_push_chunk_hash cfg h x off := by
  simp only [CI.hasher_push_chunk_hash, C.hasher_push_chunk_hash, res_bind, res_lift, compress_res, fill_buf_res, hash_many_res, merge_loop_res]
  rfl

theorem push_chunks_res (cfg : C.Config) (h : hasher) (x : Bytes) (i left : Nat) :
    (CI.push_chunks cfg h x i left).res = C.push_chunks cfg h x i left := by
  induction left generalizing h i with
  | zero => rfl
  | succ n ih =>
    rw [CI.push_chunks, C.push_chunks]
    simp only [res_bind, res_lift, compress_res, fill_buf_res, hash_many_res, push_res, ih]

theorem update_loop_res (cfg : C.Config) (h : hasher) (out : Bytes) (cs : List Bytes) (x : Bytes) (n : Nat) :
    (CI.update_loop cfg h out cs x n).res = C.update_loop cfg h out cs x n := by
  induction n using Nat.strongRecOn generalizing h out cs x with
  | ind n ih =>
  rw [CI.update_loop, C.update_loop, res_dite]
  split
  next hn =>
    split
    next e he =>
      split
      next e' he' => rw [he] at he'; cases he'; rfl
      next he' => rw [he] at he'; cases he'
    next cs' x' n' k he =>
      split
      next e' he' => rw [he] at he'; cases he'
      next he' =>
        rw [he] at he'
        cases he'
        simp only [res_bind, res_lift, compress_res, fill_buf_res, hash_many_res, push_chunks_res, ih n' (collect_lt hn he)]
  next => rfl

theorem update_rest_res (cfg : C.Config) (h : hasher) (x : Bytes) (n : Nat) :
    (CI.hasher_update_rest cfg h x n).res = C.hasher_update_rest cfg h x n := by
  simp only [CI.hasher_update_rest, C.hasher_update_rest, res_bind, res_lift, compress_res, fill_buf_res, hash_many_res, update_loop_res, res_ite, merge_loop_res,
    chunk_update_res]
  rfl

theorem update_res (cfg : C.Config) (h : hasher) (x : Bytes) (n : Nat) :
    (CI.hasher_update cfg h x n).res = C.hasher_update cfg h x n := by
  simp only [CI.hasher_update, C.hasher_update, res_bind, res_lift, compress_res, fill_buf_res, hash_many_res, res_ite, push_res, chunk_update_res,
    chunk_finalize_res, update_rest_res]
  rfl

theorem finalize_loop_res (cfg : C.Config) (h : hasher) (out : Bytes) (fuel : Nat) (wh : Bytes) (i : Nat) :
    (CI.finalize_loop cfg h out fuel wh i).res = C.finalize_loop cfg h out fuel wh i := by
  induction fuel generalizing wh i with
  | zero => rfl
  | succ n ih =>
    rw [CI.finalize_loop, C.finalize_loop]
    simp only [res_bind, res_lift, compress_res, fill_buf_res, hash_many_res, res_ite, hash_one_parent_res, ih]

theorem finalize_res (cfg : C.Config) (h : hasher) (out : Bytes) :
    (CI.hasher_finalize cfg h out).res = C.hasher_finalize cfg h out := by
  simp only [CI.hasher_finalize, C.hasher_finalize, res_bind, res_lift, compress_res, fill_buf_res, hash_many_res, res_ite, chunk_finalize_res, finalize_loop_res]

end Baokeshed.Proofs.CI
