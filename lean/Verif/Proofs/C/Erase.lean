import Verif.Model.C.Trace
import Verif.Proofs.Erase

/-! # Without the record of compressions, Model/C/Trace.lean is Model/C/Hasher.lean -/

set_option linter.unusedVariables false
set_option linter.unusedSimpArgs false

namespace Baokeshed.Proofs.CT
open Baokeshed.Model Baokeshed.Model.C Baokeshed.Model.T Baokeshed.Proofs.T

theorem hash_one_portable_loop_res (f fe : Byte) (off : U64) (n : Nat) (st : Vector Word 8) (x : Bytes) (bf : Byte) :
    (CT.hash_one_portable_loop f fe off n st x bf).res = C.Portable.hash_one_portable_loop f fe off n st x bf := by
  induction n generalizing st x bf with
  | zero => rfl
  | succ n ih =>
    rw [CT.hash_one_portable_loop, C.Portable.hash_one_portable_loop]
    simp only [res_bind, res_lift, ih]
    rfl

theorem hash_one_portable_res (x : Bytes) (n : Nat) (key : Vector Word 8) (off : U64) (f fs fe : Byte) (out : Bytes) :
    (CT.hash_one_portable x n key off f fs fe out).res = C.Portable.hash_one_portable x n key off f fs fe out := by
  simp only [CT.hash_one_portable, C.Portable.hash_one_portable, res_bind, res_lift, hash_one_portable_loop_res]

/-- the record kept for `hash_many` is that of a computation of the same result as `hash_many_portable` -/
theorem hash_many_portable_res (n : Nat) (key : Vector Word 8) (ds : List U64) (f fs fe : Byte) (num : Nat)
    (xs : List Bytes) (off : U64) (out : Bytes) :
    (CT.hash_many_portable_loop n key ds f fs fe num xs off out).res =
      C.Portable.hash_many_portable xs num n key off ds f fs fe out := by
  rw [C.Portable.hash_many_portable]
  induction num generalizing xs off out with
  | zero => rfl
  | succ num ih =>
    rw [CT.hash_many_portable_loop, C.Portable.hash_many_portable_loop]
    simp only [res_bind, res_lift, hash_one_portable_res, ih]
    rfl

theorem update_first_res (cfg : C.Config) (s : chunk_state) (x : Bytes) (n : Nat) :
    (CT.chunk_state_update_first cfg s x n).res = C.chunk_state_update_first cfg s x n := by
  rw [CT.chunk_state_update_first, C.chunk_state_update_first, res_ite]
  simp only [res_bind, res_lift, res_ite]
  rfl

theorem update_blocks_res (cfg : C.Config) (s : chunk_state) (x : Bytes) (n : Nat) :
    (CT.chunk_state_update_blocks cfg s x n).res = C.chunk_state_update_blocks cfg s x n := by
  induction n using Nat.strongRecOn generalizing s x with
  | ind n ih =>
  rw [CT.chunk_state_update_blocks, C.chunk_state_update_blocks, res_ite]
  split
  next h =>
    simp only [res_bind, res_lift, ih (n - C.BLOCK_LEN) (by simp only [C.BLOCK_LEN] at *; omega)]
    rfl
  next => rfl

theorem chunk_update_res (cfg : C.Config) (s : chunk_state) (x : Bytes) (n : Nat) :
    (CT.chunk_state_update cfg s x n).res = C.chunk_state_update cfg s x n := by
  simp only [CT.chunk_state_update, C.chunk_state_update, res_bind, res_lift, update_first_res, update_blocks_res]
  rfl

theorem chunk_finalize_res (cfg : C.Config) (s : chunk_state) (r : Bool) (out : Bytes) :
    (CT.chunk_state_finalize cfg s r out).res = C.chunk_state_finalize cfg s r out := by
  simp only [CT.chunk_state_finalize, C.chunk_state_finalize, res_bind, res_lift]
  rfl

theorem hash_one_parent_res (cfg : C.Config) (b : Bytes) (k : Vector Word 8) (r : Bool) (f : Byte) (out : Bytes) :
    (CT.hash_one_parent cfg b k r f out).res = C.hash_one_parent cfg b k r f out := by
  simp only [CT.hash_one_parent, C.hash_one_parent, res_bind, res_lift]
  rfl

theorem merge_parent_res (cfg : C.Config) (h : hasher) :
    (CT.hasher_merge_parent cfg h).res = C.hasher_merge_parent cfg h := by
  simp only [CT.hasher_merge_parent, C.hasher_merge_parent, res_bind, res_lift, hash_one_parent_res]
  rfl

theorem merge_loop_res (cfg : C.Config) (h : hasher) (off : U64) :
    (CT.merge_loop cfg h off).res = C.merge_loop cfg h off := by
  fun_induction C.merge_loop cfg h off with
  | case1 h hm e he => rw [CT.merge_loop, dif_pos hm]; split <;> simp_all
  | case2 h hm h' he ih =>
    rw [CT.merge_loop, dif_pos hm]
    split
    next e he' => rw [he] at he'; cases he'
    next h'' he' => rw [he] at he'; cases he'; exact ih
  | case3 h hm => rw [CT.merge_loop, dif_neg hm]; rfl

theorem push_res (cfg : C.Config) (h : hasher) (x : Bytes) (off : U64) :
    (CT.hasher_push_chunk_hash cfg h x off).res = C.hasher_push_chunk_hash cfg h x off := by
  simp only [CT.hasher_push_chunk_hash, C.hasher_push_chunk_hash, res_bind, res_lift, merge_loop_res]
  rfl

theorem push_chunks_res (cfg : C.Config) (h : hasher) (x : Bytes) (i left : Nat) :
    (CT.push_chunks cfg h x i left).res = C.push_chunks cfg h x i left := by
  induction left generalizing h i with
  | zero => rfl
  | succ n ih =>
    rw [CT.push_chunks, C.push_chunks]
    simp only [res_bind, res_lift, push_res, ih]

theorem update_loop_res (cfg : C.Config) (h : hasher) (out : Bytes) (cs : List Bytes) (x : Bytes) (n : Nat) :
    (CT.update_loop cfg h out cs x n).res = C.update_loop cfg h out cs x n := by
  induction n using Nat.strongRecOn generalizing h out cs x with
  | ind n ih =>
  rw [CT.update_loop, C.update_loop, res_dite]
  split
  next hn =>
    split
    next e he =>
      split
      next e' he' => rw [he] at he'; cases he'; rfl
      next he' => rw [he] at he'; cases he'
    next cs' x' n' k he =>
      split
      next e' he' => rw [he] at he'; cases he'
      next he' =>
        rw [he] at he'
        cases he'
        simp only [res_bind, res_lift, push_chunks_res, ih n' (collect_lt hn he)]
        rfl
  next => rfl

theorem update_rest_res (cfg : C.Config) (h : hasher) (x : Bytes) (n : Nat) :
    (CT.hasher_update_rest cfg h x n).res = C.hasher_update_rest cfg h x n := by
  simp only [CT.hasher_update_rest, C.hasher_update_rest, res_bind, res_lift, update_loop_res, res_ite, merge_loop_res,
    chunk_update_res]
  rfl

theorem update_res (cfg : C.Config) (h : hasher) (x : Bytes) (n : Nat) :
    (CT.hasher_update cfg h x n).res = C.hasher_update cfg h x n := by
  simp only [CT.hasher_update, C.hasher_update, res_bind, res_lift, res_ite, push_res, chunk_update_res,
    chunk_finalize_res, update_rest_res]
  rfl

theorem finalize_loop_res (cfg : C.Config) (h : hasher) (out : Bytes) (fuel : Nat) (wh : Bytes) (i : Nat) :
    (CT.finalize_loop cfg h out fuel wh i).res = C.finalize_loop cfg h out fuel wh i := by
  induction fuel generalizing wh i with
  | zero => rfl
  | succ n ih =>
    rw [CT.finalize_loop, C.finalize_loop]
    simp only [res_bind, res_lift, res_ite, hash_one_parent_res, ih]

theorem finalize_res (cfg : C.Config) (h : hasher) (out : Bytes) :
    (CT.hasher_finalize cfg h out).res = C.hasher_finalize cfg h out := by
  simp only [CT.hasher_finalize, C.hasher_finalize, res_bind, res_lift, res_ite, chunk_finalize_res, finalize_loop_res]

end Baokeshed.Proofs.CT
