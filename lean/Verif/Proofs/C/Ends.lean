import Verif.Model.C.Pointer

/-!
# C: how a call fails

The functions of /repo/c fail in two ways only: with undefined behaviour, or because an assertion fails, which needs `NDEBUG` to be
undefined.
-/

set_option linter.unusedVariables false

namespace Baokeshed.Proofs.C
open Baokeshed.Model Baokeshed.Model.C

/-- if `x` fails, then with undefined behaviour, or by an assertion if there are any -/
def Ends {α : Type} (asserts : Bool) (x : R α) : Prop := ∀ e, x = .error e → e = .ub ∨ asserts = true ∧ e = .assert

variable {b : Bool}

theorem ends_ok {α : Type} (a : α) : Ends b (.ok a : R α) := fun e h => by cases h

theorem ends_pure {α : Type} (a : α) : Ends b (pure a : R α) := ends_ok a

theorem ends_ub {α : Type} : Ends b (.error .ub : R α) := fun e h => by cases h; exact Or.inl rfl

theorem ends_bind {α β : Type} {x : R α} {f : α → R β} (hx : Ends b x) (hf : ∀ a, Ends b (f a)) : Ends b (x >>= f) := by
  intro e h
  cases x with
  | error e' => cases h; exact hx e rfl
  | ok a => exact hf a e h

theorem ends_ite {α : Type} {c : Prop} [Decidable c] {x y : R α} (hx : Ends b x) (hy : Ends b y) : Ends b (if c then x else y) := by
  split <;> assumption

theorem ends_dite {α : Type} {c : Prop} [Decidable c] {x : c → R α} {y : ¬ c → R α} (hx : ∀ h, Ends b (x h)) (hy : ∀ h, Ends b (y h)) :
    Ends b (if h : c then x h else y h) := by
  split
  · exact hx _
  · exact hy _

/-- one step of the proofs below -/
syntax "ends_step" : tactic
macro_rules | `(tactic| ends_step) => `(tactic| exact ends_ok _)
macro_rules | `(tactic| ends_step) => `(tactic| exact ends_pure _)
macro_rules | `(tactic| ends_step) => `(tactic| exact ends_ub)
macro_rules | `(tactic| ends_step) => `(tactic| with_reducible refine ends_ite ?_ ?_)
macro_rules | `(tactic| ends_step) => `(tactic| with_reducible refine ends_dite (fun _ => ?_) (fun _ => ?_))
macro_rules | `(tactic| ends_step) => `(tactic| with_reducible refine ends_bind ?_ (fun _ => ?_))
macro_rules | `(tactic| ends_step) => `(tactic| assumption)

theorem cIndex_ends {α : Type} (p : List α) (i : Nat) : Ends b (cIndex p i) := by
  rw [cIndex]
  split
  · exact ends_ok _
  · exact ends_ub

macro_rules | `(tactic| ends_step) => `(tactic| with_reducible apply cIndex_ends)

theorem cAdvance_ends {α : Type} (p : List α) (i : Nat) : Ends b (cAdvance p i) := by
  rw [cAdvance]
  split
  · exact ends_ok _
  · exact ends_ub

macro_rules | `(tactic| ends_step) => `(tactic| with_reducible apply cAdvance_ends)

theorem cStore_ends {α : Type} (p : List α) (i : Nat) (d : List α) : Ends b (cStore p i d) := by
  rw [cStore]
  split
  · exact ends_ok _
  · exact ends_ub

macro_rules | `(tactic| ends_step) => `(tactic| with_reducible apply cStore_ends)

theorem cLoad_ends {α : Type} (p : List α) (i n : Nat) : Ends b (cLoad p i n) := by
  rw [cLoad]
  split
  · exact ends_ok _
  · exact ends_ub

macro_rules | `(tactic| ends_step) => `(tactic| with_reducible apply cLoad_ends)

theorem loadBytes_ends (k : Nat) (p : Bytes) (off : Nat) : Ends b (loadBytes k p off) := by
  rw [loadBytes]
  split
  · exact ends_ok _
  · exact ends_ub

macro_rules | `(tactic| ends_step) => `(tactic| with_reducible apply loadBytes_ends)

theorem loadU64s_ends (k : Nat) (p : List U64) (off : Nat) : Ends b (loadU64s k p off) := by
  rw [loadU64s]
  split
  · exact ends_ok _
  · exact ends_ub

macro_rules | `(tactic| ends_step) => `(tactic| with_reducible apply loadU64s_ends)

theorem C_memcpy_ends {α : Type} (dst : List α) (off : Nat) (src : List α) (n : Nat) : Ends b (C.memcpy dst off src n) := by
  rw [C.memcpy]
  repeat ends_step

macro_rules | `(tactic| ends_step) => `(tactic| with_reducible apply C_memcpy_ends)

theorem load32_ends (p : Bytes) (i : Nat) : Ends b (load32 p i) := by
  rw [load32]
  repeat ends_step

macro_rules | `(tactic| ends_step) => `(tactic| with_reducible apply load32_ends)

theorem store32_ends (p : Bytes) (i : Nat) (w : Word) : Ends b (store32 p i w) := by
  rw [store32]
  repeat ends_step

macro_rules | `(tactic| ends_step) => `(tactic| with_reducible apply store32_ends)

theorem load_msg_words_ends (p : Bytes) : Ends b (load_msg_words p) := by
  rw [load_msg_words]
  repeat ends_step

macro_rules | `(tactic| ends_step) => `(tactic| with_reducible apply load_msg_words_ends)

theorem load_key_words_ends (p : Bytes) : Ends b (load_key_words p) := by
  rw [load_key_words]
  repeat ends_step

macro_rules | `(tactic| ends_step) => `(tactic| with_reducible apply load_key_words_ends)

theorem write_state_bytes_ends (s : Vector Word 8) (p : Bytes) : Ends b (write_state_bytes s p) := by
  rw [write_state_bytes]
  repeat ends_step

macro_rules | `(tactic| ends_step) => `(tactic| with_reducible apply write_state_bytes_ends)

/-! ## baokeshed_portable.c -/

theorem Portable_compress_portable_ends (state : Vector Word 8) (block : Bytes) (block_len : Byte) (offset : U64) (flags : Byte) : Ends b (Portable.compress_portable state block block_len offset flags) := by
  rw [Portable.compress_portable]
  repeat ends_step

macro_rules | `(tactic| ends_step) => `(tactic| with_reducible apply Portable_compress_portable_ends)

theorem Portable_hash_one_portable_loop_ends (flags flags_end : Byte) (offset : U64) (n : Nat) (state : Vector Word 8) (input : Bytes) (bf : Byte) : Ends b (Portable.hash_one_portable_loop flags flags_end offset n state input bf) := by
  induction n generalizing state input bf with
  | zero => rw [Portable.hash_one_portable_loop]; exact ends_ok _
  | succ n ih =>
    rw [Portable.hash_one_portable_loop]
    repeat (first | ends_step | exact ih _ _ _)

macro_rules | `(tactic| ends_step) => `(tactic| with_reducible apply Portable_hash_one_portable_loop_ends)

theorem Portable_hash_one_portable_ends (input : Bytes) (blocks : Nat) (key : Vector Word 8) (offset : U64) (flags fs fe : Byte) (out : Bytes) : Ends b (Portable.hash_one_portable input blocks key offset flags fs fe out) := by
  rw [Portable.hash_one_portable]
  repeat ends_step

macro_rules | `(tactic| ends_step) => `(tactic| with_reducible apply Portable_hash_one_portable_ends)

theorem Portable_hash_many_portable_loop_ends (blocks : Nat) (key : Vector Word 8) (deltas : List U64) (flags fs fe : Byte) (n : Nat) (inputs : List Bytes) (offset : U64) (out : Bytes) : Ends b (Portable.hash_many_portable_loop blocks key deltas flags fs fe n inputs offset out) := by
  induction n generalizing inputs offset out with
  | zero => rw [Portable.hash_many_portable_loop]; exact ends_ok _
  | succ n ih =>
    rw [Portable.hash_many_portable_loop]
    repeat (first | ends_step | exact ih _ _ _)

macro_rules | `(tactic| ends_step) => `(tactic| with_reducible apply Portable_hash_many_portable_loop_ends)

theorem Portable_hash_many_portable_ends (inputs : List Bytes) (n blocks : Nat) (key : Vector Word 8) (offset : U64) (deltas : List U64) (flags fs fe : Byte) (out : Bytes) : Ends b (Portable.hash_many_portable inputs n blocks key offset deltas flags fs fe out) := by
  rw [Portable.hash_many_portable]
  repeat ends_step

macro_rules | `(tactic| ends_step) => `(tactic| with_reducible apply Portable_hash_many_portable_ends)

/-! ## baokeshed_sse41.c -/

theorem C_Sse41_loadu_ends (p : Bytes) (off : Nat) : Ends b (C.Sse41.loadu p off) := loadBytes_ends 16 p off

macro_rules | `(tactic| ends_step) => `(tactic| with_reducible apply C_Sse41_loadu_ends)

theorem C_Sse41_storeu_ends (x : M128) (p : Bytes) (off : Nat) : Ends b (C.Sse41.storeu x p off) := by
  rw [C.Sse41.storeu]
  repeat ends_step

macro_rules | `(tactic| ends_step) => `(tactic| with_reducible apply C_Sse41_storeu_ends)

theorem C_Sse41_compress_sse41_ends (state : Vector Word 8) (block : Bytes) (block_len : Byte) (offset : U64) (flags : Byte) : Ends b (C.Sse41.compress_sse41 state block block_len offset flags) := by
  rw [C.Sse41.compress_sse41]
  repeat ends_step

macro_rules | `(tactic| ends_step) => `(tactic| with_reducible apply C_Sse41_compress_sse41_ends)

theorem C_Sse41_transpose_msg_vecs_ends (inputs : List Bytes) (off : Nat) : Ends b (C.Sse41.transpose_msg_vecs inputs off) := by
  rw [C.Sse41.transpose_msg_vecs]
  repeat ends_step

macro_rules | `(tactic| ends_step) => `(tactic| with_reducible apply C_Sse41_transpose_msg_vecs_ends)

theorem C_Sse41_load_offsets_ends (offset : U64) (deltas : List U64) : Ends b (C.Sse41.load_offsets offset deltas) := by
  rw [C.Sse41.load_offsets]
  repeat ends_step

macro_rules | `(tactic| ends_step) => `(tactic| with_reducible apply C_Sse41_load_offsets_ends)

theorem C_Sse41_hash4_sse41_loop_ends (inputs : List Bytes) (blocks : Nat) (lo hi : M128) (flags fe : Byte) (n block : Nat) (h : Vector M128 8) (bf : Byte) : Ends b (C.Sse41.hash4_sse41_loop inputs blocks lo hi flags fe n block h bf) := by
  induction n generalizing block h bf with
  | zero => rw [C.Sse41.hash4_sse41_loop]; exact ends_ok _
  | succ n ih =>
    rw [C.Sse41.hash4_sse41_loop]
    repeat (first | ends_step | exact ih _ _ _)

macro_rules | `(tactic| ends_step) => `(tactic| with_reducible apply C_Sse41_hash4_sse41_loop_ends)

theorem C_Sse41_hash4_sse41_store_ends (h : Vector M128 8) (out : Bytes) : Ends b (C.Sse41.hash4_sse41_store h out) := by
  rw [C.Sse41.hash4_sse41_store]
  repeat ends_step

macro_rules | `(tactic| ends_step) => `(tactic| with_reducible apply C_Sse41_hash4_sse41_store_ends)

theorem C_Sse41_hash4_sse41_ends (inputs : List Bytes) (blocks : Nat) (key : Vector Word 8) (offset : U64) (deltas : List U64) (flags fs fe : Byte) (out : Bytes) : Ends b (C.Sse41.hash4_sse41 inputs blocks key offset deltas flags fs fe out) := by
  rw [C.Sse41.hash4_sse41]
  repeat ends_step

macro_rules | `(tactic| ends_step) => `(tactic| with_reducible apply C_Sse41_hash4_sse41_ends)

theorem C_Sse41_hash_one_sse41_loop_ends (flags flags_end : Byte) (offset : U64) (n : Nat) (state : Vector Word 8) (input : Bytes) (bf : Byte) : Ends b (C.Sse41.hash_one_sse41_loop flags flags_end offset n state input bf) := by
  induction n generalizing state input bf with
  | zero => rw [C.Sse41.hash_one_sse41_loop]; exact ends_ok _
  | succ n ih =>
    rw [C.Sse41.hash_one_sse41_loop]
    repeat (first | ends_step | exact ih _ _ _)

macro_rules | `(tactic| ends_step) => `(tactic| with_reducible apply C_Sse41_hash_one_sse41_loop_ends)

theorem C_Sse41_hash_one_sse41_ends (input : Bytes) (blocks : Nat) (key : Vector Word 8) (offset : U64) (flags fs fe : Byte) (out : Bytes) : Ends b (C.Sse41.hash_one_sse41 input blocks key offset flags fs fe out) := by
  rw [C.Sse41.hash_one_sse41]
  repeat ends_step

macro_rules | `(tactic| ends_step) => `(tactic| with_reducible apply C_Sse41_hash_one_sse41_ends)

theorem C_Sse41_hash_many_sse41_loop1_ends (blocks : Nat) (key : Vector Word 8) (deltas : List U64) (flags fs fe : Byte) (n : Nat) (inputs : List Bytes) (offset : U64) (out : Bytes) : Ends b (C.Sse41.hash_many_sse41_loop1 blocks key deltas flags fs fe n inputs offset out) := by
  induction n generalizing inputs offset out with
  | zero => rw [C.Sse41.hash_many_sse41_loop1]; exact ends_ok _
  | succ n ih =>
    rw [C.Sse41.hash_many_sse41_loop1]
    repeat (first | ends_step | exact ih _ _ _)

macro_rules | `(tactic| ends_step) => `(tactic| with_reducible apply C_Sse41_hash_many_sse41_loop1_ends)

theorem C_Sse41_hash_many_sse41_loop4_ends (blocks : Nat) (key : Vector Word 8) (deltas : List U64) (flags fs fe : Byte) (n : Nat) (inputs : List Bytes) (offset : U64) (out : Bytes) : Ends b (C.Sse41.hash_many_sse41_loop4 blocks key deltas flags fs fe n inputs offset out) := by
  induction n using Nat.strongRecOn generalizing inputs offset out with
  | ind n ih =>
    rw [C.Sse41.hash_many_sse41_loop4]
    repeat (first | ends_step | exact ih _ (by omega) _ _ _)

macro_rules | `(tactic| ends_step) => `(tactic| with_reducible apply C_Sse41_hash_many_sse41_loop4_ends)

theorem C_Sse41_hash_many_sse41_ends (inputs : List Bytes) (n blocks : Nat) (key : Vector Word 8) (offset : U64) (deltas : List U64) (flags fs fe : Byte) (out : Bytes) : Ends b (C.Sse41.hash_many_sse41 inputs n blocks key offset deltas flags fs fe out) := by
  rw [C.Sse41.hash_many_sse41]
  repeat ends_step

macro_rules | `(tactic| ends_step) => `(tactic| with_reducible apply C_Sse41_hash_many_sse41_ends)

/-! ## baokeshed_avx2.c -/

theorem C_Avx2_loadu_ends (p : Bytes) (off : Nat) : Ends b (C.Avx2.loadu p off) := loadBytes_ends 32 p off

macro_rules | `(tactic| ends_step) => `(tactic| with_reducible apply C_Avx2_loadu_ends)

theorem C_Avx2_storeu_ends (x : M256) (p : Bytes) (off : Nat) : Ends b (C.Avx2.storeu x p off) := by
  rw [C.Avx2.storeu]
  repeat ends_step

macro_rules | `(tactic| ends_step) => `(tactic| with_reducible apply C_Avx2_storeu_ends)

theorem C_Avx2_transpose_msg_vecs_ends (inputs : List Bytes) (off : Nat) : Ends b (C.Avx2.transpose_msg_vecs inputs off) := by
  rw [C.Avx2.transpose_msg_vecs]
  repeat ends_step

macro_rules | `(tactic| ends_step) => `(tactic| with_reducible apply C_Avx2_transpose_msg_vecs_ends)

theorem C_Avx2_load_offsets_ends (offset : U64) (deltas : List U64) : Ends b (C.Avx2.load_offsets offset deltas) := by
  rw [C.Avx2.load_offsets]
  repeat ends_step

macro_rules | `(tactic| ends_step) => `(tactic| with_reducible apply C_Avx2_load_offsets_ends)

theorem C_Avx2_hash8_avx2_loop_ends (inputs : List Bytes) (blocks : Nat) (lo hi : M256) (flags fe : Byte) (n block : Nat) (h : Vector M256 8) (bf : Byte) : Ends b (C.Avx2.hash8_avx2_loop inputs blocks lo hi flags fe n block h bf) := by
  induction n generalizing block h bf with
  | zero => rw [C.Avx2.hash8_avx2_loop]; exact ends_ok _
  | succ n ih =>
    rw [C.Avx2.hash8_avx2_loop]
    repeat (first | ends_step | exact ih _ _ _)

macro_rules | `(tactic| ends_step) => `(tactic| with_reducible apply C_Avx2_hash8_avx2_loop_ends)

theorem C_Avx2_hash8_avx2_store_ends (h : Vector M256 8) (out : Bytes) : Ends b (C.Avx2.hash8_avx2_store h out) := by
  rw [C.Avx2.hash8_avx2_store]
  repeat ends_step

macro_rules | `(tactic| ends_step) => `(tactic| with_reducible apply C_Avx2_hash8_avx2_store_ends)

theorem C_Avx2_hash8_avx2_ends (inputs : List Bytes) (blocks : Nat) (key : Vector Word 8) (offset : U64) (deltas : List U64) (flags fs fe : Byte) (out : Bytes) : Ends b (C.Avx2.hash8_avx2 inputs blocks key offset deltas flags fs fe out) := by
  rw [C.Avx2.hash8_avx2]
  repeat ends_step

macro_rules | `(tactic| ends_step) => `(tactic| with_reducible apply C_Avx2_hash8_avx2_ends)

theorem C_Avx2_hash_many_avx2_loop_ends (blocks : Nat) (key : Vector Word 8) (deltas : List U64) (flags fs fe : Byte) (n : Nat) (inputs : List Bytes) (offset : U64) (out : Bytes) : Ends b (C.Avx2.hash_many_avx2_loop blocks key deltas flags fs fe n inputs offset out) := by
  induction n using Nat.strongRecOn generalizing inputs offset out with
  | ind n ih =>
    rw [C.Avx2.hash_many_avx2_loop]
    repeat (first | ends_step | exact ih _ (by omega) _ _ _)

macro_rules | `(tactic| ends_step) => `(tactic| with_reducible apply C_Avx2_hash_many_avx2_loop_ends)

theorem C_Avx2_hash_many_avx2_ends (inputs : List Bytes) (n blocks : Nat) (key : Vector Word 8) (offset : U64) (deltas : List U64) (flags fs fe : Byte) (out : Bytes) : Ends b (C.Avx2.hash_many_avx2 inputs n blocks key offset deltas flags fs fe out) := by
  rw [C.Avx2.hash_many_avx2]
  repeat ends_step

macro_rules | `(tactic| ends_step) => `(tactic| with_reducible apply C_Avx2_hash_many_avx2_ends)

/-! ## baokeshed_avx512.c -/

theorem Avx512_loadu_128_ends (p : Bytes) (off : Nat) : Ends b (Avx512.loadu_128 p off) := loadBytes_ends 16 p off

macro_rules | `(tactic| ends_step) => `(tactic| with_reducible apply Avx512_loadu_128_ends)

theorem Avx512_loadu_256_ends (p : Bytes) (off : Nat) : Ends b (Avx512.loadu_256 p off) := loadBytes_ends 32 p off

macro_rules | `(tactic| ends_step) => `(tactic| with_reducible apply Avx512_loadu_256_ends)

theorem Avx512_loadu_512_ends (p : Bytes) (off : Nat) : Ends b (Avx512.loadu_512 p off) := loadBytes_ends 64 p off

macro_rules | `(tactic| ends_step) => `(tactic| with_reducible apply Avx512_loadu_512_ends)

theorem Avx512_storeu_128_ends (x : M128) (p : Bytes) (off : Nat) : Ends b (Avx512.storeu_128 x p off) := by
  rw [Avx512.storeu_128]
  repeat ends_step

macro_rules | `(tactic| ends_step) => `(tactic| with_reducible apply Avx512_storeu_128_ends)

theorem Avx512_storeu_256_ends (x : M256) (p : Bytes) (off : Nat) : Ends b (Avx512.storeu_256 x p off) := by
  rw [Avx512.storeu_256]
  repeat ends_step

macro_rules | `(tactic| ends_step) => `(tactic| with_reducible apply Avx512_storeu_256_ends)

theorem Avx512_compress_avx512_ends (state : Vector Word 8) (block : Bytes) (block_len : Byte) (offset : U64) (flags : Byte) : Ends b (Avx512.compress_avx512 state block block_len offset flags) := by
  rw [Avx512.compress_avx512]
  repeat ends_step

macro_rules | `(tactic| ends_step) => `(tactic| with_reducible apply Avx512_compress_avx512_ends)

theorem Avx512_transpose_msg_vecs4_ends (inputs : List Bytes) (off : Nat) : Ends b (Avx512.transpose_msg_vecs4 inputs off) := by
  rw [Avx512.transpose_msg_vecs4]
  repeat ends_step

macro_rules | `(tactic| ends_step) => `(tactic| with_reducible apply Avx512_transpose_msg_vecs4_ends)

theorem Avx512_load_offsets4_ends (offset : U64) (deltas : List U64) : Ends b (Avx512.load_offsets4 offset deltas) := by
  rw [Avx512.load_offsets4]
  repeat ends_step

macro_rules | `(tactic| ends_step) => `(tactic| with_reducible apply Avx512_load_offsets4_ends)

theorem Avx512_hash4_avx512_loop_ends (inputs : List Bytes) (blocks : Nat) (lo hi : M128) (flags fe : Byte) (n block : Nat) (h : Vector M128 8) (bf : Byte) : Ends b (Avx512.hash4_avx512_loop inputs blocks lo hi flags fe n block h bf) := by
  induction n generalizing block h bf with
  | zero => rw [Avx512.hash4_avx512_loop]; exact ends_ok _
  | succ n ih =>
    rw [Avx512.hash4_avx512_loop]
    repeat (first | ends_step | exact ih _ _ _)

macro_rules | `(tactic| ends_step) => `(tactic| with_reducible apply Avx512_hash4_avx512_loop_ends)

theorem Avx512_hash4_avx512_store_ends (h : Vector M128 8) (out : Bytes) : Ends b (Avx512.hash4_avx512_store h out) := by
  rw [Avx512.hash4_avx512_store]
  repeat ends_step

macro_rules | `(tactic| ends_step) => `(tactic| with_reducible apply Avx512_hash4_avx512_store_ends)

theorem Avx512_hash4_avx512_ends (inputs : List Bytes) (blocks : Nat) (key : Vector Word 8) (offset : U64) (deltas : List U64) (flags fs fe : Byte) (out : Bytes) : Ends b (Avx512.hash4_avx512 inputs blocks key offset deltas flags fs fe out) := by
  rw [Avx512.hash4_avx512]
  repeat ends_step

macro_rules | `(tactic| ends_step) => `(tactic| with_reducible apply Avx512_hash4_avx512_ends)

theorem Avx512_transpose_msg_vecs8_ends (inputs : List Bytes) (off : Nat) : Ends b (Avx512.transpose_msg_vecs8 inputs off) := by
  rw [Avx512.transpose_msg_vecs8]
  repeat ends_step

macro_rules | `(tactic| ends_step) => `(tactic| with_reducible apply Avx512_transpose_msg_vecs8_ends)

theorem Avx512_load_offsets8_ends (offset : U64) (deltas : List U64) : Ends b (Avx512.load_offsets8 offset deltas) := by
  rw [Avx512.load_offsets8]
  repeat ends_step

macro_rules | `(tactic| ends_step) => `(tactic| with_reducible apply Avx512_load_offsets8_ends)

theorem Avx512_hash8_avx512_loop_ends (inputs : List Bytes) (blocks : Nat) (lo hi : M256) (flags fe : Byte) (n block : Nat) (h : Vector M256 8) (bf : Byte) : Ends b (Avx512.hash8_avx512_loop inputs blocks lo hi flags fe n block h bf) := by
  induction n generalizing block h bf with
  | zero => rw [Avx512.hash8_avx512_loop]; exact ends_ok _
  | succ n ih =>
    rw [Avx512.hash8_avx512_loop]
    repeat (first | ends_step | exact ih _ _ _)

macro_rules | `(tactic| ends_step) => `(tactic| with_reducible apply Avx512_hash8_avx512_loop_ends)

theorem Avx512_hash8_avx512_store_ends (h : Vector M256 8) (out : Bytes) : Ends b (Avx512.hash8_avx512_store h out) := by
  rw [Avx512.hash8_avx512_store]
  repeat ends_step

macro_rules | `(tactic| ends_step) => `(tactic| with_reducible apply Avx512_hash8_avx512_store_ends)

theorem Avx512_hash8_avx512_ends (inputs : List Bytes) (blocks : Nat) (key : Vector Word 8) (offset : U64) (deltas : List U64) (flags fs fe : Byte) (out : Bytes) : Ends b (Avx512.hash8_avx512 inputs blocks key offset deltas flags fs fe out) := by
  rw [Avx512.hash8_avx512]
  repeat ends_step

macro_rules | `(tactic| ends_step) => `(tactic| with_reducible apply Avx512_hash8_avx512_ends)

theorem Avx512_transpose_msg_vecs16_ends (inputs : List Bytes) (off : Nat) : Ends b (Avx512.transpose_msg_vecs16 inputs off) := by
  rw [Avx512.transpose_msg_vecs16]
  repeat ends_step

macro_rules | `(tactic| ends_step) => `(tactic| with_reducible apply Avx512_transpose_msg_vecs16_ends)

theorem Avx512_load_offsets16_ends (offset : U64) (deltas : List U64) : Ends b (Avx512.load_offsets16 offset deltas) := by
  rw [Avx512.load_offsets16]
  repeat ends_step

macro_rules | `(tactic| ends_step) => `(tactic| with_reducible apply Avx512_load_offsets16_ends)

theorem Avx512_hash16_avx512_loop_ends (inputs : List Bytes) (blocks : Nat) (lo hi : M512) (flags fe : Byte) (n block : Nat) (h : Vector M512 8) (bf : Byte) : Ends b (Avx512.hash16_avx512_loop inputs blocks lo hi flags fe n block h bf) := by
  induction n generalizing block h bf with
  | zero => rw [Avx512.hash16_avx512_loop]; exact ends_ok _
  | succ n ih =>
    rw [Avx512.hash16_avx512_loop]
    repeat (first | ends_step | exact ih _ _ _)

macro_rules | `(tactic| ends_step) => `(tactic| with_reducible apply Avx512_hash16_avx512_loop_ends)

theorem Avx512_hash16_avx512_store_ends (h : Vector M512 8) (out : Bytes) : Ends b (Avx512.hash16_avx512_store h out) := by
  rw [Avx512.hash16_avx512_store]
  repeat ends_step

macro_rules | `(tactic| ends_step) => `(tactic| with_reducible apply Avx512_hash16_avx512_store_ends)

theorem Avx512_hash16_avx512_ends (inputs : List Bytes) (blocks : Nat) (key : Vector Word 8) (offset : U64) (deltas : List U64) (flags fs fe : Byte) (out : Bytes) : Ends b (Avx512.hash16_avx512 inputs blocks key offset deltas flags fs fe out) := by
  rw [Avx512.hash16_avx512]
  repeat ends_step

macro_rules | `(tactic| ends_step) => `(tactic| with_reducible apply Avx512_hash16_avx512_ends)

theorem Avx512_hash_one_avx512_loop_ends (flags flags_end : Byte) (offset : U64) (n : Nat) (state : Vector Word 8) (input : Bytes) (bf : Byte) : Ends b (Avx512.hash_one_avx512_loop flags flags_end offset n state input bf) := by
  induction n generalizing state input bf with
  | zero => rw [Avx512.hash_one_avx512_loop]; exact ends_ok _
  | succ n ih =>
    rw [Avx512.hash_one_avx512_loop]
    repeat (first | ends_step | exact ih _ _ _)

macro_rules | `(tactic| ends_step) => `(tactic| with_reducible apply Avx512_hash_one_avx512_loop_ends)

theorem Avx512_hash_one_avx512_ends (input : Bytes) (blocks : Nat) (key : Vector Word 8) (offset : U64) (flags fs fe : Byte) (out : Bytes) : Ends b (Avx512.hash_one_avx512 input blocks key offset flags fs fe out) := by
  rw [Avx512.hash_one_avx512]
  repeat ends_step

macro_rules | `(tactic| ends_step) => `(tactic| with_reducible apply Avx512_hash_one_avx512_ends)

theorem Avx512_hash_many_avx512_loop1_ends (blocks : Nat) (key : Vector Word 8) (deltas : List U64) (flags fs fe : Byte) (n : Nat) (inputs : List Bytes) (offset : U64) (out : Bytes) : Ends b (Avx512.hash_many_avx512_loop1 blocks key deltas flags fs fe n inputs offset out) := by
  induction n generalizing inputs offset out with
  | zero => rw [Avx512.hash_many_avx512_loop1]; exact ends_ok _
  | succ n ih =>
    rw [Avx512.hash_many_avx512_loop1]
    repeat (first | ends_step | exact ih _ _ _)

macro_rules | `(tactic| ends_step) => `(tactic| with_reducible apply Avx512_hash_many_avx512_loop1_ends)

theorem Avx512_hash_many_avx512_loop4_ends (blocks : Nat) (key : Vector Word 8) (deltas : List U64) (flags fs fe : Byte) (n : Nat) (inputs : List Bytes) (offset : U64) (out : Bytes) : Ends b (Avx512.hash_many_avx512_loop4 blocks key deltas flags fs fe n inputs offset out) := by
  induction n using Nat.strongRecOn generalizing inputs offset out with
  | ind n ih =>
    rw [Avx512.hash_many_avx512_loop4]
    repeat (first | ends_step | exact ih _ (by omega) _ _ _)

macro_rules | `(tactic| ends_step) => `(tactic| with_reducible apply Avx512_hash_many_avx512_loop4_ends)

theorem Avx512_hash_many_avx512_loop8_ends (blocks : Nat) (key : Vector Word 8) (deltas : List U64) (flags fs fe : Byte) (n : Nat) (inputs : List Bytes) (offset : U64) (out : Bytes) : Ends b (Avx512.hash_many_avx512_loop8 blocks key deltas flags fs fe n inputs offset out) := by
  induction n using Nat.strongRecOn generalizing inputs offset out with
  | ind n ih =>
    rw [Avx512.hash_many_avx512_loop8]
    repeat (first | ends_step | exact ih _ (by omega) _ _ _)

macro_rules | `(tactic| ends_step) => `(tactic| with_reducible apply Avx512_hash_many_avx512_loop8_ends)

theorem Avx512_hash_many_avx512_loop16_ends (blocks : Nat) (key : Vector Word 8) (deltas : List U64) (flags fs fe : Byte) (n : Nat) (inputs : List Bytes) (offset : U64) (out : Bytes) : Ends b (Avx512.hash_many_avx512_loop16 blocks key deltas flags fs fe n inputs offset out) := by
  induction n using Nat.strongRecOn generalizing inputs offset out with
  | ind n ih =>
    rw [Avx512.hash_many_avx512_loop16]
    repeat (first | ends_step | exact ih _ (by omega) _ _ _)

macro_rules | `(tactic| ends_step) => `(tactic| with_reducible apply Avx512_hash_many_avx512_loop16_ends)

theorem Avx512_hash_many_avx512_ends (inputs : List Bytes) (n blocks : Nat) (key : Vector Word 8) (offset : U64) (deltas : List U64) (flags fs fe : Byte) (out : Bytes) : Ends b (Avx512.hash_many_avx512 inputs n blocks key offset deltas flags fs fe out) := by
  rw [Avx512.hash_many_avx512]
  repeat ends_step

macro_rules | `(tactic| ends_step) => `(tactic| with_reducible apply Avx512_hash_many_avx512_ends)

/-! ## baokeshed_neon.c -/

theorem Neon_loadu_128_ends (o : ByteOrder) (p : Bytes) (off : Nat) : Ends b (Neon.loadu_128 o p off) := by
  rw [Neon.loadu_128]
  repeat ends_step

macro_rules | `(tactic| ends_step) => `(tactic| with_reducible apply Neon_loadu_128_ends)

theorem Neon_storeu_128_ends (o : ByteOrder) (x : M128) (p : Bytes) (off : Nat) : Ends b (Neon.storeu_128 o x p off) := by
  rw [Neon.storeu_128]
  repeat ends_step

macro_rules | `(tactic| ends_step) => `(tactic| with_reducible apply Neon_storeu_128_ends)

theorem Neon_transpose_msg_vecs4_ends (o : ByteOrder) (inputs : List Bytes) (off : Nat) : Ends b (Neon.transpose_msg_vecs4 o inputs off) := by
  rw [Neon.transpose_msg_vecs4]
  repeat ends_step

macro_rules | `(tactic| ends_step) => `(tactic| with_reducible apply Neon_transpose_msg_vecs4_ends)

theorem Neon_load_offsets4_ends (offset : U64) (deltas : List U64) : Ends b (Neon.load_offsets4 offset deltas) := by
  rw [Neon.load_offsets4]
  repeat ends_step

macro_rules | `(tactic| ends_step) => `(tactic| with_reducible apply Neon_load_offsets4_ends)

theorem Neon_hash4_neon_loop_ends (o : ByteOrder) (inputs : List Bytes) (blocks : Nat) (lo hi : M128) (flags fe : Byte) (n block : Nat) (h : Vector M128 8) (bf : Byte) : Ends b (Neon.hash4_neon_loop o inputs blocks lo hi flags fe n block h bf) := by
  induction n generalizing block h bf with
  | zero => rw [Neon.hash4_neon_loop]; exact ends_ok _
  | succ n ih =>
    rw [Neon.hash4_neon_loop]
    repeat (first | ends_step | exact ih _ _ _)

macro_rules | `(tactic| ends_step) => `(tactic| with_reducible apply Neon_hash4_neon_loop_ends)

theorem Neon_hash4_neon_store_ends (o : ByteOrder) (h : Vector M128 8) (out : Bytes) : Ends b (Neon.hash4_neon_store o h out) := by
  rw [Neon.hash4_neon_store]
  repeat ends_step

macro_rules | `(tactic| ends_step) => `(tactic| with_reducible apply Neon_hash4_neon_store_ends)

theorem Neon_hash4_neon_ends (o : ByteOrder) (inputs : List Bytes) (blocks : Nat) (key : Vector Word 8) (offset : U64) (deltas : List U64) (flags fs fe : Byte) (out : Bytes) : Ends b (Neon.hash4_neon o inputs blocks key offset deltas flags fs fe out) := by
  rw [Neon.hash4_neon]
  repeat ends_step

macro_rules | `(tactic| ends_step) => `(tactic| with_reducible apply Neon_hash4_neon_ends)

theorem Neon_hash_one_neon_loop_ends (flags flags_end : Byte) (offset : U64) (n : Nat) (state : Vector Word 8) (input : Bytes) (bf : Byte) : Ends b (Neon.hash_one_neon_loop flags flags_end offset n state input bf) := by
  induction n generalizing state input bf with
  | zero => rw [Neon.hash_one_neon_loop]; exact ends_ok _
  | succ n ih =>
    rw [Neon.hash_one_neon_loop]
    repeat (first | ends_step | exact ih _ _ _)

macro_rules | `(tactic| ends_step) => `(tactic| with_reducible apply Neon_hash_one_neon_loop_ends)

theorem Neon_hash_one_neon_ends (o : ByteOrder) (input : Bytes) (blocks : Nat) (key : Vector Word 8) (offset : U64) (flags fs fe : Byte) (out : Bytes) : Ends b (Neon.hash_one_neon o input blocks key offset flags fs fe out) := by
  rw [Neon.hash_one_neon]
  repeat ends_step

macro_rules | `(tactic| ends_step) => `(tactic| with_reducible apply Neon_hash_one_neon_ends)

theorem Neon_hash_many_neon_loop1_ends (o : ByteOrder) (blocks : Nat) (key : Vector Word 8) (deltas : List U64) (flags fs fe : Byte) (n : Nat) (inputs : List Bytes) (offset : U64) (out : Bytes) : Ends b (Neon.hash_many_neon_loop1 o blocks key deltas flags fs fe n inputs offset out) := by
  induction n generalizing inputs offset out with
  | zero => rw [Neon.hash_many_neon_loop1]; exact ends_ok _
  | succ n ih =>
    rw [Neon.hash_many_neon_loop1]
    repeat (first | ends_step | exact ih _ _ _)

macro_rules | `(tactic| ends_step) => `(tactic| with_reducible apply Neon_hash_many_neon_loop1_ends)

theorem Neon_hash_many_neon_loop4_ends (o : ByteOrder) (blocks : Nat) (key : Vector Word 8) (deltas : List U64) (flags fs fe : Byte) (n : Nat) (inputs : List Bytes) (offset : U64) (out : Bytes) : Ends b (Neon.hash_many_neon_loop4 o blocks key deltas flags fs fe n inputs offset out) := by
  induction n using Nat.strongRecOn generalizing inputs offset out with
  | ind n ih =>
    rw [Neon.hash_many_neon_loop4]
    repeat (first | ends_step | exact ih _ (by omega) _ _ _)

macro_rules | `(tactic| ends_step) => `(tactic| with_reducible apply Neon_hash_many_neon_loop4_ends)

theorem Neon_hash_many_neon_ends (o : ByteOrder) (inputs : List Bytes) (n blocks : Nat) (key : Vector Word 8) (offset : U64) (deltas : List U64) (flags fs fe : Byte) (out : Bytes) : Ends b (Neon.hash_many_neon o inputs n blocks key offset deltas flags fs fe out) := by
  rw [Neon.hash_many_neon]
  repeat ends_step

macro_rules | `(tactic| ends_step) => `(tactic| with_reducible apply Neon_hash_many_neon_ends)

/-! ## baokeshed.c -/

theorem C_compress_ends (cfg : C.Config) (state : Vector Word 8) (block : Bytes) (block_len : Byte) (offset : U64) (flags : Byte) : Ends b (C.compress cfg state block block_len offset flags) := by
  rw [C.compress]
  repeat ends_step

macro_rules | `(tactic| ends_step) => `(tactic| with_reducible apply C_compress_ends)

theorem C_hash_many_ends (cfg : C.Config) (inputs : List Bytes) (n blocks : Nat) (key : Vector Word 8) (offset : U64) (deltas : List U64) (flags fs fe : Byte) (out : Bytes) : Ends b (C.hash_many cfg inputs n blocks key offset deltas flags fs fe out) := by
  rw [C.hash_many]
  repeat ends_step

macro_rules | `(tactic| ends_step) => `(tactic| with_reducible apply C_hash_many_ends)

theorem C_chunk_state_finalize_ends (cfg : C.Config) (s : chunk_state) (r : Bool) (out : Bytes) : Ends b (C.chunk_state_finalize cfg s r out) := by
  rw [C.chunk_state_finalize]
  repeat ends_step

macro_rules | `(tactic| ends_step) => `(tactic| with_reducible apply C_chunk_state_finalize_ends)

theorem C_hash_one_parent_ends (cfg : C.Config) (block : Bytes) (key : Vector Word 8) (r : Bool) (flags : Byte) (out : Bytes) : Ends b (C.hash_one_parent cfg block key r flags out) := by
  rw [C.hash_one_parent]
  repeat ends_step

macro_rules | `(tactic| ends_step) => `(tactic| with_reducible apply C_hash_one_parent_ends)

theorem C_hasher_merge_parent_ends (cfg : C.Config) (h : hasher) : Ends b (C.hasher_merge_parent cfg h) := by
  rw [C.hasher_merge_parent]
  repeat ends_step

macro_rules | `(tactic| ends_step) => `(tactic| with_reducible apply C_hasher_merge_parent_ends)

theorem C_merge_loop_ends (cfg : C.Config) (h : hasher) (offset : U64) : Ends b (C.merge_loop cfg h offset) := by
  fun_induction C.merge_loop cfg h offset with
  | case1 h hm e he => exact fun e' h' => by cases h'; exact C_hasher_merge_parent_ends cfg h e he
  | case2 h hm h' he ih => exact ih
  | case3 h hm => exact ends_ok _

macro_rules | `(tactic| ends_step) => `(tactic| with_reducible apply C_merge_loop_ends)

theorem assertR_ends {c : Prop} [Decidable c] : Ends b (assertR (b = true → c)) := by
  rw [assertR]
  split
  · exact ends_ok _
  next h => exact fun e h' => by cases h'; exact Or.inr ⟨Decidable.byContradiction fun hb => h fun hb' => absurd hb' hb, rfl⟩

theorem hasher_push_chunk_hash_ends (cfg : C.Config) (h : hasher) (hash : Bytes) (offset : U64) :
    Ends cfg.asserts (C.hasher_push_chunk_hash cfg h hash offset) := by
  rw [C.hasher_push_chunk_hash]
  refine ends_bind assertR_ends fun _ => ?_
  repeat ends_step

macro_rules | `(tactic| ends_step) => `(tactic| with_reducible apply hasher_push_chunk_hash_ends)

theorem push_chunks_ends (cfg : C.Config) (h : hasher) (out : Bytes) (i n : Nat) : Ends cfg.asserts (C.push_chunks cfg h out i n) := by
  induction n generalizing h i with
  | zero => rw [C.push_chunks]; exact ends_ok _
  | succ n ih =>
    rw [C.push_chunks]
    repeat (first | ends_step | exact ih _ _)

macro_rules | `(tactic| ends_step) => `(tactic| with_reducible apply push_chunks_ends)

/-! ## with pointers that may be null -/

theorem deref_ends (p : P.Ptr) : Ends b (P.deref p) := by
  cases p
  · exact ends_ub
  · exact ends_ok _

macro_rules | `(tactic| ends_step) => `(tactic| with_reducible apply deref_ends)

theorem advance_ends (z : Bool) (p : P.Ptr) (n : Nat) : Ends b (P.advance z p n) := by
  cases p <;> rw [P.advance] <;> repeat ends_step

macro_rules | `(tactic| ends_step) => `(tactic| with_reducible apply advance_ends)

theorem p_memcpy_ends (z : Bool) (dst : Bytes) (off : Nat) (p : P.Ptr) (n : Nat) : Ends b (P.memcpy z dst off p n) := by
  cases p <;> rw [P.memcpy] <;> repeat ends_step

macro_rules | `(tactic| ends_step) => `(tactic| with_reducible apply p_memcpy_ends)

theorem P_chunk_state_fill_buf_ends (z : Bool) (cfg : C.Config) (s : chunk_state) (p : P.Ptr) (n : Nat) : Ends b (P.chunk_state_fill_buf z cfg s p n) := by
  rw [P.chunk_state_fill_buf]
  repeat ends_step

macro_rules | `(tactic| ends_step) => `(tactic| with_reducible apply P_chunk_state_fill_buf_ends)

theorem P_chunk_state_update_first_ends (z : Bool) (cfg : C.Config) (s : chunk_state) (p : P.Ptr) (n : Nat) : Ends b (P.chunk_state_update_first z cfg s p n) := by
  rw [P.chunk_state_update_first]
  repeat ends_step

macro_rules | `(tactic| ends_step) => `(tactic| with_reducible apply P_chunk_state_update_first_ends)

theorem P_chunk_state_update_blocks_ends (z : Bool) (cfg : C.Config) (s : chunk_state) (p : P.Ptr) (n : Nat) : Ends b (P.chunk_state_update_blocks z cfg s p n) := by
  induction n using Nat.strongRecOn generalizing s p with
  | ind n ih =>
    rw [P.chunk_state_update_blocks]
    split
    next hn =>
      have : n - C.BLOCK_LEN < n := by have : C.BLOCK_LEN = 64 := rfl; omega
      repeat (first | ends_step | exact ih _ this _ _)
    next => exact ends_ok _

macro_rules | `(tactic| ends_step) => `(tactic| with_reducible apply P_chunk_state_update_blocks_ends)

theorem P_chunk_state_update_ends (z : Bool) (cfg : C.Config) (s : chunk_state) (p : P.Ptr) (n : Nat) : Ends b (P.chunk_state_update z cfg s p n) := by
  rw [P.chunk_state_update]
  repeat ends_step

macro_rules | `(tactic| ends_step) => `(tactic| with_reducible apply P_chunk_state_update_ends)

theorem P_collect_chunks_ends (z : Bool) (c : List Bytes) (p : P.Ptr) (l n : Nat) : Ends b (P.collect_chunks z c p l n) := by
  induction hk : MAX_SIMD_DEGREE - n generalizing c p l n with
  | zero =>
    rw [P.collect_chunks, if_neg (by simp only [MAX_SIMD_DEGREE] at *; omega)]
    exact ends_ok _
  | succ k ih =>
    rw [P.collect_chunks]
    split
    · repeat (first | ends_step | exact ih _ _ _ _ (by simp only [MAX_SIMD_DEGREE] at *; omega))
    · exact ends_ok _

macro_rules | `(tactic| ends_step) => `(tactic| with_reducible apply P_collect_chunks_ends)

theorem p_update_loop_ends (z : Bool) (cfg : C.Config) (h : hasher) (out : Bytes) (c : List Bytes) (p : P.Ptr) (n : Nat) :
    Ends cfg.asserts (P.update_loop z cfg h out c p n) := by
  induction n using Nat.strongRecOn generalizing h out c p with
  | ind n ih =>
    rw [P.update_loop]
    split
    next hn =>
      split
      next e he => exact fun e' h' => by cases h'; exact P_collect_chunks_ends z c p n 0 e he
      next c' p' n' k he =>
        have := P.collect_lt z hn he
        repeat (first | ends_step | exact ih _ this _ _ _ _)
    next => exact ends_ok _

macro_rules | `(tactic| ends_step) => `(tactic| with_reducible apply p_update_loop_ends)

theorem p_update_rest_ends (z : Bool) (cfg : C.Config) (h : hasher) (p : P.Ptr) (n : Nat) :
    Ends cfg.asserts (P.hasher_update_rest z cfg h p n) := by
  rw [P.hasher_update_rest]
  repeat ends_step

macro_rules | `(tactic| ends_step) => `(tactic| with_reducible apply p_update_rest_ends)

theorem p_update_ends (z : Bool) (cfg : C.Config) (h : hasher) (p : P.Ptr) (n : Nat) : Ends cfg.asserts (P.hasher_update z cfg h p n) := by
  rw [P.hasher_update]
  repeat ends_step

end Baokeshed.Proofs.C
