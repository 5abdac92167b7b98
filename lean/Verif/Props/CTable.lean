import Verif.Proofs.C.Table
import Verif.Props.CExports

/-!
# C73: `hash_many` of every C back end for any table of offset deltas

C32, C35 say what the `hash_many` functions do for the tables `i * d` the library passes.  They have external
linkage and take any array.  C73 says which offset each input gets, for every array long enough for the widest
batch, and when that does not depend on the back end.
-/

set_option linter.unusedVariables false

namespace Baokeshed.Props
open Baokeshed.Model
open Baokeshed.Proofs.Table

/-- A `hash_many` with batches of the widths `ws` (widest first) gives its inputs the offsets of
`Spec.tableOffset`, writes their chaining values one after the other, and leaves the rest of the output alone.
All it needs is inputs of `blocks` blocks, room for the results and a table reaching to the widest width. -/
def TableMany (ws : List Nat)
    (F : List Bytes → Nat → Nat → Vector Word 8 → U64 → List U64 → Byte → Byte → Byte → Bytes → R Bytes) : Prop :=
  ∀ (inputs : List Bytes) (num blocks : Nat) (key : Vector Word 8) (offset : U64) (deltas : List U64)
    (flags first last : Byte) (out : Bytes),
    num ≤ inputs.length → (∀ i, i < num → 64 * blocks ≤ (inputs.getD i []).length) → 32 * num ≤ out.length →
    (∀ w, w ∈ ws → w < deltas.length) →
    F inputs num blocks key offset deltas flags first last out =
      .ok (Spec.eachOut key (Spec.tableOffset (fun j => deltas.getD j 0) ws num offset) flags first last blocks num inputs
        ++ out.drop (32 * num))

/-- The same for the 64-bit code. -/
def TableMany64 (ws : List Nat)
    (F : List Bytes → Nat → Nat → Vector U64 4 → U64 → List U64 → Byte → Byte → Byte → Bytes → R Bytes) : Prop :=
  ∀ (inputs : List Bytes) (num blocks : Nat) (key : Vector U64 4) (offset : U64) (deltas : List U64)
    (flags first last : Byte) (out : Bytes),
    num ≤ inputs.length → (∀ i, i < num → 128 * blocks ≤ (inputs.getD i []).length) → 32 * num ≤ out.length →
    (∀ w, w ∈ ws → w < deltas.length) →
    F inputs num blocks key offset deltas flags first last out =
      .ok (Spec64.eachOut key (Spec.tableOffset (fun j => deltas.getD j 0) ws num offset) flags first last blocks num inputs
        ++ out.drop (32 * num))

/-- the chaining value of `blocks` blocks, 32-bit code -/
def cv32 (key : Vector Word 8) (flags first last : Byte) (blocks : Nat) (off : U64) (input : Bytes) : Bytes :=
  (Spec.cvBytes (Spec.blockChain key off flags first last blocks input)).toList

/-- the chaining value of `blocks` blocks, 64-bit code -/
def cv64 (key : Vector U64 4) (flags first last : Byte) (blocks : Nat) (off : U64) (input : Bytes) : Bytes :=
  Spec64.cvBytes (Spec64.blockChain key off flags first last blocks input)

theorem cv32_length (key : Vector Word 8) (flags first last : Byte) (blocks : Nat) (off : U64) (input : Bytes) :
    (cv32 key flags first last blocks off input).length = 32 := by simp [cv32]

theorem cv64_length (key : Vector U64 4) (flags first last : Byte) (blocks : Nat) (off : U64) (input : Bytes) :
    (cv64 key flags first last blocks off input).length = 32 := Proofs.W64.length_cvBytes _

theorem Kernel.table {N : Nat} {K} (h : Kernel N K) (h1 : N ≠ 1) (blocks : Nat) (key : Vector Word 8) (deltas : List U64)
    (flags first last : Byte) (hd : N < deltas.length) :
    KerT (cv32 key flags first last blocks) (64 * blocks) (fun j => deltas.getD j 0) N
      (fun inputs off out => K inputs blocks key off deltas flags first last out) := by
  intro inputs off out hin hlen hout
  show K inputs blocks key off deltas flags first last out = _
  rw [h inputs blocks key off deltas flags first last out hin hlen (by omega) hout]
  simp only [if_neg h1]
  rfl

theorem Kernel64.table {N : Nat} {K} (h : Kernel64 N K) (h1 : N ≠ 1) (blocks : Nat) (key : Vector U64 4) (deltas : List U64)
    (flags first last : Byte) (hd : N < deltas.length) :
    KerT (cv64 key flags first last blocks) (128 * blocks) (fun j => deltas.getD j 0) N
      (fun inputs off out => K inputs blocks key off deltas flags first last out) := by
  intro inputs off out hin hlen hout
  show K inputs blocks key off deltas flags first last out = _
  rw [h inputs blocks key off deltas flags first last out hin hlen (by omega) hout]
  simp only [if_neg h1]
  rfl

section loops32
variable (blocks : Nat) (key : Vector Word 8) (deltas : List U64) (flags first last : Byte)

theorem t_portable (hd : 1 < deltas.length) :
    GoodT (cv32 key flags first last blocks) (64 * blocks) (fun j => deltas.getD j 0) [1] none
      (C.Portable.hash_many_portable_loop blocks key deltas flags first last) := by
  refine loopT _ (cv32_length key flags first last blocks) _ _ [] 1 (by decide) deltas
    (fun inputs off out => do C.Portable.hash_one_portable (← C.cIndex inputs 0) blocks key off flags first last out) _
    (fun _ _ _ out => .ok out) ?_
    (one_kerT _ _ _ _ (Proofs.C.hash_one_portable_eq key flags first last blocks))
    (goodT_zero _ _ _) (getD_some _ _ _ hd)
  intro num inputs off out
  cases num with
  | zero => rw [if_neg (by omega)]; rfl
  | succ n =>
    rw [if_pos (by omega), C.Portable.hash_many_portable_loop, Proofs.C.batch]
    simp only [Nat.add_sub_cancel, bind_assoc, Nat.one_mul]

theorem t_sse41_1 (hd : 1 < deltas.length) :
    GoodT (cv32 key flags first last blocks) (64 * blocks) (fun j => deltas.getD j 0) [1] none
      (C.Sse41.hash_many_sse41_loop1 blocks key deltas flags first last) := by
  refine loopT _ (cv32_length key flags first last blocks) _ _ [] 1 (by decide) deltas
    (fun inputs off out => do C.Sse41.hash_one_sse41 (← C.cIndex inputs 0) blocks key off flags first last out) _
    (fun _ _ _ out => .ok out) ?_
    (one_kerT _ _ _ _ (Proofs.C.Sse41.one_eq key flags first last blocks))
    (goodT_zero _ _ _) (getD_some _ _ _ hd)
  intro num inputs off out
  cases num with
  | zero => rw [if_neg (by omega)]; rfl
  | succ n =>
    rw [if_pos (by omega), C.Sse41.hash_many_sse41_loop1, Proofs.C.batch]
    simp only [Nat.add_sub_cancel, bind_assoc, Nat.one_mul]

theorem t_sse41_4 (hd : 4 < deltas.length) :
    GoodT (cv32 key flags first last blocks) (64 * blocks) (fun j => deltas.getD j 0) [4, 1] none
      (C.Sse41.hash_many_sse41_loop4 blocks key deltas flags first last) := by
  refine loopT _ (cv32_length key flags first last blocks) _ _ [1] 4 (by decide) deltas
    (fun inputs off out => C.Sse41.hash4_sse41 inputs blocks key off deltas flags first last out) _
    (C.Sse41.hash_many_sse41_loop1 blocks key deltas flags first last) ?_
    (C54_hash4_sse41.table (by decide) blocks key deltas flags first last hd)
    ((t_sse41_1 blocks key deltas flags first last (by omega)).mono _ _ _) (getD_some _ _ _ hd)
  intro num inputs off out
  rw [C.Sse41.hash_many_sse41_loop4]
  by_cases h : 4 ≤ num
  · rw [dif_pos h, if_pos h]; rfl
  · rw [dif_neg h, if_neg h]; try rfl

theorem t_avx2 (hd : 8 < deltas.length) :
    GoodT (cv32 key flags first last blocks) (64 * blocks) (fun j => deltas.getD j 0) [8, 4, 1] none
      (C.Avx2.hash_many_avx2_loop blocks key deltas flags first last) := by
  refine loopT _ (cv32_length key flags first last blocks) _ _ [4, 1] 8 (by decide) deltas
    (fun inputs off out => C.Avx2.hash8_avx2 inputs blocks key off deltas flags first last out) _
    (C.Sse41.hash_many_sse41_loop4 blocks key deltas flags first last) ?_
    (C54_hash8_avx2.table (by decide) blocks key deltas flags first last hd)
    ((t_sse41_4 blocks key deltas flags first last (by omega)).mono _ _ _) (getD_some _ _ _ hd)
  intro num inputs off out
  rw [C.Avx2.hash_many_avx2_loop]
  by_cases h : 8 ≤ num
  · rw [dif_pos h, if_pos h]; rfl
  · rw [dif_neg h, if_neg h]; try rfl

theorem t_avx512_1 (hd : 1 < deltas.length) :
    GoodT (cv32 key flags first last blocks) (64 * blocks) (fun j => deltas.getD j 0) [1] none
      (C.Avx512.hash_many_avx512_loop1 blocks key deltas flags first last) := by
  refine loopT _ (cv32_length key flags first last blocks) _ _ [] 1 (by decide) deltas
    (fun inputs off out => do C.Avx512.hash_one_avx512 (← C.cIndex inputs 0) blocks key off flags first last out) _
    (fun _ _ _ out => .ok out) ?_
    (one_kerT _ _ _ _ (Proofs.C.Avx512.one_eq key flags first last blocks))
    (goodT_zero _ _ _) (getD_some _ _ _ hd)
  intro num inputs off out
  cases num with
  | zero => rw [if_neg (by omega)]; rfl
  | succ n =>
    rw [if_pos (by omega), C.Avx512.hash_many_avx512_loop1, Proofs.C.batch]
    simp only [Nat.add_sub_cancel, bind_assoc, Nat.one_mul]

theorem t_avx512_4 (hd : 4 < deltas.length) :
    GoodT (cv32 key flags first last blocks) (64 * blocks) (fun j => deltas.getD j 0) [4, 1] none
      (C.Avx512.hash_many_avx512_loop4 blocks key deltas flags first last) := by
  refine loopT _ (cv32_length key flags first last blocks) _ _ [1] 4 (by decide) deltas
    (fun inputs off out => C.Avx512.hash4_avx512 inputs blocks key off deltas flags first last out) _
    (C.Avx512.hash_many_avx512_loop1 blocks key deltas flags first last) ?_
    (C54_hash4_avx512.table (by decide) blocks key deltas flags first last hd)
    ((t_avx512_1 blocks key deltas flags first last (by omega)).mono _ _ _) (getD_some _ _ _ hd)
  intro num inputs off out
  rw [C.Avx512.hash_many_avx512_loop4]
  by_cases h : 4 ≤ num
  · rw [dif_pos h, if_pos h]; rfl
  · rw [dif_neg h, if_neg h]; try rfl

theorem t_avx512_8 (hd : 8 < deltas.length) :
    GoodT (cv32 key flags first last blocks) (64 * blocks) (fun j => deltas.getD j 0) [8, 4, 1] none
      (C.Avx512.hash_many_avx512_loop8 blocks key deltas flags first last) := by
  refine loopT _ (cv32_length key flags first last blocks) _ _ [4, 1] 8 (by decide) deltas
    (fun inputs off out => C.Avx512.hash8_avx512 inputs blocks key off deltas flags first last out) _
    (C.Avx512.hash_many_avx512_loop4 blocks key deltas flags first last) ?_
    (C54_hash8_avx512.table (by decide) blocks key deltas flags first last hd)
    ((t_avx512_4 blocks key deltas flags first last (by omega)).mono _ _ _) (getD_some _ _ _ hd)
  intro num inputs off out
  rw [C.Avx512.hash_many_avx512_loop8]
  by_cases h : 8 ≤ num
  · rw [dif_pos h, if_pos h]; rfl
  · rw [dif_neg h, if_neg h]; try rfl

theorem t_avx512_16 (hd : 16 < deltas.length) :
    GoodT (cv32 key flags first last blocks) (64 * blocks) (fun j => deltas.getD j 0) [16, 8, 4, 1] none
      (C.Avx512.hash_many_avx512_loop16 blocks key deltas flags first last) := by
  refine loopT _ (cv32_length key flags first last blocks) _ _ [8, 4, 1] 16 (by decide) deltas
    (fun inputs off out => C.Avx512.hash16_avx512 inputs blocks key off deltas flags first last out) _
    (C.Avx512.hash_many_avx512_loop8 blocks key deltas flags first last) ?_
    (C54_hash16_avx512.table (by decide) blocks key deltas flags first last hd)
    ((t_avx512_8 blocks key deltas flags first last (by omega)).mono _ _ _) (getD_some _ _ _ hd)
  intro num inputs off out
  rw [C.Avx512.hash_many_avx512_loop16]
  by_cases h : 16 ≤ num
  · rw [dif_pos h, if_pos h]; rfl
  · rw [dif_neg h, if_neg h]; try rfl

theorem t_neon_1 (hd : 1 < deltas.length) :
    GoodT (cv32 key flags first last blocks) (64 * blocks) (fun j => deltas.getD j 0) [1] none
      (C.Neon.hash_many_neon_loop1 .little blocks key deltas flags first last) := by
  refine loopT _ (cv32_length key flags first last blocks) _ _ [] 1 (by decide) deltas
    (fun inputs off out => do C.Neon.hash_one_neon .little (← C.cIndex inputs 0) blocks key off flags first last out) _
    (fun _ _ _ out => .ok out) ?_
    (one_kerT _ _ _ _ (Proofs.C.Neon.one_eq key flags first last blocks))
    (goodT_zero _ _ _) (getD_some _ _ _ hd)
  intro num inputs off out
  cases num with
  | zero => rw [if_neg (by omega)]; rfl
  | succ n =>
    rw [if_pos (by omega), C.Neon.hash_many_neon_loop1, Proofs.C.batch]
    simp only [Nat.add_sub_cancel, bind_assoc, Nat.one_mul]

theorem t_neon_4 (hd : 4 < deltas.length) :
    GoodT (cv32 key flags first last blocks) (64 * blocks) (fun j => deltas.getD j 0) [4, 1] none
      (C.Neon.hash_many_neon_loop4 .little blocks key deltas flags first last) := by
  refine loopT _ (cv32_length key flags first last blocks) _ _ [1] 4 (by decide) deltas
    (fun inputs off out => C.Neon.hash4_neon .little inputs blocks key off deltas flags first last out) _
    (C.Neon.hash_many_neon_loop1 .little blocks key deltas flags first last) ?_
    (C54_hash4_neon.table (by decide) blocks key deltas flags first last hd)
    ((t_neon_1 blocks key deltas flags first last (by omega)).mono _ _ _) (getD_some _ _ _ hd)
  intro num inputs off out
  rw [C.Neon.hash_many_neon_loop4]
  by_cases h : 4 ≤ num
  · rw [dif_pos h, if_pos h]; rfl
  · rw [dif_neg h, if_neg h]; try rfl

end loops32

section loops64
variable (blocks : Nat) (key : Vector U64 4) (deltas : List U64) (flags first last : Byte)

theorem t64_portable (hd : 1 < deltas.length) :
    GoodT (cv64 key flags first last blocks) (128 * blocks) (fun j => deltas.getD j 0) [1] none
      (C64.Portable.hash_many_portable_loop blocks key deltas flags first last) := by
  refine loopT _ (cv64_length key flags first last blocks) _ _ [] 1 (by decide) deltas
    (fun inputs off out => do C64.Portable.hash_one_portable (← C.cIndex inputs 0) blocks key off flags first last out) _
    (fun _ _ _ out => .ok out) ?_
    (one_kerT _ _ _ _ (Proofs.W64.hash_one_portable_eq key flags first last blocks))
    (goodT_zero _ _ _) (getD_some _ _ _ hd)
  intro num inputs off out
  cases num with
  | zero => rw [if_neg (by omega)]; rfl
  | succ n =>
    rw [if_pos (by omega), C64.Portable.hash_many_portable_loop, Proofs.C.batch]
    simp only [Nat.add_sub_cancel, bind_assoc, Nat.one_mul]

theorem t64_sse41 (hd : 2 < deltas.length) :
    GoodT (cv64 key flags first last blocks) (128 * blocks) (fun j => deltas.getD j 0) [2, 1] none
      (C64.Sse41.hash_many_sse41_loop blocks key deltas flags first last) := by
  refine loopT _ (cv64_length key flags first last blocks) _ _ [1] 2 (by decide) deltas
    (fun inputs off out => C64.Sse41.hash2_sse41 inputs blocks key off deltas flags first last out) _
    (fun num inputs off out => C64.Portable.hash_many_portable inputs num blocks key off deltas flags first last out) ?_
    (C54_c64_hash2_sse41.table (by decide) blocks key deltas flags first last hd)
    ((t64_portable blocks key deltas flags first last (by omega)).mono _ _ _) (getD_some _ _ _ hd)
  intro num inputs off out
  rw [C64.Sse41.hash_many_sse41_loop]
  by_cases h : 2 ≤ num
  · rw [dif_pos h, if_pos h]; rfl
  · rw [dif_neg h, if_neg h]; try rfl

theorem t64_avx2 (hd : 4 < deltas.length) :
    GoodT (cv64 key flags first last blocks) (128 * blocks) (fun j => deltas.getD j 0) [4, 2, 1] none
      (C64.Avx2.hash_many_avx2_loop blocks key deltas flags first last) := by
  refine loopT _ (cv64_length key flags first last blocks) _ _ [2, 1] 4 (by decide) deltas
    (fun inputs off out => C64.Avx2.hash4_avx2 inputs blocks key off deltas flags first last out) _
    (fun num inputs off out => C64.Sse41.hash_many_sse41 inputs num blocks key off deltas flags first last out) ?_
    (C54_c64_hash4_avx2.table (by decide) blocks key deltas flags first last hd)
    ((t64_sse41 blocks key deltas flags first last (by omega)).mono _ _ _) (getD_some _ _ _ hd)
  intro num inputs off out
  rw [C64.Avx2.hash_many_avx2_loop]
  by_cases h : 4 ≤ num
  · rw [dif_pos h, if_pos h]; rfl
  · rw [dif_neg h, if_neg h]; try rfl

theorem t64_avx512_1 (hd : 1 < deltas.length) :
    GoodT (cv64 key flags first last blocks) (128 * blocks) (fun j => deltas.getD j 0) [1] none
      (C64.Avx512.hash_many_avx512_loop1 blocks key deltas flags first last) := by
  refine loopT _ (cv64_length key flags first last blocks) _ _ [] 1 (by decide) deltas
    (fun inputs off out => do C64.Avx512.hash_one_avx512 (← C.cIndex inputs 0) blocks key off flags first last out) _
    (fun _ _ _ out => .ok out) ?_
    (one_kerT _ _ _ _ (Proofs.W64.Avx512.one_eq key flags first last blocks))
    (goodT_zero _ _ _) (getD_some _ _ _ hd)
  intro num inputs off out
  cases num with
  | zero => rw [if_neg (by omega)]; rfl
  | succ n =>
    rw [if_pos (by omega), C64.Avx512.hash_many_avx512_loop1, Proofs.C.batch]
    simp only [Nat.add_sub_cancel, bind_assoc, Nat.one_mul]

theorem t64_avx512_2 (hd : 2 < deltas.length) :
    GoodT (cv64 key flags first last blocks) (128 * blocks) (fun j => deltas.getD j 0) [2, 1] none
      (C64.Avx512.hash_many_avx512_loop2 blocks key deltas flags first last) := by
  refine loopT _ (cv64_length key flags first last blocks) _ _ [1] 2 (by decide) deltas
    (fun inputs off out => C64.Avx512.hash2_avx512 inputs blocks key off deltas flags first last out) _
    (C64.Avx512.hash_many_avx512_loop1 blocks key deltas flags first last) ?_
    (C54_c64_hash2_avx512.table (by decide) blocks key deltas flags first last hd)
    ((t64_avx512_1 blocks key deltas flags first last (by omega)).mono _ _ _) (getD_some _ _ _ hd)
  intro num inputs off out
  rw [C64.Avx512.hash_many_avx512_loop2]
  by_cases h : 2 ≤ num
  · rw [dif_pos h, if_pos h]; rfl
  · rw [dif_neg h, if_neg h]; try rfl

theorem t64_avx512_4 (hd : 4 < deltas.length) :
    GoodT (cv64 key flags first last blocks) (128 * blocks) (fun j => deltas.getD j 0) [4, 2, 1] none
      (C64.Avx512.hash_many_avx512_loop4 blocks key deltas flags first last) := by
  refine loopT _ (cv64_length key flags first last blocks) _ _ [2, 1] 4 (by decide) deltas
    (fun inputs off out => C64.Avx512.hash4_avx512 inputs blocks key off deltas flags first last out) _
    (C64.Avx512.hash_many_avx512_loop2 blocks key deltas flags first last) ?_
    (C54_c64_hash4_avx512.table (by decide) blocks key deltas flags first last hd)
    ((t64_avx512_2 blocks key deltas flags first last (by omega)).mono _ _ _) (getD_some _ _ _ hd)
  intro num inputs off out
  rw [C64.Avx512.hash_many_avx512_loop4]
  by_cases h : 4 ≤ num
  · rw [dif_pos h, if_pos h]; rfl
  · rw [dif_neg h, if_neg h]; try rfl

theorem t64_avx512_8 (hd : 8 < deltas.length) :
    GoodT (cv64 key flags first last blocks) (128 * blocks) (fun j => deltas.getD j 0) [8, 4, 2, 1] none
      (C64.Avx512.hash_many_avx512_loop8 blocks key deltas flags first last) := by
  refine loopT _ (cv64_length key flags first last blocks) _ _ [4, 2, 1] 8 (by decide) deltas
    (fun inputs off out => C64.Avx512.hash8_avx512 inputs blocks key off deltas flags first last out) _
    (C64.Avx512.hash_many_avx512_loop4 blocks key deltas flags first last) ?_
    (C54_c64_hash8_avx512.table (by decide) blocks key deltas flags first last hd)
    ((t64_avx512_4 blocks key deltas flags first last (by omega)).mono _ _ _) (getD_some _ _ _ hd)
  intro num inputs off out
  rw [C64.Avx512.hash_many_avx512_loop8]
  by_cases h : 8 ≤ num
  · rw [dif_pos h, if_pos h]; rfl
  · rw [dif_neg h, if_neg h]; try rfl

theorem t64_neon_1 (hd : 1 < deltas.length) :
    GoodT (cv64 key flags first last blocks) (128 * blocks) (fun j => deltas.getD j 0) [1] none
      (C64.Neon.hash_many_neon_loop1 .little blocks key deltas flags first last) := by
  refine loopT _ (cv64_length key flags first last blocks) _ _ [] 1 (by decide) deltas
    (fun inputs off out => do C64.Neon.hash_one_neon .little (← C.cIndex inputs 0) blocks key off flags first last out) _
    (fun _ _ _ out => .ok out) ?_
    (one_kerT _ _ _ _ (Proofs.W64.Neon.one_eq key flags first last blocks))
    (goodT_zero _ _ _) (getD_some _ _ _ hd)
  intro num inputs off out
  cases num with
  | zero => rw [if_neg (by omega)]; rfl
  | succ n =>
    rw [if_pos (by omega), C64.Neon.hash_many_neon_loop1, Proofs.C.batch]
    simp only [Nat.add_sub_cancel, bind_assoc, Nat.one_mul]

theorem t64_neon_2 (hd : 2 < deltas.length) :
    GoodT (cv64 key flags first last blocks) (128 * blocks) (fun j => deltas.getD j 0) [2, 1] none
      (C64.Neon.hash_many_neon_loop2 .little blocks key deltas flags first last) := by
  refine loopT _ (cv64_length key flags first last blocks) _ _ [1] 2 (by decide) deltas
    (fun inputs off out => C64.Neon.hash2_neon .little inputs blocks key off deltas flags first last out) _
    (C64.Neon.hash_many_neon_loop1 .little blocks key deltas flags first last) ?_
    (C54_c64_hash2_neon.table (by decide) blocks key deltas flags first last hd)
    ((t64_neon_1 blocks key deltas flags first last (by omega)).mono _ _ _) (getD_some _ _ _ hd)
  intro num inputs off out
  rw [C64.Neon.hash_many_neon_loop2]
  by_cases h : 2 ≤ num
  · rw [dif_pos h, if_pos h]; rfl
  · rw [dif_neg h, if_neg h]; try rfl

end loops64

/-- C73.  `hash_many_portable` takes one input after the other, moving by `offset_deltas[1]`. -/
theorem C73_portable : TableMany [1] (C.Portable.hash_many_portable) := by
  intro inputs num blocks key offset deltas flags first last out h1 h2 h3 h4
  exact t_portable blocks key deltas flags first last (h4 1 (by simp)) num inputs offset out (fun _ h => by cases h) h1 h2 h3

/-- C73.  `hash_many_sse41` takes batches of 4, then single inputs. -/
theorem C73_sse41 : TableMany [4, 1] (C.Sse41.hash_many_sse41) := by
  intro inputs num blocks key offset deltas flags first last out h1 h2 h3 h4
  exact t_sse41_4 blocks key deltas flags first last (h4 4 (by simp)) num inputs offset out (fun _ h => by cases h) h1 h2 h3

/-- C73.  `hash_many_avx2` takes batches of 8 and leaves the rest to SSE4.1. -/
theorem C73_avx2 : TableMany [8, 4, 1] (C.Avx2.hash_many_avx2) := by
  intro inputs num blocks key offset deltas flags first last out h1 h2 h3 h4
  exact t_avx2 blocks key deltas flags first last (h4 8 (by simp)) num inputs offset out (fun _ h => by cases h) h1 h2 h3

/-- C73.  `hash_many_avx512` takes batches of 16, of 8, of 4, then single inputs. -/
theorem C73_avx512 : TableMany [16, 8, 4, 1] (C.Avx512.hash_many_avx512) := by
  intro inputs num blocks key offset deltas flags first last out h1 h2 h3 h4
  exact t_avx512_16 blocks key deltas flags first last (h4 16 (by simp)) num inputs offset out (fun _ h => by cases h) h1 h2 h3

/-- C73.  `hash_many_neon` takes batches of 4, then single inputs. -/
theorem C73_neon : TableMany [4, 1] (C.Neon.hash_many_neon .little) := by
  intro inputs num blocks key offset deltas flags first last out h1 h2 h3 h4
  exact t_neon_4 blocks key deltas flags first last (h4 4 (by simp)) num inputs offset out (fun _ h => by cases h) h1 h2 h3

/-- C73.  The 64-bit `hash_many_portable`. -/
theorem C73_c64_portable : TableMany64 [1] (C64.Portable.hash_many_portable) := by
  intro inputs num blocks key offset deltas flags first last out h1 h2 h3 h4
  exact t64_portable blocks key deltas flags first last (h4 1 (by simp)) num inputs offset out (fun _ h => by cases h) h1 h2 h3

/-- C73.  The 64-bit `hash_many_sse41`: batches of 2, then single inputs. -/
theorem C73_c64_sse41 : TableMany64 [2, 1] (C64.Sse41.hash_many_sse41) := by
  intro inputs num blocks key offset deltas flags first last out h1 h2 h3 h4
  exact t64_sse41 blocks key deltas flags first last (h4 2 (by simp)) num inputs offset out (fun _ h => by cases h) h1 h2 h3

/-- C73.  The 64-bit `hash_many_avx2`: batches of 4, the rest is left to SSE4.1. -/
theorem C73_c64_avx2 : TableMany64 [4, 2, 1] (C64.Avx2.hash_many_avx2) := by
  intro inputs num blocks key offset deltas flags first last out h1 h2 h3 h4
  exact t64_avx2 blocks key deltas flags first last (h4 4 (by simp)) num inputs offset out (fun _ h => by cases h) h1 h2 h3

/-- C73.  The 64-bit `hash_many_avx512`: batches of 8, of 4, of 2, then single inputs. -/
theorem C73_c64_avx512 : TableMany64 [8, 4, 2, 1] (C64.Avx512.hash_many_avx512) := by
  intro inputs num blocks key offset deltas flags first last out h1 h2 h3 h4
  exact t64_avx512_8 blocks key deltas flags first last (h4 8 (by simp)) num inputs offset out (fun _ h => by cases h) h1 h2 h3

/-- C73.  The 64-bit `hash_many_neon`: batches of 2, then single inputs. -/
theorem C73_c64_neon : TableMany64 [2, 1] (C64.Neon.hash_many_neon .little) := by
  intro inputs num blocks key offset deltas flags first last out h1 h2 h3 h4
  exact t64_neon_2 blocks key deltas flags first last (h4 2 (by simp)) num inputs offset out (fun _ h => by cases h) h1 h2 h3

/-- C73.  Which tables make the offsets independent of the back end: a back end whose widest batch is `w` gives
every input of every call the offset the portable code gives it iff `δ i = i * δ 1` for all `i ≤ w`. -/
theorem C73_linear_iff (δ : Nat → U64) (w : Nat) (ws : List Nat) (hw : 1 < w) (hws : ∀ v, v ∈ ws → 0 < v ∧ v ≤ w)
    (h1 : 1 ∈ ws) :
    (∀ (num : Nat) (off : U64) (i : Nat), i < num →
      Spec.tableOffset δ (w :: ws) num off i = Spec.tableOffset δ [1] num off i) ↔
    ∀ i, i ≤ w → δ i = BitVec.ofNat 64 i * δ 1 := by
  have hp : ∀ num (off : U64) i, i < num → Spec.tableOffset δ [1] num off i = off + BitVec.ofNat 64 i * δ 1 := by
    intro num off i hi
    rw [Spec.tableOffset, if_pos (by simpa using hi), if_pos rfl, Nat.div_one]
    simp
  constructor
  · intro h i hi
    by_cases hlt : i < w
    · have := h w 0 i hlt
      rw [hp _ _ _ hlt, table_head δ w ws w 0 i (Nat.le_refl w) hlt, if_neg (by omega)] at this
      simpa using this
    · have e : i = w := by omega
      subst e
      have := h (i + 1) 0 (i + 0) (by omega)
      have hs : ∀ (vs : List Nat), (∀ v, v ∈ vs → 0 < v) → ∀ (off : U64), Spec.tableOffset δ vs 1 off 0 = off := by
        intro vs hvs
        induction vs with
        | nil => intro off; rfl
        | cons v vs ih =>
          intro off
          have v0 := hvs v List.mem_cons_self
          by_cases hv : v = 1
          · subst hv
            rw [table_head δ 1 vs 1 off 0 (by decide) (by decide), if_pos rfl]
            simp
          · rw [table_lt δ v vs 1 off 0 (by omega)]
            exact ih (fun u hu => hvs u (List.mem_cons_of_mem _ hu)) off
      rw [hp _ _ _ (by omega), table_tail δ i ws (i + 1) 0 0 (by omega) (by omega),
        table_lt δ i ws _ _ _ (by omega), Nat.add_sub_cancel_left,
        hs ws fun v hv => (hws v hv).1] at this
      simpa using this
  · intro h num off i hi
    rw [hp _ _ _ hi]
    refine table_linear δ (δ 1) (w :: ws) ?_ ?_ num off i (List.mem_cons_of_mem _ h1) hi
    · intro v hv
      rcases List.mem_cons.1 hv with e | hv
      · omega
      · exact (hws v hv).1
    · intro v hv j hj
      refine h j ?_
      rcases List.mem_cons.1 hv with e | hv
      · omega
      · have := (hws v hv).2; omega

/-- A table that is not linear: SSE4.1 gives six inputs other offsets than the portable code. -/
example : (List.range 6).map (Spec.tableOffset (fun j => ([0, 1, 5, 7, 20] : List U64).getD j 0) [4, 1] 6 100) =
    [100, 101, 105, 107, 120, 121] ∧
    (List.range 6).map (Spec.tableOffset (fun j => ([0, 1, 5, 7, 20] : List U64).getD j 0) [1] 6 100) =
      [100, 101, 102, 103, 104, 105] := by decide

/-- The first entry counts in a batch, but not for an input on its own. -/
example : (List.range 5).map (Spec.tableOffset (fun j => ([9, 1, 2, 3, 4] : List U64).getD j 0) [4, 1] 5 0) =
    [9, 1, 2, 3, 4] := by decide

/-- The hypotheses of C73 at a table that is not linear: seven inputs of one block each through AVX2. -/
example : ∃ r, C.Avx2.hash_many_avx2 (List.replicate 7 (List.replicate 64 1)) 7 1 (Vector.replicate 8 3) 5
    [2, 7, 1, 8, 2, 8, 1, 8, 3] 0 1 2 (List.replicate 300 0) = .ok r :=
  ⟨_, C73_avx2 _ 7 1 _ 5 _ 0 1 2 _ (by rw [List.length_replicate]; decide) (fun i hi => by
    rw [List.getD_eq_getElem?_getD, List.getElem?_replicate, if_pos hi, Option.getD_some, List.length_replicate]; decide)
    (by rw [List.length_replicate]; decide) (by decide)⟩

/-- The hypotheses of `C73_linear_iff` at the widths of AVX-512. -/
example (d : U64) : ∀ (num : Nat) (off : U64) (i : Nat), i < num →
    Spec.tableOffset (fun j => BitVec.ofNat 64 j * d) [16, 8, 4, 1] num off i =
      Spec.tableOffset (fun j => BitVec.ofNat 64 j * d) [1] num off i :=
  (C73_linear_iff _ 16 [8, 4, 1] (by decide) (by decide) (by decide)).2 fun i _ => by simp

end Baokeshed.Props
