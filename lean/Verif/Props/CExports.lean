import Verif.Proofs.C.Sse41
import Verif.Proofs.C.Avx2
import Verif.Proofs.C.Avx512
import Verif.Proofs.C.Neon
import Verif.Proofs.C64.Sse41
import Verif.Proofs.C64.Avx2
import Verif.Proofs.C64.Avx512
import Verif.Proofs.C64.Neon
import Verif.Proofs.C.Long
import Verif.Proofs.HashMany8
import Verif.Props.Kernels
import Verif.Props.Ex

/-!
# C54: the exported kernels of fixed width; C55: the exported chunk state

`hash4_sse41`, `hash8_avx2`, `hash4/8/16_avx512`, `hash4_neon` and their 64-bit relatives have external
linkage and take an *array* of offset deltas.  Their callers in the repository only pass the tables
`i * step`; C54 says what they do for every array.

`chunk_state_init`, `_reset`, `_update` and `_finalize` have external linkage too and check no length.  C55
says what they compute for every length and every division of the input.
-/

set_option linter.unusedVariables false

namespace Baokeshed.Props
open Baokeshed.Model

/-- `K` hashes `N` inputs of `blocks` blocks at once, input `i` at `offset + deltas[i]`, and leaves the rest
of the output alone. -/
def Kernel (N : Nat) (K : List Bytes → Nat → Vector Word 8 → U64 → List U64 → Byte → Byte → Byte → Bytes → R Bytes) : Prop :=
  ∀ (inputs : List Bytes) (blocks : Nat) (key : Vector Word 8) (offset : U64) (deltas : List U64)
    (flags first last : Byte) (out : Bytes),
    N ≤ inputs.length → (∀ i, i < N → 64 * blocks ≤ (inputs.getD i []).length) → N ≤ deltas.length →
    32 * N ≤ out.length →
    K inputs blocks key offset deltas flags first last out =
      .ok (Spec.eachOut key (fun i => offset + deltas.getD i 0) flags first last blocks N inputs ++ out.drop (32 * N))

/-- The same for the 64-bit code: blocks of 128 bytes, a key of four words. -/
def Kernel64 (N : Nat) (K : List Bytes → Nat → Vector U64 4 → U64 → List U64 → Byte → Byte → Byte → Bytes → R Bytes) : Prop :=
  ∀ (inputs : List Bytes) (blocks : Nat) (key : Vector U64 4) (offset : U64) (deltas : List U64)
    (flags first last : Byte) (out : Bytes),
    N ≤ inputs.length → (∀ i, i < N → 128 * blocks ≤ (inputs.getD i []).length) → N ≤ deltas.length →
    32 * N ≤ out.length →
    K inputs blocks key offset deltas flags first last out =
      .ok (Spec64.eachOut key (fun i => offset + deltas.getD i 0) flags first last blocks N inputs ++ out.drop (32 * N))

theorem getD_some {α : Type} (l : List α) (d : α) (i : Nat) (h : i < l.length) : l[i]? = some (l.getD i d) := by
  rw [List.getElem?_eq_getElem h, List.getD_eq_getElem?_getD, List.getElem?_eq_getElem h]; rfl

theorem C54_hash4_sse41 : Kernel 4 (C.Sse41.hash4_sse41) := by
  intro inputs blocks key offset deltas flags first last out h1 h2 h3 h4
  refine (Proofs.C.Sse41.kern_eq ..).trans ?_
  exact Proofs.C.kern_each 4 Proofs.C.Sse41.L Proofs.C.Sse41.ops _ key flags first last blocks deltas _ _ _ Proofs.C.Sse41.hom
    Proofs.C.Sse41.lane_set1' Proofs.C.Sse41.msg_ok Proofs.C.Sse41.store_ok (fun i => deltas.getD i 0)
    (Proofs.C.Sse41.offs_ok _ deltas fun i hi => getD_some deltas 0 i (by omega)) inputs offset out h1 h2 h4

theorem C54_hash8_avx2 : Kernel 8 (C.Avx2.hash8_avx2) := by
  intro inputs blocks key offset deltas flags first last out h1 h2 h3 h4
  refine (Proofs.C.Avx2.kern_eq ..).trans ?_
  exact Proofs.C.kern_each 8 Proofs.C.Avx2.L Proofs.C.Avx2.ops _ key flags first last blocks deltas _ _ _ Proofs.C.Avx2.hom
    Proofs.C.Avx2.lane_set1 Proofs.C.Avx2.msg_ok Proofs.C.Avx2.store_ok (fun i => deltas.getD i 0)
    (Proofs.C.Avx2.offs_ok _ deltas fun i hi => getD_some deltas 0 i (by omega)) inputs offset out h1 h2 h4

theorem C54_hash4_avx512 : Kernel 4 (C.Avx512.hash4_avx512) := by
  intro inputs blocks key offset deltas flags first last out h1 h2 h3 h4
  refine (Proofs.C.Avx512.kern_eq4 ..).trans ?_
  exact Proofs.C.kern_each 4 Proofs.C.Avx512.L Proofs.C.Avx512.ops4 _ key flags first last blocks deltas _ _ _ Proofs.C.Avx512.hom4
    Proofs.C.Avx512.lane_set14 Proofs.C.Avx512.msg_ok4 Proofs.C.Avx512.store_ok4 (fun i => deltas.getD i 0)
    (Proofs.C.Avx512.offs_ok4 _ deltas fun i hi => getD_some deltas 0 i (by omega)) inputs offset out h1 h2 h4

theorem C54_hash8_avx512 : Kernel 8 (C.Avx512.hash8_avx512) := by
  intro inputs blocks key offset deltas flags first last out h1 h2 h3 h4
  refine (Proofs.C.Avx512.kern_eq8 ..).trans ?_
  exact Proofs.C.kern_each 8 Proofs.C.Avx512.L Proofs.C.Avx512.ops8 _ key flags first last blocks deltas _ _ _ Proofs.C.Avx512.hom8
    Proofs.C.Avx512.lane_set18 Proofs.C.Avx512.msg_ok8 Proofs.C.Avx512.store_ok8 (fun i => deltas.getD i 0)
    (Proofs.C.Avx512.offs_ok8 _ deltas fun i hi => getD_some deltas 0 i (by omega)) inputs offset out h1 h2 h4

theorem C54_hash16_avx512 : Kernel 16 (C.Avx512.hash16_avx512) := by
  intro inputs blocks key offset deltas flags first last out h1 h2 h3 h4
  refine (Proofs.C.Avx512.kern_eq16 ..).trans ?_
  exact Proofs.C.kern_each 16 Proofs.C.Avx512.L Proofs.C.Avx512.ops16 _ key flags first last blocks deltas _ _ _ Proofs.C.Avx512.hom16
    Proofs.C.Avx512.lane_set116 Proofs.C.Avx512.msg_ok16 Proofs.C.Avx512.store_ok16 (fun i => deltas.getD i 0)
    (Proofs.C.Avx512.offs_ok16 _ deltas fun i hi => getD_some deltas 0 i (by omega)) inputs offset out h1 h2 h4

theorem C54_hash4_neon : Kernel 4 (C.Neon.hash4_neon .little) := by
  intro inputs blocks key offset deltas flags first last out h1 h2 h3 h4
  refine (Proofs.C.Neon.kern_eq ..).trans ?_
  exact Proofs.C.kern_each 4 Proofs.C.Neon.L Proofs.C.Neon.ops _ key flags first last blocks deltas _ _ _ Proofs.C.Neon.hom
    Proofs.C.Neon.lane_set1 Proofs.C.Neon.msg_ok Proofs.C.Neon.store_ok (fun i => deltas.getD i 0)
    (Proofs.C.Neon.offs_ok _ deltas fun i hi => getD_some deltas 0 i (by omega)) inputs offset out h1 h2 h4

theorem C54_c64_hash2_sse41 : Kernel64 2 (C64.Sse41.hash2_sse41) := by
  intro inputs blocks key offset deltas flags first last out h1 h2 h3 h4
  refine (Proofs.W64.Sse41.kern_eq ..).trans ?_
  exact Proofs.W64.kern_each 2 Proofs.W64.Sse41.L Proofs.W64.Sse41.ops _ key flags first last blocks deltas _ _ _ Proofs.W64.Sse41.hom
    Proofs.W64.Sse41.lane_set1 Proofs.W64.Sse41.msg_ok Proofs.W64.Sse41.store_ok (fun i => deltas.getD i 0)
    (Proofs.W64.Sse41.offs_ok _ deltas fun i hi => getD_some deltas 0 i (by omega)) inputs offset out h1 h2 h4

theorem C54_c64_hash4_avx2 : Kernel64 4 (C64.Avx2.hash4_avx2) := by
  intro inputs blocks key offset deltas flags first last out h1 h2 h3 h4
  refine (Proofs.W64.Avx2.kern_eq ..).trans ?_
  exact Proofs.W64.kern_each 4 Proofs.W64.Avx2.L Proofs.W64.Avx2.ops _ key flags first last blocks deltas _ _ _ Proofs.W64.Avx2.hom
    Proofs.W64.Avx2.lane_set1 Proofs.W64.Avx2.msg_ok Proofs.W64.Avx2.store_ok (fun i => deltas.getD i 0)
    (Proofs.W64.Avx2.offs_ok _ deltas fun i hi => getD_some deltas 0 i (by omega)) inputs offset out h1 h2 h4

theorem C54_c64_hash2_avx512 : Kernel64 2 (C64.Avx512.hash2_avx512) := by
  intro inputs blocks key offset deltas flags first last out h1 h2 h3 h4
  refine (Proofs.W64.Avx512.kern_eq2 ..).trans ?_
  exact Proofs.W64.kern_each 2 Proofs.W64.Avx512.L2 Proofs.W64.Avx512.ops2 _ key flags first last blocks deltas _ _ _ Proofs.W64.Avx512.hom2
    Proofs.W64.Avx512.lane_set12 Proofs.W64.Avx512.msg_ok2 Proofs.W64.Avx512.store_ok2 (fun i => deltas.getD i 0)
    (Proofs.W64.Avx512.offs_ok2 _ deltas fun i hi => getD_some deltas 0 i (by omega)) inputs offset out h1 h2 h4

theorem C54_c64_hash4_avx512 : Kernel64 4 (C64.Avx512.hash4_avx512) := by
  intro inputs blocks key offset deltas flags first last out h1 h2 h3 h4
  refine (Proofs.W64.Avx512.kern_eq4 ..).trans ?_
  exact Proofs.W64.kern_each 4 Proofs.W64.Avx512.L4 Proofs.W64.Avx512.ops4 _ key flags first last blocks deltas _ _ _ Proofs.W64.Avx512.hom4
    Proofs.W64.Avx512.lane_set14 Proofs.W64.Avx512.msg_ok4 Proofs.W64.Avx512.store_ok4 (fun i => deltas.getD i 0)
    (Proofs.W64.Avx512.offs_ok4 _ deltas fun i hi => getD_some deltas 0 i (by omega)) inputs offset out h1 h2 h4

theorem C54_c64_hash8_avx512 : Kernel64 8 (C64.Avx512.hash8_avx512) := by
  intro inputs blocks key offset deltas flags first last out h1 h2 h3 h4
  refine (Proofs.W64.Avx512.kern_eq8 ..).trans ?_
  exact Proofs.W64.kern_each 8 Proofs.W64.Avx512.L8 Proofs.W64.Avx512.ops8 _ key flags first last blocks deltas _ _ _ Proofs.W64.Avx512.hom8
    Proofs.W64.Avx512.lane_set18 Proofs.W64.Avx512.msg_ok8 Proofs.W64.Avx512.store_ok8 (fun i => deltas.getD i 0)
    (Proofs.W64.Avx512.offs_ok8 _ deltas fun i hi => getD_some deltas 0 i (by omega)) inputs offset out h1 h2 h4

theorem C54_c64_hash2_neon : Kernel64 2 (C64.Neon.hash2_neon .little) := by
  intro inputs blocks key offset deltas flags first last out h1 h2 h3 h4
  refine (Proofs.W64.Neon.kern_eq ..).trans ?_
  exact Proofs.W64.kern_each 2 Proofs.W64.Neon.L Proofs.W64.Neon.ops _ key flags first last blocks deltas _ _ _ Proofs.W64.Neon.hom
    Proofs.W64.Neon.lane_set1 Proofs.W64.Neon.msg_ok Proofs.W64.Neon.store_ok (fun i => deltas.getD i 0)
    (Proofs.W64.Neon.offs_ok _ deltas fun i hi => getD_some deltas 0 i (by omega)) inputs offset out h1 h2 h4

/-! ## The Rust functions -/

theorem lanesOut_spec (key : Vector Word 8) (off d : U64) (flags fs fe : Byte) (blocks : Nat) (xs : List Bytes)
    (hx : ∀ x ∈ xs, x.length = 64 * blocks) (i : Nat) :
    Proofs.lanesOut key off d flags fs fe i xs = (List.range xs.length).flatMap fun j =>
      (Spec.cvBytes (Spec.blockChain key (off + BitVec.ofNat 64 (i + j) * d) flags fs fe blocks (xs.getD j []))).toList := by
  induction xs generalizing i with
  | nil => rfl
  | cons x xs ih =>
    have hl := hx x (List.mem_cons_self ..)
    have ho : Proofs.offs off d i = off + BitVec.ofNat 64 i * d := by
      apply BitVec.eq_of_toNat_eq
      rw [Proofs.offs, BitVec.toNat_ofNat, BitVec.toNat_add, BitVec.toNat_mul, BitVec.toNat_ofNat]
      simp [Nat.add_mod, Nat.mul_mod]
    have hc := Proofs.C.cvLoop_chain key flags fs fe (off + BitVec.ofNat 64 i * d) blocks x (by omega)
    rw [List.take_of_length_le (by omega)] at hc
    rw [Proofs.lanesOut, ih (fun y hy => hx y (List.mem_cons_of_mem _ hy)), ho, hc, List.length_cons, List.range_succ_eq_map,
      List.flatMap_cons, List.flatMap_map]
    rw [Nat.add_zero, List.getD_cons_zero]
    refine congrArg (_ ++ ·) ?_
    refine congrArg (fun f => List.flatMap f (List.range xs.length)) (funext fun j => ?_)
    rw [show i + 1 + j = i + Nat.succ j by omega, List.getD_cons_succ]

theorem C08_hash_many_spec (p : Platform) (blocks : Nat) (inputs : List Bytes) (hx : ∀ x ∈ inputs, x.length = 64 * blocks)
    (key : Vector Word 8) (offset delta : U64) (flags fs fe : Byte) (out : Bytes) :
    p.hash_many (64 * blocks) inputs key offset delta flags fs fe out =
      if out.length < 32 * inputs.length then .error .assert
      else if offset.toNat + inputs.length * delta.toNat < 2 ^ 64 then
        .ok (Spec.manyOut key offset delta flags fs fe blocks inputs.length inputs ++ out.drop (32 * inputs.length))
      else .error .overflow := by
  have hcap : 64 * blocks % 64 = 0 := by omega
  have e : p.hash_many (64 * blocks) inputs key offset delta flags fs fe out =
      Portable.hash_many inputs key offset delta flags fs fe out := by
    cases p
    · rfl
    · exact (C08_simd_hash_many _ hcap inputs hx key offset delta flags fs fe out).1
    · exact (C08_simd_hash_many _ hcap inputs hx key offset delta flags fs fe out).2
  rw [e, hash_many_result _ hcap inputs hx, lanesOut_spec key offset delta flags fs fe blocks inputs hx]
  simp only [Nat.zero_add, Spec.manyOut]

theorem C54_rust_hash4 (inputs : Vector Bytes 4) (blocks : Nat) (key : Vector Word 8) (offset delta : U64)
    (flags fs fe : Byte) (out : Bytes) (hlen : ∀ i (hi : i < 4), inputs[i].length = 64 * blocks)
    (hout : out.length = 128) :
    Sse41.hash4 inputs blocks key offset delta flags fs fe out =
      if offset.toNat + 3 * delta.toNat < 2 ^ 64 then
        .ok (Spec.manyOut key offset delta flags fs fe blocks 4 inputs.toList)
      else .error .overflow := by
  rw [Proofs.hash4_eq inputs blocks key offset delta flags fs fe out hlen hout, lanesOut_spec key offset delta flags fs fe blocks]
  · simp only [Nat.zero_add, Spec.manyOut, Vector.length_toList]
  · intro x hx
    obtain ⟨i, hi, e⟩ := List.getElem_of_mem hx
    rw [← e, Vector.getElem_toList]; exact hlen i (by simpa using hi)

theorem C54_rust_hash8 (inputs : Vector Bytes 8) (blocks : Nat) (key : Vector Word 8) (offset delta : U64)
    (flags fs fe : Byte) (out : Bytes) (hlen : ∀ i (hi : i < 8), inputs[i].length = 64 * blocks)
    (hout : out.length = 256) :
    Avx2.hash8 inputs blocks key offset delta flags fs fe out =
      if offset.toNat + 7 * delta.toNat < 2 ^ 64 then
        .ok (Spec.manyOut key offset delta flags fs fe blocks 8 inputs.toList)
      else .error .overflow := by
  rw [Proofs.hash8_eq inputs blocks key offset delta flags fs fe out hlen hout, lanesOut_spec key offset delta flags fs fe blocks]
  · simp only [Nat.zero_add, Spec.manyOut, Vector.length_toList]
  · intro x hx
    obtain ⟨i, hi, e⟩ := List.getElem_of_mem hx
    rw [← e, Vector.getElem_toList]; exact hlen i (by simpa using hi)

-- four inputs of 17 blocks (more than a chunk holds) with deltas in no order, one of them wrapping around 2^64
example : 4 ≤ (List.replicate 4 (rep 1088 7)).length ∧
    (∀ i, i < 4 → 64 * 17 ≤ ((List.replicate 4 (rep 1088 7)).getD i []).length) ∧
    4 ≤ ([5, 0, -1, 3] : List U64).length ∧ 32 * 4 ≤ (rep 200 0).length := by
  refine ⟨by simp, ?_, by simp, by simp⟩
  intro i hi
  simp only [List.getD_eq_getElem?_getD, List.getElem?_replicate, if_pos hi, Option.getD_some, length_rep]
  omega

/-! ## The chunk state of the C code -/

open C in
/-- a sequence of calls of `chunk_state_update`, one for each piece -/
def chunkCalls (cfg : C.Config) : chunk_state → List Bytes → R chunk_state
  | s, [] => .ok s
  | s, i :: is => chunk_state_update cfg s i i.length >>= fun s => chunkCalls cfg s is

theorem chunkCalls_eq (cfg : C.Config) (s : C.chunk_state) (is : List Bytes) :
    chunkCalls cfg s is = Proofs.C.chunkUpdates cfg s is := by
  induction is generalizing s with
  | nil => rfl
  | cons i is ih => simp only [chunkCalls, Proofs.C.chunkUpdates, ih]

/-- C55.  `chunk_state_init`, `chunk_state_update` on any pieces, `chunk_state_finalize`: no undefined
behaviour, and the 32 bytes of the last compression of the chain over all the pieces. -/
theorem C55_chunk_state (cfg : C.Config) (h16 : 16 ≤ cfg.bits) (key : Vector Word 8) (flags : Byte) (pieces : List Bytes)
    (root : Bool) (out : Bytes) (ho : 32 ≤ out.length) :
    (chunkCalls cfg (C.chunk_state_init key flags) pieces >>= fun s => C.chunk_state_finalize cfg s root out) =
      .ok ((Spec.cvBytes (Spec.compress (Spec.longChunk key flags 0 root pieces.flatten))).toList ++ out.drop 32) := by
  obtain ⟨s', t', b', e, hl, hn⟩ := (Proofs.C.Long.init key flags).updates (cfg := cfg) h16 (.inr rfl) pieces
  rw [chunkCalls_eq, e]
  exact hl.finalize hn root out ho

/-- C55.  The same after `chunk_state_reset` of a state with any past, at any offset. -/
theorem C55_chunk_state_reset (cfg : C.Config) (h16 : 16 ≤ cfg.bits) (s : C.chunk_state) (offset : U64) (pieces : List Bytes)
    (root : Bool) (out : Bytes) (ho : 32 ≤ out.length) :
    (chunkCalls cfg (C.chunk_state_reset s offset) pieces >>= fun s => C.chunk_state_finalize cfg s root out) =
      .ok ((Spec.cvBytes (Spec.compress (Spec.longChunk s.key s.flags offset root pieces.flatten))).toList ++ out.drop 32) := by
  obtain ⟨s', t', b', e, hl, hn⟩ := (Proofs.C.Long.reset s offset).updates (cfg := cfg) h16 (.inr rfl) pieces
  rw [chunkCalls_eq, e]
  exact hl.finalize hn root out ho

/-- C55.  Up to 65536 bytes (32 chunks) the chain is that of the specification of a chunk. -/
theorem C55_chunk_spec (key : Vector Word 8) (flags : Byte) (offset : Nat) (root : Bool) (c : Bytes) (h : c.length ≤ 65536) :
    Spec.longChunk key flags (BitVec.ofNat 64 offset) root c =
      { Spec.chunk key flags offset c with
        flags := (Spec.chunk key flags offset c).flags ||| if root then Spec.rootFlag else 0 } :=
  Proofs.C.longChunk_eq key flags offset root c h

theorem longFrom_flags (flags : Byte) (offset : U64) (root : Bool) (c : Bytes) : ∀ (b : Nat) (cv : Vector Word 8),
    (Spec.longFrom flags offset root b cv c).flags =
      flags ||| (if (b + (c.length - 1) / 64) % 1024 = 0 then Spec.chunkStart else 0) ||| Spec.chunkEnd |||
        (if root then Spec.rootFlag else 0) := by
  induction hn : c.length using Nat.strongRecOn generalizing c with
  | ind n ih =>
    intro b cv
    subst hn
    rw [Spec.longFrom]
    by_cases h : c.length ≤ 64
    · rw [dif_pos h, show (c.length - 1) / 64 = 0 by omega]; rfl
    · rw [dif_neg h, ih _ (by rw [List.length_drop]; omega) _ rfl, List.length_drop,
        show b + 1 + (c.length - 64 - 1) / 64 = b + (c.length - 1) / 64 by omega]

/-- C55.  Beyond 65536 bytes the counter of 16 bits has wrapped around: block 1024 carries the start flag of a
first block again. -/
theorem C55_wraps (key : Vector Word 8) (flags : Byte) (offset : U64) (root : Bool) (c : Bytes)
    (h : 65536 < c.length) (h' : c.length ≤ 65600) :
    (Spec.longChunk key flags offset root c).flags =
      flags ||| Spec.chunkStart ||| Spec.chunkEnd ||| (if root then Spec.rootFlag else 0) := by
  rw [Spec.longChunk, longFrom_flags, if_pos (by omega)]

-- a build for 16 bits, three pieces that divide neither blocks nor chunks, more than 65536 bytes
example : 16 ≤ 16 ∧ (List.flatten [rep 1 1, rep 65000 2, rep 599 3]).length = 65600 ∧ 32 ≤ (rep 32 0).length := by
  refine ⟨by omega, ?_, by simp⟩
  rw [List.flatten_cons, List.flatten_cons, List.flatten_cons]
  simp

end Baokeshed.Props
