import Verif.Props.CExports
import Verif.Props.Steps
import Verif.Proofs.ExactSteps
import Verif.Proofs.VectorOps

/-!
# C92: exactly what portable.rs executes, and how many additions the vector code saves

The expected steps are in StepsSpec.lean, written from RFC 7693 and the lengths alone.
-/

namespace Baokeshed.Props
open Baokeshed.Model Baokeshed.Proofs
open Baokeshed.Spec (Expected.compress Expected.compress_xof Expected.hash_many)
set_option linter.unusedVariables false

/-- C92.  The steps of `compress` and `compress_xof` of portable.rs, in order. -/
theorem C92_compress (cv : Vector Word 8) (b : Vector Byte 64) (l : Byte) (t : U64) (f : Byte) :
    (Steps.Portable.compress cv b l t f).log = Expected.compress ∧
    (Steps.Portable.compress_xof cv b l t f).log = Expected.compress_xof :=
  ⟨Steps.compress_listed .., Steps.compress_xof_listed ..⟩

/-- the calls that do not panic (C08) -/
theorem many_ok (p : Platform) (n : Nat) (xs : List Bytes) (hx : ∀ x ∈ xs, x.length = 64 * n) (k : Vector Word 8) (t d : U64)
    (f fs fe : Byte) (out : Bytes) (ho : 32 * xs.length ≤ out.length) (ht : t.toNat + xs.length * d.toNat < 2 ^ 64) :
    ∃ o, p.hash_many (64 * n) xs k t d f fs fe out = .ok o :=
  ⟨_, by rw [C08_hash_many_spec p n xs hx, if_neg (by omega), if_pos ht]⟩

/-- C92.  The steps of `hash_many` of portable.rs on inputs of `n` blocks each, in order. -/
theorem C92_hash_many_portable (n : Nat) (xs : List Bytes) (hx : ∀ x ∈ xs, x.length = 64 * n) (k : Vector Word 8) (t d : U64)
    (f fs fe : Byte) (out : Bytes) (ho : 32 * xs.length ≤ out.length) (ht : t.toNat + xs.length * d.toNat < 2 ^ 64) :
    (Steps.Portable.hash_many xs k t d f fs fe out).log = Expected.hash_many n xs.length := by
  obtain ⟨o, e⟩ := many_ok .portable n xs hx k t d f fs fe out ho ht
  exact Steps.many_listed k t d f fs fe n xs hx out o ((Steps.p_hash_many_res ..).trans e)

/-- C92.  `hash_many` of sse41.rs: the inputs are taken four at a time, for 336 additions of vectors per block; each of the last one,
two or three inputs takes 84 additions per block.  (portable.rs: 336 additions of words per block of one input.) -/
theorem C92_hash_many_sse41 (n : Nat) (xs : List Bytes) (hx : ∀ x ∈ xs, x.length = 64 * n) (k : Vector Word 8) (t d : U64)
    (f fs fe : Byte) (out : Bytes) (ho : 32 * xs.length ≤ out.length) (ht : t.toNat + xs.length * d.toNat < 2 ^ 64) :
    times "_mm_add_epi32" (Steps.Sse41.hash_many (64 * n) xs k t d f fs fe out).log =
      336 * n * (xs.length / 4) + 84 * n * (xs.length % 4) ∧
    times "_mm256_add_epi32" (Steps.Sse41.hash_many (64 * n) xs k t d f fs fe out).log = 0 := by
  obtain ⟨o, e⟩ := many_ok .sse41 n xs hx k t d f fs fe out ho ht
  have h := Steps.s_many_cost n k d f fs fe xs hx t out o ((Steps.s_hash_many_res ..).trans e)
  exact ⟨congrArg Prod.fst h, congrArg Prod.snd h⟩

/-- C92.  `hash_many` of avx2.rs: the inputs are taken eight at a time, for 336 additions of vectors per block; if four or more are
left then four of them take 336 additions of the smaller vectors per block, and each of the rest takes 84. -/
theorem C92_hash_many_avx2 (n : Nat) (xs : List Bytes) (hx : ∀ x ∈ xs, x.length = 64 * n) (k : Vector Word 8) (t d : U64)
    (f fs fe : Byte) (out : Bytes) (ho : 32 * xs.length ≤ out.length) (ht : t.toNat + xs.length * d.toNat < 2 ^ 64) :
    times "_mm256_add_epi32" (Steps.Avx2.hash_many (64 * n) xs k t d f fs fe out).log = 336 * n * (xs.length / 8) ∧
    times "_mm_add_epi32" (Steps.Avx2.hash_many (64 * n) xs k t d f fs fe out).log =
      336 * n * (xs.length % 8 / 4) + 84 * n * (xs.length % 4) := by
  obtain ⟨o, e⟩ := many_ok .avx2 n xs hx k t d f fs fe out ho ht
  have h := Steps.a_many_cost n k d f fs fe xs hx t out o ((Steps.a_hash_many_res ..).trans e)
  exact ⟨congrArg Prod.snd h, congrArg Prod.fst h⟩

/-- Nothing else in portable.rs adds words. -/
theorem times_append (s : String) (l l' : List Steps.Step) : times s (l ++ l') = times s l + times s l' := by
  simp only [times, List.filter_append, List.length_append]

theorem times_blocks (n : Nat) : times "wrapping_add" (Spec.Expected.blocks n) = 336 * n := by
  induction n with
  | zero => decide +kernel
  | succ n ih =>
    rw [Spec.Expected.blocks, times_append, times_append, ih, show times "wrapping_add" Expected.compress = 336 by decide +kernel]
    have : times "wrapping_add" [⟨"while", [1]⟩, ⟨"if", [if n = 0 then 1 else 0]⟩, ⟨"array_ref", [64 * (n + 1), 0, 64]⟩] = 0 := by
      simp [times]
    omega

theorem times_inputs (n m : Nat) : times "wrapping_add" (Spec.Expected.inputs n m) = 336 * n * m := by
  induction m with
  | zero => simp [Spec.Expected.inputs, times]
  | succ m ih =>
    rw [Spec.Expected.inputs, times_append, times_append, times_append, ih, Spec.Expected.hash1, times_append, times_append, times_blocks,
      show times "wrapping_add" [⟨"for", [1]⟩] = 0 by simp [times], show times "wrapping_add" [⟨"debug_assert", []⟩] = 0 by simp [times],
      show times "wrapping_add" [⟨"+=", []⟩] = 0 by simp [times],
      show times "wrapping_add" ((List.range 8).map fun i => ⟨"to_le_bytes", [i]⟩) = 0 by decide +kernel, Nat.mul_add, Nat.mul_one]
    omega

/-- C92.  So `m` inputs of `n` blocks take 336 additions of words per block with portable.rs, and, if `m` is a multiple of eight, an
eighth of that many additions of vectors with avx2.rs and a quarter with sse41.rs. -/
theorem C92_eighth (n : Nat) (xs : List Bytes) (h8 : xs.length % 8 = 0) (hx : ∀ x ∈ xs, x.length = 64 * n) (k : Vector Word 8) (t d : U64)
    (f fs fe : Byte) (out : Bytes) (ho : 32 * xs.length ≤ out.length) (ht : t.toNat + xs.length * d.toNat < 2 ^ 64) :
    times "wrapping_add" (Steps.Portable.hash_many xs k t d f fs fe out).log = 336 * n * xs.length ∧
    4 * times "_mm_add_epi32" (Steps.Sse41.hash_many (64 * n) xs k t d f fs fe out).log = 336 * n * xs.length ∧
    8 * times "_mm256_add_epi32" (Steps.Avx2.hash_many (64 * n) xs k t d f fs fe out).log = 336 * n * xs.length ∧
    times "_mm_add_epi32" (Steps.Avx2.hash_many (64 * n) xs k t d f fs fe out).log = 0 := by
  refine ⟨?_, ?_, ?_, ?_⟩
  · rw [C92_hash_many_portable n xs hx k t d f fs fe out ho ht, Spec.Expected.hash_many, times_append, times_inputs]
    show 0 + _ = _
    rw [Nat.zero_add]
  · rw [(C92_hash_many_sse41 n xs hx k t d f fs fe out ho ht).1, show xs.length % 4 = 0 by omega, Nat.mul_zero, Nat.add_zero,
      Nat.mul_left_comm, show 4 * (xs.length / 4) = xs.length by omega]
  · rw [(C92_hash_many_avx2 n xs hx k t d f fs fe out ho ht).1, Nat.mul_left_comm, show 8 * (xs.length / 8) = xs.length by omega]
  · rw [(C92_hash_many_avx2 n xs hx k t d f fs fe out ho ht).2, show xs.length % 4 = 0 by omega, h8]
    rfl

/-! The hypotheses can be met: eight chunks, as the library hashes them. -/

example (k : Vector Word 8) (b : Byte) : 8 * times "_mm256_add_epi32"
    (Steps.Avx2.hash_many 2048 (List.replicate 8 (List.replicate 2048 b)) k 0 2048 0 1 2 (List.replicate 256 0)).log = 336 * 32 * 8 := by
  have h := (C92_eighth 32 (List.replicate 8 (List.replicate 2048 b)) (by rw [List.length_replicate])
    (fun x hx => by rw [List.eq_of_mem_replicate hx, List.length_replicate]) k 0 2048 0 1 2 (List.replicate 256 0)
    (by rw [List.length_replicate, List.length_replicate]; decide) (by rw [List.length_replicate]; decide)).2.2.1
  rw [List.length_replicate] at h
  exact h

end Baokeshed.Props
