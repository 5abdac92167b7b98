import Verif.Proofs.Par
import Verif.Props.Trace

/-! # C62: with rayon the critical path is logarithmic -/

set_option linter.unusedVariables false

namespace Baokeshed.Props
open Baokeshed.Model Baokeshed.Proofs

attribute [local irreducible] Spec.compress Spec.outBytes Spec.cvBytes Spec.pad

/-- C62.  In parallel the one-shot functions return the same and perform the same compressions, each once. -/
theorem C62_work (cfg : Config) (hv : cfg.Valid) (m : Spec.Mode) (input : Bytes) (hf : cfg.Fits input.length) :
    (P.oneShot cfg m input).res = oneShot cfg m input ∧ (P.oneShotXof cfg m input).res = oneShotXof cfg m input ∧
    (P.oneShot cfg m input).work.all = (T.oneShot cfg m input).log ∧
    (P.oneShot cfg m input).work.all.Perm (Spec.calls m input) := by
  have h := P.oneShot_same cfg m input
  have e := (T.oneShot_res cfg m input).trans (C01_one_shot_eq_spec cfg hv m input hf)
  have ha := h.2 _ e
  exact ⟨h.1.trans (T.oneShot_res ..), (P.oneShotXof_same cfg m input).1.trans (T.oneShotXof_res ..), ha,
    ha ▸ (C39_one_shot cfg hv m input hf).1⟩

theorem fits_bounds_span {cfg : Config} (hv : cfg.Valid) {n : Nat} (hf : cfg.Fits n) : n < 2 ^ cfg.usizeBits ∧ n < 2 ^ 63 := by
  have h1 : 2 ^ (cfg.usizeBits - 1) ≤ 2 ^ 63 := Nat.pow_le_pow_right (by decide) (by have := hv.2; omega)
  have h2 : 2 ^ (cfg.usizeBits - 1) ≤ 2 ^ cfg.usizeBits := Nat.pow_le_pow_right (by decide) (by omega)
  exact ⟨Nat.lt_of_lt_of_le hf h2, Nat.lt_of_lt_of_le hf h1⟩

/-- C62.  An input of at most `d * 2 ^ L` chunks, with `d` lanes, takes no more than the time of `d` chunks, and of `d`
parents for each of the `L + 1` levels above them (two parents if there is one lane). -/
theorem C62_span (cfg : Config) (hv : cfg.Valid) (m : Spec.Mode) (input : Bytes) (hf : cfg.Fits input.length) (L : Nat)
    (hL : input.length ≤ (Platform.detect cfg).simd_degree * 2048 * 2 ^ L) :
    (P.oneShot cfg m input).work.span ≤
      32 * (Platform.detect cfg).simd_degree + max (Platform.detect cfg).simd_degree 2 * (L + 1) := by
  obtain ⟨h1, h2⟩ := fits_bounds_span hv hf
  exact P.oneShot_span cfg m L input h1 (by omega) hL

theorem degree_bounds (p : Platform) : 1 ≤ p.simd_degree ∧ p.simd_degree ≤ 8 := by cases p <;> decide

/-- C62.  On every processor the time is logarithmic in the length, and never more than that of 688 compressions. -/
theorem C62_logarithmic (cfg : Config) (hv : cfg.Valid) (m : Spec.Mode) (input : Bytes) (hf : cfg.Fits input.length) :
    (P.oneShot cfg m input).work.span ≤ 256 + 8 * (Nat.log2 (input.length / 2048) + 2) ∧
    (P.oneShot cfg m input).work.span ≤ 688 := by
  obtain ⟨-, h63⟩ := fits_bounds_span hv hf
  obtain ⟨d1, d8⟩ := degree_bounds (Platform.detect cfg)
  have h := C62_span cfg hv m input hf (Nat.log2 (input.length / 2048) + 1) (by
    have h1 : input.length / 2048 < 2 ^ (Nat.log2 (input.length / 2048) + 1) := Nat.lt_log2_self
    have h2 := Nat.mul_le_mul_right (2048 * 2 ^ (Nat.log2 (input.length / 2048) + 1)) d1
    rw [Nat.one_mul, ← Nat.mul_assoc] at h2
    omega)
  have hlog : Nat.log2 (input.length / 2048) ≤ 51 := by
    by_cases h0 : input.length / 2048 = 0
    · rw [h0]; decide
    · have := (Nat.log2_lt h0 (k := 52)).2 (by omega)
      omega
  have h3 : max (Platform.detect cfg).simd_degree 2 * (Nat.log2 (input.length / 2048) + 1 + 1) ≤
      8 * (Nat.log2 (input.length / 2048) + 1 + 1) := Nat.mul_le_mul_right _ (by omega)
  omega

-- 100000 bytes with AVX2: 49 chunks, at most 8 * 2 ^ 3
example : exAvx2.Valid ∧ exAvx2.Fits (rep 100000 1).length ∧
    (rep 100000 1).length ≤ (Platform.detect exAvx2).simd_degree * 2048 * 2 ^ 3 := by
  refine ⟨exAvx2_valid, by simp [Config.Fits, exAvx2], ?_⟩
  simp [exAvx2, Platform.detect, Platform.simd_degree]

end Baokeshed.Props
