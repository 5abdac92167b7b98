import Verif.Proofs.Parents
import Verif.Props.Lanes
import Verif.Props.Schedule

/-!
# C79: parent nodes, too, are hashed several at a time

The kernel calls with which the one-shot functions hash the parent nodes below the root: their number is within a logarithm
of the least possible.
-/

set_option linter.unusedVariables false

namespace Baokeshed.Props.Parents
open Baokeshed.Model Baokeshed.Proofs Baokeshed.Model.I Baokeshed.Spec Baokeshed.Props.Lanes Baokeshed.Proofs.I

theorem left_pow (k : Nat) : leftChunks (2 ^ (k + 1)) = 2 ^ k := by
  rw [leftChunks]
  congr 1
  refine (Nat.log2_eq_iff ?_).2 ⟨?_, ?_⟩ <;> (have := Nat.two_pow_pos k; rw [Nat.pow_succ]; omega)

theorem wanted_pow (p : Platform) : ∃ j, 1 ≤ j ∧ wanted p = 2 ^ j := by
  cases p
  · exact ⟨1, by decide, rfl⟩
  · exact ⟨2, by decide, rfl⟩
  · exact ⟨3, by decide, rfl⟩

/-- A full subtree leaves as many hashes as are wanted. -/
theorem roots_pow (p : Platform) (k : Nat) (h : wanted p ≤ 2 ^ k) : roots p (2 ^ k) = wanted p := by
  obtain ⟨j, hj, e⟩ := wanted_pow p
  induction k with
  | zero => exact absurd h (by rw [e]; have := Nat.pow_le_pow_right (n := 2) (by decide) hj; omega)
  | succ k ih =>
    by_cases hk : 2 ^ (k + 1) ≤ wanted p
    · rw [roots_le hk]; omega
    · have hk' : wanted p ≤ 2 ^ k := by
        rw [e] at hk ⊢
        refine Nat.pow_le_pow_right (by decide) ?_
        have := (Nat.pow_lt_pow_iff_right (a := 2) (by decide)).1 (Nat.not_le.1 hk)
        omega
      rw [roots_gt hk, left_pow, show 2 ^ (k + 1) - 2 ^ k = 2 ^ k by rw [Nat.pow_succ]; omega, ih hk']
      omega

/-- The left subtree is full and leaves as many hashes as are wanted. -/
theorem roots_left (p : Platform) (n : Nat) (h : ¬ n ≤ wanted p) : roots p (leftChunks n) = wanted p := by
  refine roots_pow p _ ?_
  obtain ⟨j, hj, e⟩ := wanted_pow p
  rw [e] at h ⊢
  refine Nat.pow_le_pow_right (by decide) ?_
  exact (Nat.le_log2 (by have := Nat.two_pow_pos j; omega)).2 (by omega)

theorem roots_le_wanted (p : Platform) (n : Nat) : roots p n ≤ wanted p := by
  induction n using Nat.strongRecOn with
  | ind n ih =>
  by_cases h : n ≤ wanted p
  · rw [roots_le h]; exact h
  · have := two_le_wanted p
    obtain ⟨h1, h2⟩ := leftChunks_lt (n := n) (by omega)
    rw [roots_gt h, roots_left p n h]
    have := ih (n - leftChunks n) (by omega)
    omega

theorem roots_pos (p : Platform) (n : Nat) (h : 0 < n) : 0 < roots p n := by
  by_cases h : n ≤ wanted p
  · rwa [roots_le h]
  · have := two_le_wanted p
    rw [roots_gt h, roots_left p n h]
    omega

theorem two_le_roots (p : Platform) (n : Nat) (h : 2 ≤ n) : 2 ≤ roots p n := by
  by_cases h : n ≤ wanted p
  · rwa [roots_le h]
  · have := two_le_wanted p
    obtain ⟨h1, h2⟩ := leftChunks_lt (n := n) (by omega)
    have := roots_pos p (n - leftChunks n) (by omega)
    rw [roots_gt h, roots_left p n h]
    omega

/-! ## How many parents are hashed -/

theorem widths_kernels (p : Platform) (len n : Nat) : ((kernels p len n).map width).sum = n := (C57_kernels p len n).2

theorem widths_parentCalls (p : Platform) (n : Nat) : ((parentCalls p n).map width).sum + roots p n = n := by
  induction n using Nat.strongRecOn with
  | ind n ih =>
  by_cases h : n ≤ wanted p
  · rw [parentCalls_le h, roots_le h]; simp
  · have := two_le_wanted p
    obtain ⟨h1, h2⟩ := leftChunks_lt (n := n) (by omega)
    have e1 := ih (leftChunks n) h2
    have e2 := ih (n - leftChunks n) (by omega)
    rw [parentCalls_gt h, roots_gt h, List.map_append, List.map_append, List.sum_append, List.sum_append, widths_kernels]
    omega

theorem widths_topCalls (p : Platform) (c : Nat) (h : 2 ≤ c) : ((topCalls p c).map width).sum + 2 = c := by
  induction c using Nat.strongRecOn with
  | ind c ih =>
  rw [topCalls]
  split
  next h => simp; omega
  next h' =>
    have := ih ((c + 1) / 2) (by omega) (by omega)
    rw [List.map_append, List.sum_append, widths_kernels]
    omega

/-! ## How many calls it takes -/

theorem length_parentCalls_pow (p : Platform) (k : Nat) (h : wanted p ≤ 2 ^ k) :
    parentCalls p (2 ^ k) = kernels p 64 (2 ^ k - wanted p) := by
  obtain ⟨j, hj, e⟩ := wanted_pow p
  induction k with
  | zero => exact absurd h (by rw [e]; have := Nat.pow_le_pow_right (n := 2) (by decide) hj; omega)
  | succ k ih =>
    by_cases hk : 2 ^ (k + 1) ≤ wanted p
    · rw [parentCalls_le hk, show 2 ^ (k + 1) - wanted p = 0 by omega]
      cases p <;> rfl
    · have hk' : wanted p ≤ 2 ^ k := by
        rw [e] at hk ⊢
        refine Nat.pow_le_pow_right (by decide) ?_
        have := (Nat.pow_lt_pow_iff_right (a := 2) (by decide)).1 (Nat.not_le.1 hk)
        omega
      have hd : p.simd_degree ∣ wanted p := by cases p <;> decide
      have hd2 : p.simd_degree ∣ 2 ^ k := degree_dvd p k (Nat.le_trans (degree_le_wanted p) hk')
      have hd3 : p.simd_degree ∣ 2 ^ k - wanted p := Nat.dvd_sub hd2 hd
      rw [parentCalls_gt hk, left_pow, show 2 ^ (k + 1) - 2 ^ k = 2 ^ k by rw [Nat.pow_succ]; omega, ih hk', roots_pow p k hk',
        ← kernels_add _ _ _ _ hd3, ← kernels_add _ _ _ _ hd3]
      congr 1
      rw [Nat.pow_succ]
      omega

theorem length_few (p : Platform) (n : Nat) (h : n ≤ wanted p) : (kernels p 64 n).length ≤ 4 := by
  rw [length_kernels]
  cases p <;> simp only [wanted] at h ⊢ <;> omega

theorem log2_right {n : Nat} (h : 2 ≤ n) (h' : leftChunks n < n) : Nat.log2 (n - leftChunks n) + 1 ≤ Nat.log2 n ∨ n - leftChunks n = 0 := by
  by_cases h0 : n - leftChunks n = 0
  · exact .inr h0
  left
  have h1 := Nat.lt_log2_self (n := n - 1)
  have : n - leftChunks n ≤ 2 ^ Nat.log2 (n - 1) := by rw [leftChunks] at *; rw [Nat.pow_succ] at h1; omega
  by_cases hp : n - leftChunks n = 2 ^ Nat.log2 (n - 1)
  · rw [hp, Nat.log2_two_pow]
    refine (Nat.le_log2 (by omega)).2 ?_
    rw [leftChunks] at hp h'
    rw [Nat.pow_succ]; omega
  · have h2 : Nat.log2 (n - leftChunks n) < Nat.log2 (n - 1) := (Nat.log2_lt h0).2 (by omega)
    have h3 : Nat.log2 (n - 1) ≤ Nat.log2 n := (Nat.le_log2 (by omega)).2 (by
      have := Nat.log2_self_le (n := n - 1) (by omega)
      omega)
    omega

theorem length_multiple (p : Platform) (n : Nat) (h : p.simd_degree ∣ n) : (kernels p 64 n).length = n / p.simd_degree := by
  obtain ⟨k, rfl⟩ := h
  rw [length_kernels]
  cases p <;> simp only [Platform.simd_degree] <;> omega

theorem length_parentCalls (p : Platform) (n : Nat) : (parentCalls p n).length ≤ n / p.simd_degree + 3 * Nat.log2 n := by
  induction n using Nat.strongRecOn with
  | ind n ih =>
  by_cases h : n ≤ wanted p
  · rw [parentCalls_le h]; exact Nat.zero_le _
  · have hw := two_le_wanted p
    obtain ⟨h1, h2⟩ := leftChunks_lt (n := n) (by omega)
    have hr := ih (n - leftChunks n) (by omega)
    have hl := (log2_right (n := n) (by omega) h2).resolve_right (by omega)
    have hd : p.simd_degree ∣ wanted p := by cases p <;> decide
    have hwl : wanted p ≤ leftChunks n := by
      have := roots_left p n h
      obtain ⟨j, hj, e⟩ := wanted_pow p
      rw [leftChunks, e]
      rw [e] at h
      exact Nat.pow_le_pow_right (by decide) ((Nat.le_log2 (by have := Nat.two_pow_pos j; omega)).2 (by omega))
    have hd2 : p.simd_degree ∣ leftChunks n := degree_dvd p _ (Nat.le_trans (degree_le_wanted p) hwl)
    have hlen : (parentCalls p (leftChunks n)).length = (leftChunks n - wanted p) / p.simd_degree := by
      have := length_parentCalls_pow p (Nat.log2 (n - 1)) hwl
      rw [leftChunks] at hd2 ⊢
      rw [this, length_multiple p _ (Nat.dvd_sub hd2 hd)]
    have hfew := length_few p ((wanted p + roots p (n - leftChunks n)) / 2) (by
      have := roots_le_wanted p (n - leftChunks n); omega)
    rw [parentCalls_gt h, roots_left p n h, List.length_append, List.length_append, hlen]
    obtain ⟨a, ha⟩ := hd
    obtain ⟨b, hb⟩ := hd2
    have hdp := degree_pos p
    have e1 : (leftChunks n - wanted p) / p.simd_degree = b - a := by
      rw [ha, hb, ← Nat.mul_sub, Nat.mul_div_cancel_left _ hdp]
    have e2 : n / p.simd_degree = b + (n - leftChunks n) / p.simd_degree := by
      have : n = p.simd_degree * b + (n - leftChunks n) := by omega
      conv => lhs; rw [this]
      rw [Nat.mul_add_div hdp]
    have ha1 : 1 ≤ a := by
      rcases Nat.eq_zero_or_pos a with h | h
      · rw [h, Nat.mul_zero] at ha; omega
      · exact h
    have hab : a ≤ b := by
      refine Nat.le_of_mul_le_mul_left ?_ hdp
      rw [← ha, ← hb]; exact hwl
    rw [e1, e2]
    omega

theorem topCalls_le (p : Platform) {c : Nat} (h : c ≤ 2) : topCalls p c = [] := by rw [topCalls, dif_pos h]

theorem topCalls_gt (p : Platform) {c : Nat} (h : ¬ c ≤ 2) : topCalls p c = kernels p 64 (c / 2) ++ topCalls p ((c + 1) / 2) := by
  conv => lhs; rw [topCalls, dif_neg h]

theorem length_topCalls (p : Platform) (c : Nat) (h : c ≤ wanted p) : (topCalls p c).length ≤ 5 := by
  have h8 : c ≤ 8 := by cases p <;> simp only [wanted] at h <;> omega
  have t2 : ∀ c ≤ 2, (topCalls p c).length = 0 := fun c h => by rw [topCalls_le p h]; rfl
  have t4 : ∀ c ≤ 4, (topCalls p c).length ≤ 2 := by
    intro c hc
    by_cases h2 : c ≤ 2
    · rw [t2 c h2]; omega
    · rw [topCalls_gt p h2, List.length_append, t2 _ (by omega), length_kernels]
      cases p <;> simp only <;> omega
  by_cases h4 : c ≤ 4
  · have := t4 c h4; omega
  · rw [topCalls_gt p (by omega), List.length_append, length_kernels]
    have := t4 ((c + 1) / 2) (by omega)
    cases p <;> simp only [wanted] at h ⊢ <;> omega

/-! ## The one-shot functions -/

/-- C79.  The calls of kernels with parent nodes that a one-shot function makes. -/
theorem C79_calls (cfg : Config) (hv : cfg.Valid) (m : Spec.Mode) (input : Bytes) (hf : cfg.Fits input.length) :
    (I.oneShot cfg m input).log.filter parentKernel =
      if 2048 < input.length then
        parentCalls (Platform.detect cfg) ((input.length + 2047) / 2048) ++
          topCalls (Platform.detect cfg) (roots (Platform.detect cfg) ((input.length + 2047) / 2048))
      else [] := by
  obtain ⟨o, e, -, -⟩ := oneShotXof_eq cfg m input hv hf
  have hr : (I.oneShotXof cfg m input).res = .ok o := (Proofs.I.oneShotXof_res cfg m input).trans e
  have ht : (I.Output.to_hash o).log.filter parentKernel = [] := by
    have : (I.Output.to_hash o).log = (I.compress o.platform o.cv o.block o.block_len 0 o.flags).log ++ [] := rfl
    rw [this, List.append_nil]
    cases o.platform <;> rfl
  rw [oneShot_log hr, List.filter_append, ht, List.append_nil]
  split
  next h => exact ((Proofs.I.parents_oneShotXof cfg m input h).ok hr).1
  next h => exact ((Proofs.I.parents_oneShotXof_short cfg m input (by omega)).ok hr).1

/-- C79.  Of the parent nodes of a tree of `n` chunks the kernels hash all but the root, that is `n - 2`. -/
theorem C79_all (cfg : Config) (hv : cfg.Valid) (m : Spec.Mode) (input : Bytes) (hf : cfg.Fits input.length) (h : 2048 < input.length) :
    (((I.oneShot cfg m input).log.filter parentKernel).map width).sum = (input.length + 2047) / 2048 - 2 := by
  rw [C79_calls cfg hv m input hf, if_pos h, List.map_append, List.sum_append]
  have h1 := widths_parentCalls (Platform.detect cfg) ((input.length + 2047) / 2048)
  have h2 := two_le_roots (Platform.detect cfg) ((input.length + 2047) / 2048) (by omega)
  have h3 := widths_topCalls (Platform.detect cfg) _ h2
  omega

theorem kernelOf_kernels (p : Platform) (n : Nat) : ∀ c ∈ kernels p 64 n, kernelOf p c := (C57_kernels p 64 n).1

theorem kernelOf_parentCalls (p : Platform) (n : Nat) : ∀ c ∈ parentCalls p n, kernelOf p c := by
  induction n using Nat.strongRecOn with
  | ind n ih =>
  by_cases h : n ≤ wanted p
  · rw [parentCalls_le h]; intro c hc; cases hc
  · have := two_le_wanted p
    obtain ⟨h1, h2⟩ := leftChunks_lt (n := n) (by omega)
    rw [parentCalls_gt h]
    intro c hc
    rcases List.mem_append.1 hc with hc | hc
    · exact ih _ h2 c hc
    · rcases List.mem_append.1 hc with hc | hc
      · exact ih _ (by omega) c hc
      · exact kernelOf_kernels p _ c hc

theorem kernelOf_topCalls (p : Platform) (n : Nat) : ∀ c ∈ topCalls p n, kernelOf p c := by
  induction n using Nat.strongRecOn with
  | ind n ih =>
  by_cases h : n ≤ 2
  · rw [topCalls_le p h]; intro c hc; cases hc
  · rw [topCalls_gt p h]
    intro c hc
    rcases List.mem_append.1 hc with hc | hc
    · exact kernelOf_kernels p _ c hc
    · exact ih _ (by omega) c hc

/-- C79.  The parent nodes of `n` chunks take at least as many kernel calls as `n - 2` parents need in the best case, and at most
`n / d + 3 log n + 5`, where `d` is the number of lanes (8 with AVX2, 4 with SSE4.1). -/
theorem C79_bound (cfg : Config) (hv : cfg.Valid) (m : Spec.Mode) (input : Bytes) (hf : cfg.Fits input.length) (h : 2048 < input.length) :
    (kernels (Platform.detect cfg) 64 ((input.length + 2047) / 2048 - 2)).length ≤
      ((I.oneShot cfg m input).log.filter parentKernel).length ∧
    ((I.oneShot cfg m input).log.filter parentKernel).length ≤
      (input.length + 2047) / 2048 / (Platform.detect cfg).simd_degree + 3 * Nat.log2 ((input.length + 2047) / 2048) + 5 := by
  constructor
  · rw [← C79_all cfg hv m input hf h]
    refine C57_kernels_least _ 64 _ ?_
    rw [C79_calls cfg hv m input hf, if_pos h]
    intro c hc
    rcases List.mem_append.1 hc with hc | hc
    · exact kernelOf_parentCalls _ _ c hc
    · exact kernelOf_topCalls _ _ c hc
  · rw [C79_calls cfg hv m input hf, if_pos h, List.length_append]
    have h1 := length_parentCalls (Platform.detect cfg) ((input.length + 2047) / 2048)
    have h2 := length_topCalls (Platform.detect cfg) _ (roots_le_wanted (Platform.detect cfg) ((input.length + 2047) / 2048))
    omega

/-- C79.  If the number of chunks is a power of two, every kernel call but those of the last two levels is of full width: on AVX2
`n / 8 - 1` calls with eight parents, then one with four and two with one. -/
theorem C79_full (cfg : Config) (hv : cfg.Valid) (m : Spec.Mode) (input : Bytes) (hf : cfg.Fits input.length) (k : Nat)
    (hk : (input.length + 2047) / 2048 = 2 ^ k) :
    (Platform.detect cfg = .avx2 → 3 ≤ k → (I.oneShot cfg m input).log.filter parentKernel =
      List.replicate (2 ^ k / 8 - 1) (.hash8 64) ++ [.hash4 64, .hash1 true 64, .hash1 true 64]) ∧
    (Platform.detect cfg = .sse41 → 2 ≤ k → (I.oneShot cfg m input).log.filter parentKernel =
      List.replicate (2 ^ k / 4 - 1) (.hash4 64) ++ [.hash1 true 64, .hash1 true 64]) := by
  have hlen : ∀ j, 1 ≤ j → j ≤ k → 2048 < input.length := by
    intro j h1 h2
    have := Nat.pow_le_pow_right (n := 2) (by decide) (Nat.le_trans h1 h2)
    omega
  constructor
  · intro hp h3
    have h8 : 8 ≤ 2 ^ k := Nat.pow_le_pow_right (n := 2) (by decide) h3
    have hd : 8 ∣ 2 ^ k := Nat.pow_dvd_pow 2 h3
    rw [C79_calls cfg hv m input hf, if_pos (hlen 3 (by decide) h3), hk, hp, length_parentCalls_pow .avx2 k h8, roots_pow .avx2 k h8]
    have t : topCalls .avx2 8 = [.hash4 64, .hash1 true 64, .hash1 true 64] := by
      rw [topCalls_gt _ (by decide), topCalls_gt _ (by decide), topCalls_le _ (by decide)]; rfl
    rw [show wanted .avx2 = 8 from rfl, t, kernels, show (2 ^ k - 8) / 8 = 2 ^ k / 8 - 1 by omega,
      show (2 ^ k - 8) % 8 = 0 by omega]
    exact congrArg (· ++ _) (List.append_nil _)
  · intro hp h3
    have h8 : 4 ≤ 2 ^ k := Nat.pow_le_pow_right (n := 2) (by decide) h3
    have hd : 4 ∣ 2 ^ k := Nat.pow_dvd_pow 2 h3
    rw [C79_calls cfg hv m input hf, if_pos (hlen 2 (by decide) h3), hk, hp, length_parentCalls_pow .sse41 k h8, roots_pow .sse41 k h8]
    have t : topCalls .sse41 4 = [.hash1 true 64, .hash1 true 64] := by
      rw [topCalls_gt _ (by decide), topCalls_le _ (by decide)]; rfl
    rw [show wanted .sse41 = 4 from rfl, t, kernels, show (2 ^ k - 4) / 4 = 2 ^ k / 4 - 1 by omega,
      show (2 ^ k - 4) % 4 = 0 by omega]
    exact congrArg (· ++ _) (List.append_nil _)

/-- C79.  With the `rayon` feature the same calls are made, in some other order. -/
theorem C79_schedule (cfg : Config) (hv : cfg.Valid) (m : Spec.Mode) (input : Bytes) (hf : cfg.Fits input.length) (l : List I.Ev)
    (hl : Order (PI.oneShot cfg m input).work l) :
    (l.filter parentKernel).Perm ((I.oneShot cfg m input).log.filter parentKernel) := by
  have e : (I.oneShot cfg m input).res = .ok (Spec.hash m input) :=
    (Proofs.I.oneShot_res cfg m input).trans (C01_one_shot_eq_spec cfg hv m input hf)
  exact ((PI.oneShot_same cfg m input).2 _ e ▸ Ord.Order.perm hl).filter _

/-! ## Cases -/

example : exAvx2.Valid ∧ exAvx2.Fits (rep 32768 7).length ∧ 2048 < (rep 32768 7).length ∧ ((rep 32768 7).length + 2047) / 2048 = 2 ^ 4 := by
  simp

/-- 19 chunks on AVX2: eight parents of the first 16; five of the 8 + 3 hashes then at hand, which leaves six; three of these; one of these -/
example : parentCalls .avx2 19 ++ topCalls .avx2 (roots .avx2 19) =
    [.hash8 64] ++ [.hash4 64, .hash1 true 64] ++ ([.hash1 true 64, .hash1 true 64, .hash1 true 64] ++ [.hash1 true 64]) := by
  have h16 := length_parentCalls_pow .avx2 4 (by decide)
  have r16 := roots_pow .avx2 4 (by decide)
  have l : leftChunks 19 = 2 ^ 4 := by decide
  rw [parentCalls_gt (by decide), roots_gt (p := .avx2) (n := 19) (by decide), l, h16, r16, parentCalls_le (p := .avx2) (n := 19 - 2 ^ 4) (by decide),
    roots_le (p := .avx2) (n := 19 - 2 ^ 4) (by decide)]
  rw [show (wanted .avx2 + (19 - 2 ^ 4) + 1) / 2 = 6 from rfl, topCalls_gt _ (by decide), topCalls_gt _ (by decide), topCalls_le _ (by decide)]
  rfl

end Baokeshed.Props.Parents
