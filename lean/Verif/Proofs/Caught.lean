import Verif.Proofs.Count

/-!
# Counting the functions that catch an algorithm

An answer is caught if it is one of a few values that depend on what was asked and answered before.
-/

set_option linter.unusedVariables false

namespace Baokeshed.Proofs
open Baokeshed.Spec

/-- Some question that was not asked before gets an answer that is hit. -/
def Caught {X Y α : Type} (hit : List (X × Y) → X → Y → Prop) (F : X → Y) : Algo X Y α → List (X × Y) → Prop
  | .done _, _ => False
  | .ask x k, h => (x ∉ h.map Prod.fst ∧ hit h x (F x)) ∨ Caught hit F (k (F x)) (h ++ [(x, F x)])

/-- what was not caught -/
theorem not_caught {X Y α : Type} {hit : List (X × Y) → X → Y → Prop} {F : X → Y} (A : Algo X Y α) (pre : List X)
    (hn : ¬ Caught hit F A (pre.map fun a => (a, F a))) (l1 l2 : List X) (x : X) (hl : pre.length ≤ l1.length)
    (he : pre ++ A.asked F = l1 ++ x :: l2) (hx : x ∉ l1) : ¬ hit (l1.map fun a => (a, F a)) x (F x) := by
  induction A generalizing pre with
  | done a =>
    have := congrArg List.length he
    simp [Algo.asked] at this
    omega
  | ask z k ih =>
    rw [Caught, not_or] at hn
    by_cases h : pre.length = l1.length
    · rw [Algo.asked] at he
      obtain ⟨rfl, h2⟩ := List.append_inj he h
      obtain ⟨rfl, -⟩ := List.cons.inj h2
      intro hh
      refine hn.1 ⟨?_, hh⟩
      simpa [List.map_map, Function.comp_def] using hx
    · refine ih (F z) (pre ++ [z]) ?_ ?_ ?_
      · simpa using hn.2
      · simp; omega
      · simpa [Algo.asked] using he

open Classical in
theorem count_caught {X Y α : Type} [DecidableEq X] [Fintype X] [Fintype Y] (hit : List (X × Y) → X → Y → Prop) (w : Nat → Nat)
    (hstep : ∀ h x, (Finset.univ.filter fun y => hit h x y).card ≤ w h.length)
    (A : Algo X Y α) (h : List (X × Y)) (Ω : Finset (X → Y)) (q : Nat)
    (hcl : ∀ F ∈ Ω, ∀ x, x ∉ h.map Prod.fst → ∀ y, Function.update F x y ∈ Ω) (hag : ∀ F ∈ Ω, ∀ p ∈ h, F p.1 = p.2)
    (hq : ∀ F ∈ Ω, (A.asked F).length ≤ q) :
    (Ω.filter fun F => Caught hit F A h).card * Fintype.card Y ≤ (∑ i ∈ Finset.range q, w (h.length + i)) * Ω.card := by
  induction A generalizing h Ω q with
  | done a =>
    have : (Ω.filter fun F => Caught hit F (Algo.done a : Algo X Y α) h) = ∅ :=
      Finset.filter_false_of_mem fun F _ hF => hF
    rw [this]; simp
  | ask x k ih =>
    rcases Ω.eq_empty_or_nonempty with rfl | ⟨F0, hF0⟩
    · simp
    obtain ⟨q, rfl⟩ : ∃ q', q = q' + 1 := by
      have := hq F0 hF0
      simp only [Algo.asked, List.length_cons] at this
      exact ⟨q - 1, by omega⟩
    have hs : ∑ i ∈ Finset.range (q + 1), w (h.length + i) = w h.length + ∑ i ∈ Finset.range q, w (h.length + 1 + i) := by
      rw [Finset.sum_range_succ', Nat.add_zero, Nat.add_comm]
      congr 1
      apply Finset.sum_congr rfl
      intro i _
      rw [Nat.add_assoc, Nat.add_comm 1 i]
    rw [hs]
    by_cases hxS : x ∈ h.map Prod.fst
    · obtain ⟨p, hp, rfl⟩ := List.mem_map.1 hxS
      have h1 := ih p.2 (h ++ [p]) Ω q
        (fun F hF z hz y => hcl F hF z (fun h' => hz (by simp only [List.map_append, List.mem_append]; exact Or.inl h')) y)
        (fun F hF p' hp' => by
          rcases List.mem_append.1 hp' with h' | h'
          · exact hag F hF p' h'
          · rw [List.mem_singleton.1 h']; exact hag F hF p hp)
        (fun F hF => by
          have := hq F hF
          simp only [Algo.asked, List.length_cons, hag F hF p hp] at this
          omega)
      rw [List.length_append, List.length_singleton] at h1
      refine Nat.le_trans (Nat.le_of_eq ?_) (Nat.le_trans h1 (Nat.mul_le_mul_right _ (Nat.le_add_left _ _)))
      congr 2
      apply Finset.filter_congr
      intro F hF
      rw [Caught, hag F hF p hp]
      constructor
      · rintro (⟨h', -⟩ | h')
        · exact absurd hxS h'
        · exact h'
      · exact Or.inr
    · let part : Y → Finset (X → Y) := fun y => Ω.filter fun F => F x = y
      have hpart : ∀ y, (part y).card * Fintype.card Y = Ω.card := part_card Ω x fun F hF => hcl F hF x hxS
      have hsum : ∑ y, (part y).card = Ω.card :=
        (Finset.card_eq_sum_card_fiberwise (f := fun F : X → Y => F x) (s := Ω) (t := Finset.univ) (fun _ _ => Finset.mem_coe.2 (Finset.mem_univ _))).symm
      let cnt : Y → Nat := fun y => ((part y).filter fun F => Caught hit F (Algo.ask x k) h).card
      have hcnt : (Ω.filter fun F => Caught hit F (Algo.ask x k) h).card = ∑ y, cnt y := by
        rw [Finset.card_eq_sum_card_fiberwise (f := fun F : X → Y => F x) (t := Finset.univ) (fun _ _ => Finset.mem_coe.2 (Finset.mem_univ _))]
        apply Finset.sum_congr rfl
        intro y _
        rw [Finset.filter_filter]
        simp only [cnt, part]
        rw [Finset.filter_filter]
        congr 1
        apply Finset.filter_congr
        intro F _
        exact And.comm
      let bad := Finset.univ.filter fun y => hit h x y
      have hbad : bad.card ≤ w h.length := hstep h x
      have hone : ∀ y, cnt y * Fintype.card Y ≤ (if y ∈ bad then Ω.card else 0) +
          (∑ i ∈ Finset.range q, w (h.length + 1 + i)) * (part y).card := by
        intro y
        by_cases hb : y ∈ bad
        · rw [if_pos hb, ← hpart y]
          refine Nat.le_trans (Nat.mul_le_mul_right _ (Finset.card_filter_le _ _)) (Nat.le_add_right _ _)
        · rw [if_neg hb, Nat.zero_add]
          have h1 := ih y (h ++ [(x, y)]) (part y) q
            (fun F hF z hz v => by
              simp only [part, Finset.mem_filter] at hF ⊢
              simp only [List.map_append, List.map_cons, List.map_nil, List.mem_append, List.mem_singleton, not_or] at hz
              exact ⟨hcl F hF.1 z hz.1 v, by rw [Function.update_of_ne (Ne.symm hz.2)]; exact hF.2⟩)
            (fun F hF p hp => by
              simp only [part, Finset.mem_filter] at hF
              rcases List.mem_append.1 hp with h' | h'
              · exact hag F hF.1 p h'
              · rw [List.mem_singleton.1 h']; exact hF.2)
            (fun F hF => by
              simp only [part, Finset.mem_filter] at hF
              have := hq F hF.1
              simp only [Algo.asked, List.length_cons, hF.2] at this
              omega)
          rw [List.length_append, List.length_singleton] at h1
          refine Nat.le_trans (Nat.le_of_eq ?_) h1
          simp only [cnt]
          congr 2
          apply Finset.filter_congr
          intro F hF
          simp only [part, Finset.mem_filter] at hF
          rw [Caught, hF.2]
          constructor
          · rintro (⟨-, h'⟩ | h')
            · exact absurd (Finset.mem_filter.2 ⟨Finset.mem_univ _, h'⟩) hb
            · exact h'
          · exact Or.inr
      rw [hcnt, Finset.sum_mul]
      refine Nat.le_trans (Finset.sum_le_sum fun y _ => hone y) ?_
      rw [Finset.sum_add_distrib, ← Finset.mul_sum, hsum, Finset.sum_ite_mem, Finset.univ_inter, Finset.sum_const, smul_eq_mul,
        ← Nat.add_mul]
      exact Nat.mul_le_mul_right _ (Nat.add_le_add_right hbad _)

/-- for all functions -/
theorem count_caught_all {X Y α : Type} [Finite X] [Finite Y] (hit : List (X × Y) → X → Y → Prop) (w : Nat → Nat)
    (hstep : ∀ h x, Nat.card { y // hit h x y } ≤ w h.length) (A : Algo X Y α) (q : Nat) (hq : ∀ F, (A.asked F).length ≤ q) :
    Nat.card { F : X → Y // Caught hit F A [] } * Nat.card Y ≤ (∑ i ∈ Finset.range q, w i) * Nat.card (X → Y) := by
  classical
  have := Fintype.ofFinite X
  have := Fintype.ofFinite Y
  have h := count_caught hit w (fun h x => by
      have := hstep h x
      rwa [Nat.card_eq_fintype_card, Fintype.card_subtype] at this)
    A [] Finset.univ q (fun _ _ _ _ _ => Finset.mem_univ _) (fun _ _ p hp => absurd hp List.not_mem_nil) (fun F _ => hq F)
  rw [Nat.card_eq_fintype_card, Nat.card_eq_fintype_card, Nat.card_eq_fintype_card, Fintype.card_subtype]
  simpa [Finset.card_univ] using h

end Baokeshed.Proofs
