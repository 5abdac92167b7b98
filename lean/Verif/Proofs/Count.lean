import Mathlib.Data.Fintype.Pi
import Mathlib.Data.Fintype.BigOperators
import Mathlib.SetTheory.Cardinal.Finite
import Mathlib.Algebra.BigOperators.Intervals
import Mathlib.Algebra.BigOperators.Ring.Finset
import Mathlib.Algebra.Order.BigOperators.Group.Finset
import Mathlib.Algebra.Group.Action.Defs
import Verif.SpecOracle

/-!
# Counting the functions that lead an algorithm into a bad state
-/

set_option linter.unusedVariables false

namespace Baokeshed.Proofs
open Baokeshed.Spec

open Classical in
/-- If a set of functions is closed under changing the value at `x`, every value at `x` is equally frequent. -/
theorem part_card {X Y : Type} [DecidableEq X] [Fintype X] [Fintype Y] (Ω : Finset (X → Y)) (x : X)
    (hx : ∀ F ∈ Ω, ∀ y, Function.update F x y ∈ Ω) (y : Y) :
    (Ω.filter fun F => F x = y).card * Fintype.card Y = Ω.card := by
  have heq : ∀ y', (Ω.filter fun F => F x = y').card = (Ω.filter fun F => F x = y).card := by
    intro y'
    refine Finset.card_bij' (fun F _ => Function.update F x y) (fun F _ => Function.update F x y') ?_ ?_ ?_ ?_
    · intro F hF
      rw [Finset.mem_filter] at hF
      exact Finset.mem_filter.2 ⟨hx F hF.1 y, Function.update_self ..⟩
    · intro F hF
      rw [Finset.mem_filter] at hF
      exact Finset.mem_filter.2 ⟨hx F hF.1 y', Function.update_self ..⟩
    · intro F hF
      rw [Finset.mem_filter] at hF
      simp [← hF.2]
    · intro F hF
      rw [Finset.mem_filter] at hF
      simp [← hF.2]
  have := Finset.card_eq_sum_card_fiberwise (f := fun F : X → Y => F x) (s := Ω) (t := Finset.univ) (fun _ _ => Finset.mem_coe.2 (Finset.mem_univ _))
  rw [this, Finset.sum_congr rfl fun y' _ => heq y', Finset.sum_const, Finset.card_univ, smul_eq_mul, Nat.mul_comm]

open Classical in
/-- `Bad F S`: the answers of `F` to the questions in `S` are bad.  If an answer to one more question makes them bad in at most
`w n` cases, where `n` is the number of questions before, then so are the answers to all questions of an algorithm with at most
`q` questions for at most `w 0 + … + w (q - 1)` of every `card Y` functions. -/
theorem count_bad {X Y α : Type} [DecidableEq X] [Fintype X] [Fintype Y] (Bad : (X → Y) → Finset X → Prop) (w : Nat → Nat)
    (hloc : ∀ F F' S, (∀ x ∈ S, F x = F' x) → Bad F S → Bad F' S)
    (hstep : ∀ F S x, x ∉ S → ¬ Bad F S →
      (Finset.univ.filter fun y => Bad (Function.update F x y) (insert x S)).card ≤ w S.card)
    (A : Algo X Y α) (S : Finset X) (Ω : Finset (X → Y)) (q : Nat)
    (hcl : ∀ F ∈ Ω, ∀ x, x ∉ S → ∀ y, Function.update F x y ∈ Ω) (hag : ∀ F ∈ Ω, ∀ F' ∈ Ω, ∀ x ∈ S, F x = F' x)
    (hgood : ∀ F ∈ Ω, ¬ Bad F S) (hq : ∀ F ∈ Ω, (A.asked F).length ≤ q) :
    (Ω.filter fun F => Bad F (S ∪ (A.asked F).toFinset)).card * Fintype.card Y ≤
      (∑ i ∈ Finset.range q, w (S.card + i)) * Ω.card := by
  induction A generalizing S Ω q with
  | done a =>
    have : (Ω.filter fun F => Bad F (S ∪ ((Algo.done a : Algo X Y α).asked F).toFinset)) = ∅ := by
      apply Finset.filter_false_of_mem
      intro F hF
      simpa [Algo.asked] using hgood F hF
    rw [this]; simp
  | ask x k ih =>
    rcases Ω.eq_empty_or_nonempty with rfl | ⟨F0, hF0⟩
    · simp
    obtain ⟨q, rfl⟩ : ∃ q', q = q' + 1 := by
      have := hq F0 hF0
      simp only [Algo.asked, List.length_cons] at this
      exact ⟨q - 1, by omega⟩
    by_cases hxS : x ∈ S
    · have hy : ∀ F ∈ Ω, F x = F0 x := fun F hF => hag F hF F0 hF0 x hxS
      have h1 := ih (F0 x) S Ω q hcl hag hgood (fun F hF => by
        have := hq F hF
        simp only [Algo.asked, List.length_cons, hy F hF] at this
        omega)
      refine Nat.le_trans (Nat.le_of_eq ?_) (Nat.le_trans h1 (Nat.mul_le_mul_right _ ?_))
      · congr 2
        apply Finset.filter_congr
        intro F hF
        rw [Algo.asked, hy F hF, List.toFinset_cons, Finset.union_insert, Finset.insert_eq_of_mem (Finset.mem_union_left _ hxS)]
      · rw [Finset.sum_range_succ]; omega
    · -- the functions with answer `y`
      let part : Y → Finset (X → Y) := fun y => Ω.filter fun F => F x = y
      have hpart : ∀ y, (part y).card * Fintype.card Y = Ω.card := part_card Ω x fun F hF => hcl F hF x hxS
      have hsum : ∑ y, (part y).card = Ω.card :=
        (Finset.card_eq_sum_card_fiberwise (f := fun F : X → Y => F x) (s := Ω) (t := Finset.univ) (fun _ _ => Finset.mem_coe.2 (Finset.mem_univ _))).symm
      let cnt : Y → Nat := fun y => ((part y).filter fun F => Bad F (S ∪ ((Algo.ask x k).asked F).toFinset)).card
      have hcnt : (Ω.filter fun F => Bad F (S ∪ ((Algo.ask x k).asked F).toFinset)).card = ∑ y, cnt y := by
        rw [Finset.card_eq_sum_card_fiberwise (f := fun F : X → Y => F x) (t := Finset.univ) (fun _ _ => Finset.mem_coe.2 (Finset.mem_univ _))]
        apply Finset.sum_congr rfl
        intro y _
        rw [Finset.filter_filter]
        simp only [cnt, part]
        rw [Finset.filter_filter]
        congr 1
        apply Finset.filter_congr
        intro F _
        exact And.comm
      let bad := Finset.univ.filter fun y => Bad (Function.update F0 x y) (insert x S)
      have hbad : bad.card ≤ w S.card := hstep F0 S x hxS (hgood F0 hF0)
      have hagree : ∀ y, ∀ F ∈ part y, ∀ z ∈ insert x S, F z = Function.update F0 x y z := by
        intro y F hF z hz
        simp only [part, Finset.mem_filter] at hF
        by_cases hzx : z = x
        · subst hzx; rw [Function.update_self, hF.2]
        · rw [Function.update_of_ne hzx]
          exact hag F hF.1 F0 hF0 z ((Finset.mem_insert.1 hz).resolve_left hzx)
      have hone : ∀ y, cnt y * Fintype.card Y ≤ (if y ∈ bad then Ω.card else 0) +
          (∑ i ∈ Finset.range q, w (S.card + 1 + i)) * (part y).card := by
        intro y
        by_cases hb : y ∈ bad
        · rw [if_pos hb, ← hpart y]
          refine Nat.le_trans (Nat.mul_le_mul_right _ (Finset.card_filter_le _ _)) (Nat.le_add_right _ _)
        · rw [if_neg hb, Nat.zero_add]
          have hcard : (insert x S).card = S.card + 1 := Finset.card_insert_of_notMem hxS
          have h1 := ih y (insert x S) (part y) q
            (fun F hF z hz v => by
              simp only [part, Finset.mem_filter] at hF ⊢
              have hzS : z ∉ S := fun h => hz (Finset.mem_insert_of_mem h)
              have hzx : z ≠ x := fun h => hz (h ▸ Finset.mem_insert_self _ _)
              exact ⟨hcl F hF.1 z hzS v, by rw [Function.update_of_ne hzx.symm]; exact hF.2⟩)
            (fun F hF F' hF' z hz => (hagree y F hF z hz).trans (hagree y F' hF' z hz).symm)
            (fun F hF hB => hb (Finset.mem_filter.2 ⟨Finset.mem_univ _, hloc _ _ _ (hagree y F hF) hB⟩))
            (fun F hF => by
              have hF' := hF
              simp only [part, Finset.mem_filter] at hF'
              have := hq F hF'.1
              simp only [Algo.asked, List.length_cons, hF'.2] at this
              omega)
          rw [hcard] at h1
          refine Nat.le_trans (Nat.le_of_eq ?_) h1
          simp only [cnt]
          congr 2
          apply Finset.filter_congr
          intro F hF
          simp only [part, Finset.mem_filter] at hF
          rw [Algo.asked, hF.2, List.toFinset_cons, Finset.union_insert, Finset.insert_union]
      rw [hcnt, Finset.sum_mul]
      refine Nat.le_trans (Finset.sum_le_sum fun y _ => hone y) ?_
      rw [Finset.sum_add_distrib, ← Finset.mul_sum, hsum, Finset.sum_ite_mem, Finset.univ_inter, Finset.sum_const, smul_eq_mul,
        ← Nat.add_mul, Finset.sum_range_succ', Nat.add_comm (∑ k ∈ _, _), Nat.add_zero]
      refine Nat.mul_le_mul_right _ (Nat.add_le_add hbad (Nat.le_of_eq ?_))
      apply Finset.sum_congr rfl
      intro i _
      rw [Nat.add_assoc, Nat.add_comm 1 i]

/-- Functions with the same answers to the questions that are asked. -/
theorem algo_same {X Y α : Type} (F F' : X → Y) (A : Algo X Y α) (h : ∀ x ∈ A.asked F, F x = F' x) :
    A.asked F' = A.asked F ∧ A.result F' = A.result F := by
  induction A with
  | done a => exact ⟨rfl, rfl⟩
  | ask x k ih =>
    have h0 : F x = F' x := h x List.mem_cons_self
    obtain ⟨h1, h2⟩ := ih (F x) fun z hz => h z (List.mem_cons_of_mem _ hz)
    rw [Algo.asked, Algo.asked, Algo.result, Algo.result, ← h0, h1, h2]
    exact ⟨rfl, rfl⟩

/-- An algorithm ends with a question that it has not asked and with a guess of a part of the answer, which may have any value
whatever the rest of the answer is: the guess is right for exactly one of every `card Z` functions. -/
theorem count_guess {X Y Z : Type} [Finite X] [Finite Y] [Finite Z] (get : Y → Z) (set : Y → Z → Y)
    (h1 : ∀ y z, get (set y z) = z) (h2 : ∀ y, set y (get y) = y) (h3 : ∀ y z z', set (set y z) z' = set y z')
    (A : Algo X Y (X × Z)) :
    Nat.card { F : X → Y // (A.result F).1 ∉ A.asked F ∧ get (F (A.result F).1) = (A.result F).2 } * Nat.card Z =
      Nat.card { F : X → Y // (A.result F).1 ∉ A.asked F } := by
  classical
  have hupd : ∀ (F : X → Y) (y : Y), (A.result F).1 ∉ A.asked F →
      A.asked (Function.update F (A.result F).1 y) = A.asked F ∧ A.result (Function.update F (A.result F).1 y) = A.result F := by
    intro F y hF
    apply algo_same
    intro x hx
    rw [Function.update_of_ne]
    rintro rfl
    exact hF hx
  rw [← Nat.card_prod]
  refine Nat.card_congr ⟨fun p => ⟨Function.update p.1.1 (A.result p.1.1).1 (set (p.1.1 (A.result p.1.1).1) p.2), ?_⟩,
    fun F => (⟨Function.update F.1 (A.result F.1).1 (set (F.1 (A.result F.1).1) (A.result F.1).2), ?_, ?_⟩,
      get (F.1 (A.result F.1).1)), ?_, ?_⟩
  · obtain ⟨e1, e2⟩ := hupd p.1.1 (set (p.1.1 (A.result p.1.1).1) p.2) p.1.2.1
    rw [e1, e2]
    exact p.1.2.1
  · obtain ⟨e1, e2⟩ := hupd F.1 (set (F.1 (A.result F.1).1) (A.result F.1).2) F.2
    rw [e1, e2]
    exact F.2
  · obtain ⟨e1, e2⟩ := hupd F.1 (set (F.1 (A.result F.1).1) (A.result F.1).2) F.2
    rw [e2, Function.update_self, h1]
  · rintro ⟨⟨F, hF, hv⟩, z⟩
    obtain ⟨-, e2⟩ := hupd F (set (F (A.result F).1) z) hF
    apply Prod.ext
    · apply Subtype.ext
      dsimp only
      rw [e2, Function.update_self, h3, ← hv, h2, Function.update_idem, Function.update_eq_self]
    · dsimp only
      rw [e2, Function.update_self, h1]
  · rintro ⟨F, hF⟩
    obtain ⟨-, e2⟩ := hupd F (set (F (A.result F).1) (A.result F).2) hF
    apply Subtype.ext
    dsimp only
    rw [e2, Function.update_self, h3, h2, Function.update_idem, Function.update_eq_self]

/-! ## all functions -/

open Classical in
/-- `count_bad` for all functions. -/
theorem count_all {X Y α : Type} [DecidableEq X] [Finite X] [Finite Y] (Bad : (X → Y) → Finset X → Prop) (w : Nat → Nat)
    (hloc : ∀ F F' S, (∀ x ∈ S, F x = F' x) → Bad F S → Bad F' S) (hemp : ∀ F, ¬ Bad F ∅)
    (hstep : ∀ F S x, x ∉ S → ¬ Bad F S → ∃ B : Finset Y, B.card ≤ w S.card ∧ ∀ y, Bad (Function.update F x y) (insert x S) → y ∈ B)
    (A : Algo X Y α) (q : Nat) (hq : ∀ F, (A.asked F).length ≤ q) (P : (X → Y) → Prop)
    (hP : ∀ F, P F → Bad F (A.asked F).toFinset) :
    Nat.card { F : X → Y // P F } * Nat.card Y ≤ (∑ i ∈ Finset.range q, w i) * Nat.card (X → Y) := by
  have := Fintype.ofFinite X
  have := Fintype.ofFinite Y
  have h := count_bad Bad w hloc (fun F S x hx hF => by
      obtain ⟨B, h1, h2⟩ := hstep F S x hx hF
      refine Nat.le_trans (Finset.card_le_card fun y hy => h2 y (Finset.mem_filter.1 hy).2) h1)
    A ∅ Finset.univ q (fun _ _ _ _ _ => Finset.mem_univ _) (fun _ _ _ _ x hx => absurd hx (Finset.notMem_empty x))
    (fun F _ => hemp F) (fun F _ => hq F)
  rw [Nat.card_eq_fintype_card, Nat.card_eq_fintype_card, Nat.card_eq_fintype_card, Fintype.card_subtype]
  simp only [Finset.empty_union, Finset.card_empty, Nat.zero_add, Finset.card_univ] at h
  refine Nat.le_trans (Nat.mul_le_mul_right _ (Finset.card_le_card fun F hF => ?_)) h
  exact Finset.mem_filter.2 ⟨Finset.mem_univ _, hP F (Finset.mem_filter.1 hF).2⟩

end Baokeshed.Proofs
