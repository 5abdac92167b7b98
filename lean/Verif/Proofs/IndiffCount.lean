import Verif.Proofs.Indiff
import Verif.Proofs.Prf

/-! # Two worlds that are hard to tell apart: counting -/

set_option linter.unusedVariables false

namespace Baokeshed.Proofs.Indiff
open Baokeshed.Spec

variable {X Y M V α : Type}

theorem card_list [Finite Y] (low : Y → V) (D : Nat) (hD : ∀ v, Nat.card { y // low y = v } ≤ D) (vs : List V) :
    Nat.card { y // low y ∈ vs } ≤ vs.length * D := by
  induction vs with
  | nil =>
    have : IsEmpty { y // low y ∈ ([] : List V) } := ⟨fun y => List.not_mem_nil y.2⟩
    rw [Nat.card_eq_zero.2 (Or.inl this)]
    exact Nat.zero_le _
  | cons v vs ih =>
    refine Nat.le_trans (Prf.card_or (fun y => low y ∈ v :: vs) (fun y => low y ∈ vs) (fun y => low y = v) fun y h => ?_) ?_
    · rcases List.mem_cons.1 h with h | h
      · exact .inr h
      · exact .inl h
    · rw [List.length_cons, Nat.add_mul, Nat.one_mul]
      exact Nat.add_le_add ih (hD v)

theorem card_hit [Finite Y] (S : Sys X Y M V) (D : Nat) (hD : ∀ v, Nat.card { y // S.low y = v } ≤ D)
    (hslots : ∀ a, (S.slots a).length ≤ 2) (h : List (X × Y)) (x : X) : Nat.card { y // hit S h x y } ≤ (3 * h.length + 2) * D := by
  have hl := card_list S.low D hD (h.map (fun p => S.low p.2) ++ h.flatMap (fun p => S.slots p.1) ++ S.slots x)
  refine Nat.le_trans (Nat.le_of_eq ?_) (Nat.le_trans hl (Nat.mul_le_mul_right _ ?_))
  · refine Nat.card_congr (Equiv.subtypeEquivRight fun y => ?_)
    rw [hit, List.mem_append, List.mem_append, List.mem_map, List.mem_flatMap, or_assoc]
    refine or_congr ⟨?_, ?_⟩ Iff.rfl
    · rintro ⟨p, hp, e⟩; exact ⟨p, hp, e.symm⟩
    · rintro ⟨p, hp, e⟩; exact ⟨p, hp, e.symm⟩
  · have hf : (h.flatMap fun p => S.slots p.1).length ≤ 2 * h.length := by
      induction h with
      | nil => exact Nat.le_refl _
      | cons p t ih =>
        rw [List.flatMap_cons, List.length_append, List.length_cons]
        have := hslots p.1
        have := ih (card_list S.low D hD _)
        omega
    have := hslots x
    simp only [List.length_append, List.length_map]
    omega

variable [DecidableEq X]

/-- the table at the end -/
def endTbl (see : List (X × Y) → X → Option M) (F : X → Y) (R : M → Y) : Algo (X ⊕ M) Y α → List (X × Y) → List (X × Y)
  | .done a, tbl => tbl
  | .ask (.inl a) k, tbl =>
    match tbl.lookup a with
    | some y => endTbl see F R (k y) tbl
    | none =>
      let y := match see tbl a with
        | some μ => R μ
        | none => F a
      endTbl see F R (k y) (tbl ++ [(a, y)])
  | .ask (.inr μ) k, tbl => endTbl see F R (k (R μ)) tbl

theorem endTbl_mono (see : List (X × Y) → X → Option M) (F : X → Y) (R : M → Y) (A : Algo (X ⊕ M) Y α) (tbl : List (X × Y)) {b : X} {z : Y}
    (h : tbl.lookup b = some z) : (endTbl see F R A tbl).lookup b = some z := by
  induction A generalizing tbl with
  | done a => exact h
  | ask q k ih =>
    cases q with
    | inr μ => rw [endTbl]; exact ih _ _ h
    | inl a =>
      rw [endTbl]
      cases hl : tbl.lookup a with
      | some y => exact ih _ _ h
      | none =>
        refine ih _ _ ?_
        have hne : b ≠ a := by rintro rfl; rw [hl] at h; cases h
        rw [lookup_snoc_ne hne, h]

/-- the number of questions -/
def inls (l : List (X ⊕ M)) : Nat := (l.filterMap Sum.getLeft?).length

def inrs (cost : M → Nat) (l : List (X ⊕ M)) : Nat := ((l.filterMap Sum.getRight?).map cost).sum

/-- The answers in the world with the simulator are those of a function. -/
theorem simulated_fun (S : Sys X Y M V) (F : X → Y) (R : M → Y) (A : Algo (X ⊕ M) Y α) (tbl : List (X × Y)) (G : X ⊕ M → Y)
    (h1 : ∀ a y, (endTbl S.see F R A tbl).lookup a = some y → G (.inl a) = y) (h2 : ∀ μ, G (.inr μ) = R μ) :
    simulated S.see F R A tbl = A.result G := by
  induction A generalizing tbl with
  | done a => rfl
  | ask q k ih =>
    cases q with
    | inr μ =>
      rw [endTbl] at h1
      rw [simulated, Algo.result, h2 μ]
      exact ih _ _ h1
    | inl a =>
      rw [endTbl] at h1
      rw [simulated, Algo.result]
      cases hl : tbl.lookup a with
      | some y =>
        rw [hl] at h1
        rw [h1 a y (endTbl_mono _ _ _ _ _ hl)]
        exact ih _ _ h1
      | none =>
        rw [hl] at h1
        dsimp only at h1 ⊢
        rw [h1 a _ (endTbl_mono _ _ _ _ _ (lookup_snoc_self hl))]
        exact ih _ _ h1

omit [DecidableEq X] in
theorem after_length (below : M → Algo X Y X) (cost : M → Nat) (hcost : ∀ F μ, ((below μ).asked F).length ≤ cost μ) (F : X → Y) (ms : List M) :
    ((after below ms).asked F).length ≤ (ms.map cost).sum := by
  induction ms with
  | nil => exact Nat.le_refl _
  | cons μ ms ih =>
    rw [after, asked_bind, List.length_append, List.map_cons, List.sum_cons]
    exact Nat.add_le_add (hcost F μ) ih

theorem asks_length (S : Sys X Y M V) (below : M → Algo X Y X) (cost : M → Nat) (hcost : ∀ F μ, ((below μ).asked F).length ≤ cost μ)
    (F : X → Y) (R : M → Y) (A : Algo (X ⊕ M) Y α) (tbl : List (X × Y)) (ms : List M) (G : X ⊕ M → Y)
    (h1 : ∀ a y, (endTbl S.see F R A tbl).lookup a = some y → G (.inl a) = y) (h2 : ∀ μ, G (.inr μ) = R μ) :
    ((asks S below R A tbl ms).asked F).length ≤ inls (A.asked G) + inrs cost (A.asked G) + (ms.map cost).sum := by
  induction A generalizing tbl ms with
  | done a =>
    rw [asks]
    exact Nat.le_trans (after_length below cost hcost F ms) (Nat.le_add_left _ _)
  | ask q k ih =>
    have hL : ∀ (a : X) (l : List (X ⊕ M)), inls (.inl a :: l) = inls l + 1 ∧ inrs cost (.inl a :: l) = inrs cost l := fun _ _ => ⟨rfl, rfl⟩
    have hR : ∀ (μ : M) (l : List (X ⊕ M)), inls (.inr μ :: l) = inls l ∧ inrs cost (.inr μ :: l) = cost μ + inrs cost l := by
      intro μ l
      refine ⟨rfl, ?_⟩
      simp only [inrs, List.filterMap_cons, Sum.getRight?, List.map_cons, List.sum_cons]
    cases q with
    | inr μ =>
      rw [endTbl] at h1
      rw [asks, Algo.asked, h2 μ, (hR _ _).1, (hR _ _).2]
      have := ih _ tbl (μ :: ms) h1
      rw [List.map_cons, List.sum_cons] at this
      omega
    | inl a =>
      rw [endTbl] at h1
      rw [asks, Algo.asked, (hL _ _).1, (hL _ _).2]
      cases hl : tbl.lookup a with
      | some y =>
        rw [hl] at h1
        rw [h1 a y (endTbl_mono _ _ _ _ _ hl)]
        have := ih _ _ ms h1
        dsimp only
        omega
      | none =>
        rw [hl] at h1
        dsimp only at h1 ⊢
        have h0 := h1 a _ (endTbl_mono _ _ _ _ _ (lookup_snoc_self hl))
        rw [h0]
        cases hd : S.see tbl a with
        | some μ =>
          rw [hd] at h1
          have := ih _ _ ms h1
          dsimp only at this ⊢
          omega
        | none =>
          rw [hd] at h1
          have := ih _ _ ms h1
          dsimp only at this ⊢
          rw [Algo.asked, List.length_cons]
          omega

/-- a function that gives the answers of the world with the simulator -/
def world (S : Sys X Y M V) (F : X → Y) (R : M → Y) (A : Algo (X ⊕ M) Y α) : X ⊕ M → Y
  | .inl a => ((endTbl S.see F R A []).lookup a).getD (F a)
  | .inr μ => R μ

theorem world_inl (S : Sys X Y M V) (F : X → Y) (R : M → Y) (A : Algo (X ⊕ M) Y α) (a : X) (y : Y)
    (h : (endTbl S.see F R A []).lookup a = some y) : world S F R A (.inl a) = y := by
  rw [world, h]; rfl

variable [Finite X] [Finite Y] [Finite M]

omit [DecidableEq X] in
/-- one of two at a time -/
theorem card_pairs (p : (X ⊕ M → Y) → Prop) (N c : Nat)
    (h : ∀ R : M → Y, Nat.card { F : X → Y // p (Sum.elim F R) } * N ≤ c * Nat.card (X → Y)) :
    Nat.card { G // p G } * N ≤ c * Nat.card (X ⊕ M → Y) := by
  classical
  have e1 : Nat.card { G // p G } = Nat.card (Σ R : M → Y, { F : X → Y // p (Sum.elim F R) }) := by
    refine Nat.card_congr ⟨fun G => ⟨fun μ => G.1 (.inr μ), fun a => G.1 (.inl a), ?_⟩, fun w => ⟨Sum.elim w.2.1 w.1, w.2.2⟩, ?_, ?_⟩
    · have : Sum.elim (fun a => G.1 (.inl a)) (fun μ => G.1 (.inr μ)) = G.1 := Sum.elim_comp_inl_inr G.1
      rw [this]; exact G.2
    · intro G; exact Subtype.ext (Sum.elim_comp_inl_inr G.1)
    · intro w; rfl
  have e2 : Nat.card (X ⊕ M → Y) = Nat.card (X → Y) * Nat.card (M → Y) := by
    rw [← Nat.card_prod]; exact Nat.card_congr (Equiv.sumArrowEquivProdArrow _ _ _)
  have := Fintype.ofFinite (M → Y)
  rw [e1, e2, Nat.card_sigma, Finset.sum_mul, Nat.card_eq_fintype_card (α := M → Y)]
  refine Nat.le_trans (Finset.sum_le_sum fun R _ => h R) ?_
  rw [Finset.sum_const, Finset.card_univ, smul_eq_mul, Nat.mul_comm, Nat.mul_assoc]

theorem indiff {S : Sys X Y M V} (hS : S.Good) (below : M → Algo X Y X) (hbelow : ∀ F μ, (below μ).asked F = S.inner F μ)
    (cost : M → Nat) (hcost : ∀ F μ, ((below μ).asked F).length ≤ cost μ) (D : Nat) (hD : ∀ v, Nat.card { y // S.low y = v } ≤ D)
    (hslots : ∀ a, (S.slots a).length ≤ 2) (A : Algo (X ⊕ M) Y α) (P : α → Prop) (t : Nat)
    (ht : ∀ G, inls (A.asked G) + inrs cost (A.asked G) ≤ t) :
    Nat.card { G : X ⊕ M → Y // P (A.result (real S fun a => G (.inl a))) } * Nat.card Y ≤
      Nat.card { G : X ⊕ M → Y // P (simulated S.see (fun a => G (.inl a)) (fun μ => G (.inr μ)) A []) } * Nat.card Y +
      (∑ i ∈ Finset.range t, (3 * i + 2) * D) * Nat.card (X ⊕ M → Y) := by
  have hb : Function.Bijective (flip S A) := Finite.injective_iff_bijective.1 (flip_inj hS A)
  have e1 : Nat.card { G : X ⊕ M → Y // P (A.result (real S fun a => G (.inl a))) } = Nat.card { G : X ⊕ M → Y // P (mid S G A).1 } := by
    refine (Nat.card_congr (Equiv.subtypeEquiv (Equiv.ofBijective _ hb) fun G => ?_)).symm
    rw [Equiv.ofBijective_apply, flip_result hS A G]
  have hc := card_pairs (fun G : X ⊕ M → Y => Caught (hit S) (fun a => G (.inl a)) (asks S below (fun μ => G (.inr μ)) A [] []) [])
    (Nat.card Y) (∑ i ∈ Finset.range t, (3 * i + 2) * D) fun R => by
      refine count_caught_all (hit S) (fun i => (3 * i + 2) * D) (card_hit S D hD hslots) (asks S below R A [] []) t fun F => ?_
      have := asks_length S below cost hcost F R A [] [] (world S F R A) (world_inl S F R A) (fun _ => rfl)
      have := ht (world S F R A)
      simp at *
      omega
  rw [e1]
  refine Nat.le_trans (Nat.mul_le_mul_right _ (Prf.card_or (fun G : X ⊕ M → Y => P (mid S G A).1)
    (fun G => P (simulated S.see (fun a => G (.inl a)) (fun μ => G (.inr μ)) A []))
    (fun G => Caught (hit S) (fun a => G (.inl a)) (asks S below (fun μ => G (.inr μ)) A [] []) []) fun G h => ?_)) ?_
  · by_cases hn : Caught (hit S) (fun a => G (.inl a)) (asks S below (fun μ => G (.inr μ)) A [] []) []
    · exact .inr hn
    · left; rw [← mid_simulated hS below hbelow A G hn]; exact h
  · rw [Nat.add_mul]
    exact Nat.add_le_add_left hc _

end Baokeshed.Proofs.Indiff
