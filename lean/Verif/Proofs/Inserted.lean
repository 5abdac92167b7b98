import Verif.Proofs.IndiffCount

/-!
# Requests through an injective map

Somebody answers requests `ν` with the output for `e ν`, where `e` belongs to a secret.  As long as the simulator of `SpecSim.lean`
recognises no root node of one of these, that is as good as answers that have nothing to do with the output.
-/

set_option linter.unusedVariables false

namespace Baokeshed.Proofs.Indiff
open Baokeshed.Spec

variable {X Y M Q K α : Type}

/-- ask `e x` instead of `x` -/
def rename {X' : Type} (e : X → X') : Algo X Y α → Algo X' Y α
  | .done a => .done a
  | .ask x k => .ask (e x) fun y => rename e (k y)

theorem rename_result {X' : Type} (e : X → X') (G : X' → Y) (A : Algo X Y α) : (rename e A).result G = A.result fun x => G (e x) := by
  induction A with
  | done a => rfl
  | ask x k ih => exact ih (G (e x))

theorem rename_asked {X' : Type} (e : X → X') (G : X' → Y) (A : Algo X Y α) :
    (rename e A).asked G = (A.asked fun x => G (e x)).map e := by
  induction A with
  | done a => rfl
  | ask x k ih => exact congrArg _ (ih (G (e x)))

/-- answer the requests with `S` -/
def settle (S : Q → Y) : Algo (X ⊕ Q) Y α → Algo (X ⊕ M) Y α
  | .done a => .done a
  | .ask (.inl x) k => .ask (.inl x) fun y => settle S (k y)
  | .ask (.inr ν) k => settle S (k (S ν))

theorem settle_result (S : Q → Y) (G : X ⊕ M → Y) (A : Algo (X ⊕ Q) Y α) :
    (settle S A).result G = A.result (Sum.elim (fun x => G (.inl x)) S) := by
  induction A with
  | done a => rfl
  | ask q k ih =>
    cases q with
    | inl x => exact ih (G (.inl x))
    | inr ν => exact ih (S ν)

theorem settle_asked (S : Q → Y) (G : X ⊕ M → Y) (A : Algo (X ⊕ Q) Y α) :
    (settle S A).asked G = ((A.asked (Sum.elim (fun x => G (.inl x)) S)).filterMap Sum.getLeft?).map .inl := by
  induction A with
  | done a => rfl
  | ask q k ih =>
    cases q with
    | inl x => exact congrArg _ (ih (G (.inl x)))
    | inr ν => exact ih (S ν)

variable [DecidableEq X]

/-- The simulator, and requests answered by `S`.  Also: what the simulator recognised, and its table at the end. -/
def apart (see : List (X × Y) → X → Option M) (F : X → Y) (R : M → Y) (S : Q → Y) :
    Algo (X ⊕ Q) Y α → List (X × Y) → List M → α × List M × List (X × Y)
  | .done a, tbl, ms => (a, ms, tbl)
  | .ask (.inl a) k, tbl, ms =>
    match tbl.lookup a with
    | some y => apart see F R S (k y) tbl ms
    | none =>
      match see tbl a with
      | some μ => apart see F R S (k (R μ)) (tbl ++ [(a, R μ)]) (μ :: ms)
      | none => apart see F R S (k (F a)) (tbl ++ [(a, F a)]) ms
  | .ask (.inr ν) k, tbl, ms => apart see F R S (k (S ν)) tbl ms

theorem apart_more (see : List (X × Y) → X → Option M) (F : X → Y) (R : M → Y) (S : Q → Y) (A : Algo (X ⊕ Q) Y α) (tbl : List (X × Y))
    (ms : List M) : (∀ μ ∈ ms, μ ∈ (apart see F R S A tbl ms).2.1) ∧
      (∀ b z, tbl.lookup b = some z → (apart see F R S A tbl ms).2.2.lookup b = some z) := by
  induction A generalizing tbl ms with
  | done a => exact ⟨fun _ h => h, fun _ _ h => h⟩
  | ask q k ih =>
    cases q with
    | inr ν => exact ih _ tbl ms
    | inl a =>
      rw [apart]
      cases hl : tbl.lookup a with
      | some y => exact ih _ tbl ms
      | none =>
        have hs : ∀ v b z, tbl.lookup b = some z → (tbl ++ [(a, v)]).lookup b = some z := by
          intro v b z h
          have hne : b ≠ a := by rintro rfl; rw [hl] at h; cases h
          rw [lookup_snoc_ne hne, h]
        dsimp only
        cases see tbl a with
        | some μ =>
          obtain ⟨h1, h2⟩ := ih (R μ) (tbl ++ [(a, R μ)]) (μ :: ms)
          exact ⟨fun ν hν => h1 ν (List.mem_cons_of_mem _ hν), fun b z h => h2 b z (hs _ _ _ h)⟩
        | none =>
          obtain ⟨h1, h2⟩ := ih (F a) (tbl ++ [(a, F a)]) ms
          exact ⟨h1, fun b z h => h2 b z (hs _ _ _ h)⟩

/-- The simulator recognises nothing of `e`: then the requests may be answered by anybody. -/
theorem apart_eq (see : List (X × Y) → X → Option M) (F : X → Y) (R R' : M → Y) (S : Q → Y) (e : Q → M)
    (hR : ∀ μ, (∀ ν, e ν ≠ μ) → R μ = R' μ) (hS : ∀ ν, R (e ν) = S ν) (A : Algo (X ⊕ Q) Y α) (tbl : List (X × Y)) (ms : List M)
    (h : ∀ μ ∈ (apart see F R' S A tbl ms).2.1, ∀ ν, e ν ≠ μ) :
    simulated see F R (rename (Sum.map id e) A) tbl = (apart see F R' S A tbl ms).1 := by
  induction A generalizing tbl ms with
  | done a => rfl
  | ask q k ih =>
    cases q with
    | inr ν =>
      rw [apart] at h ⊢
      rw [← ih _ _ _ h, ← hS ν]
      rfl
    | inl a =>
      rw [apart] at h ⊢
      show simulated see F R (.ask (.inl a) fun y => rename (Sum.map id e) (k y)) tbl = _
      rw [simulated]
      cases hl : tbl.lookup a with
      | some y =>
        rw [hl] at h
        exact ih _ _ _ h
      | none =>
        rw [hl] at h
        dsimp only at h ⊢
        cases hm : see tbl a with
        | some μ =>
          rw [hm] at h
          dsimp only at h ⊢
          rw [hR μ (h μ ((apart_more see F R' S _ _ _).1 μ List.mem_cons_self))]
          exact ih _ _ _ h
        | none =>
          rw [hm] at h
          exact ih _ _ _ h

theorem apart_settle (see : List (X × Y) → X → Option M) (F : X → Y) (R : M → Y) (S : Q → Y) (A : Algo (X ⊕ Q) Y α) (tbl : List (X × Y))
    (ms : List M) : (apart see F R S A tbl ms).1 = simulated see F R (settle S A) tbl := by
  induction A generalizing tbl ms with
  | done a => rfl
  | ask q k ih =>
    cases q with
    | inr ν => exact ih _ _ _
    | inl a =>
      rw [apart]
      show _ = simulated see F R (.ask (.inl a) fun y => settle S (k y)) tbl
      rw [simulated]
      cases tbl.lookup a with
      | some y => exact ih _ _ _
      | none =>
        dsimp only
        cases see tbl a with
        | some μ => exact ih _ _ _
        | none => exact ih _ _ _

/-- one for every question at most -/
theorem apart_length (see : List (X × Y) → X → Option M) (F : X → Y) (R : M → Y) (S : Q → Y) (A : Algo (X ⊕ Q) Y α) (tbl : List (X × Y))
    (ms : List M) (G : X ⊕ Q → Y) (h1 : ∀ a y, (apart see F R S A tbl ms).2.2.lookup a = some y → G (.inl a) = y)
    (h2 : ∀ ν, G (.inr ν) = S ν) : (apart see F R S A tbl ms).2.1.length ≤ ms.length + inls (A.asked G) := by
  induction A generalizing tbl ms with
  | done a => exact Nat.le_add_right _ _
  | ask q k ih =>
    have hL : ∀ (a : X) (l : List (X ⊕ Q)), inls (.inl a :: l) = inls l + 1 := fun _ _ => rfl
    cases q with
    | inr ν =>
      rw [apart] at h1 ⊢
      rw [Algo.asked, h2 ν]
      exact ih _ _ _ h1
    | inl a =>
      rw [apart] at h1 ⊢
      rw [Algo.asked, hL]
      cases hl : tbl.lookup a with
      | some y =>
        rw [hl] at h1
        dsimp only at h1 ⊢
        rw [h1 a y ((apart_more _ _ _ _ _ _ _).2 _ _ hl)]
        have := ih _ _ _ h1
        omega
      | none =>
        rw [hl] at h1
        dsimp only at h1 ⊢
        cases hm : see tbl a with
        | some μ =>
          rw [hm] at h1
          dsimp only at h1 ⊢
          rw [h1 a _ ((apart_more _ _ _ _ _ _ _).2 _ _ (lookup_snoc_self hl))]
          have := ih _ _ _ h1
          rw [List.length_cons] at this
          omega
        | none =>
          rw [hm] at h1
          dsimp only at h1 ⊢
          rw [h1 a _ ((apart_more _ _ _ _ _ _ _).2 _ _ (lookup_snoc_self hl))]
          have := ih _ _ _ h1
          omega

/-- for all functions -/
theorem apart_count (see : List (X × Y) → X → Option M) (F : X → Y) (R : M → Y) (S : Q → Y) (A : Algo (X ⊕ Q) Y α) (q : Nat)
    (hq : ∀ G, inls (A.asked G) ≤ q) : (apart see F R S A [] []).2.1.length ≤ q := by
  have h := apart_length see F R S A [] []
    (Sum.elim (fun a => ((apart see F R S A [] []).2.2.lookup a).getD (F a)) S)
    (fun a y h => by rw [Sum.elim_inl, h]; rfl) (fun ν => rfl)
  rw [List.length_nil, Nat.zero_add] at h
  exact Nat.le_trans h (hq _)

open Classical in
/-- exchange `e ν` and `ν` -/
noncomputable def cross (e : Q → M) : M ⊕ Q → M ⊕ Q
  | .inl μ => if h : ∃ ν, e ν = μ then .inr h.choose else .inl μ
  | .inr ν => .inl (e ν)

theorem cross_in {e : Q → M} (he : Function.Injective e) (ν : Q) : cross e (.inl (e ν)) = .inr ν := by
  have h : ∃ ν', e ν' = e ν := ⟨ν, rfl⟩
  rw [cross, dif_pos h, he h.choose_spec]

theorem cross_out {e : Q → M} {μ : M} (h : ∀ ν, e ν ≠ μ) : cross e (.inl μ) = .inl μ := by
  rw [cross, dif_neg (by rintro ⟨ν, hν⟩; exact h ν hν)]

theorem cross_cross {e : Q → M} (he : Function.Injective e) : Function.Involutive (cross e) := by
  intro x
  cases x with
  | inr ν => exact cross_in he ν
  | inl μ =>
    by_cases h : ∃ ν, e ν = μ
    · obtain ⟨ν, rfl⟩ := h
      rw [cross_in he]
      rfl
    · have h' : ∀ ν, e ν ≠ μ := fun ν hν => h ⟨ν, hν⟩
      rw [cross_out h', cross_out h']

/-- few secrets are hit -/
theorem card_secrets [Finite K] (e : K → Q → M) (he : ∀ s s' ν ν', e s ν = e s' ν' → s = s') (ms : List M) :
    Nat.card { s // ∃ μ ∈ ms, ∃ ν, e s ν = μ } ≤ ms.length := by
  have hf : ∀ s : { s // ∃ μ ∈ ms, ∃ ν, e s ν = μ }, ∃ i : Fin ms.length, ∃ ν, e s.1 ν = ms.get i := by
    rintro ⟨s, μ, hμ, ν, hν⟩
    obtain ⟨i, hi⟩ := List.get_of_mem hμ
    exact ⟨i, ν, hν.trans hi.symm⟩
  choose f hf using hf
  have h := Nat.card_le_card_of_injective f fun a b hab => by
    obtain ⟨ν, h1⟩ := hf a
    obtain ⟨ν', h2⟩ := hf b
    rw [← hab] at h2
    exact Subtype.ext (he _ _ _ _ (h1.trans h2.symm))
  rwa [Nat.card_eq_fintype_card (α := Fin ms.length), Fintype.card_fin] at h

end Baokeshed.Proofs.Indiff
