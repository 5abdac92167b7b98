import Mathlib.Data.Finite.Prod
import Mathlib.Data.Finite.Sum
import Mathlib.Data.Fintype.EquivFin
import Verif.Proofs.Count

/-!
# Answers that cannot be told from random ones

Abstract form.  `X` are questions to a random function, `M` questions to a function `tag` that is computed from the random
function with a secret key.  Every computation of `tag` is a set of labels; a label stands for a question to the random
function, which depends on the key and on the answers for other labels.
-/

set_option linter.unusedVariables false

namespace Baokeshed.Proofs
open Baokeshed.Spec

namespace Prf

variable {X Y K I M : Type}

/-- answers for labels: inner ones, and those that are themselves answers to questions -/
def ans (G : X ⊕ M → Y) (S : I → Y) : I ⊕ M → Y := Sum.elim S fun μ => G (.inr μ)

/-- answers in reality -/
def real (tag : (X → Y) → K → M → Y) (G : X ⊕ M → Y) (k : K) : X ⊕ M → Y :=
  Sum.elim (fun a => G (.inl a)) (tag (fun a => G (.inl a)) k)

open Classical in
/-- the labels of the questions -/
noncomputable def labels (labs : M → Finset (I ⊕ M)) (l : List (X ⊕ M)) : Finset (I ⊕ M) :=
  (l.filterMap Sum.getRight?).toFinset.biUnion labs

theorem mem_labels {labs : M → Finset (I ⊕ M)} {l : List (X ⊕ M)} {b : I ⊕ M} :
    b ∈ labels labs l ↔ ∃ μ, Sum.inr μ ∈ l ∧ b ∈ labs μ := by
  classical
  simp only [labels, Finset.mem_biUnion, List.mem_toFinset, List.mem_filterMap]
  constructor
  · rintro ⟨μ, ⟨x, hx, e⟩, hb⟩
    rw [Sum.getRight?_eq_some_iff] at e
    exact ⟨μ, e ▸ hx, hb⟩
  · rintro ⟨μ, hx, hb⟩
    exact ⟨μ, ⟨_, hx, rfl⟩, hb⟩

theorem labels_card {labs : M → Finset (I ⊕ M)} (f : M → Nat) (h : ∀ μ, (labs μ).card ≤ f μ) (l : List (X ⊕ M)) :
    (labels labs l).card ≤ ((l.filterMap Sum.getRight?).map f).sum := by
  classical
  rw [labels]
  generalize l.filterMap Sum.getRight? = t
  induction t with
  | nil => simp
  | cons r t ih =>
    rw [List.toFinset_cons, Finset.biUnion_insert, List.map_cons, List.sum_cons]
    exact Nat.le_trans (Finset.card_union_le _ _) (Nat.add_le_add (h r) ih)

/-- no two labels stand for the same question, and none for one of the questions in `l` -/
def Good (inp : K → (I → Y) → I ⊕ M → X) (l : List (X ⊕ M)) (L : Finset (I ⊕ M)) (S : I → Y) (k : K) : Prop :=
  (∀ a ∈ L, ∀ b ∈ L, inp k S a = inp k S b → a = b) ∧ ∀ x, Sum.inl x ∈ l → ∀ b ∈ L, inp k S b ≠ x

open Classical in
/-- exchange the answers for the labels in `L` with those for the questions that they stand for -/
noncomputable def swapG (inp : K → (I → Y) → I ⊕ M → X) (L : Finset (I ⊕ M)) (G : X ⊕ M → Y) (S : I → Y) (k : K) : X ⊕ M → Y
  | .inl x => if h : ∃ b ∈ L, inp k S b = x then ans G S h.choose else G (.inl x)
  | .inr μ => if .inr μ ∈ L then G (.inl (inp k S (.inr μ))) else G (.inr μ)

open Classical in
/-- the inner labels -/
noncomputable def swapS (inp : K → (I → Y) → I ⊕ M → X) (L : Finset (I ⊕ M)) (G : X ⊕ M → Y) (S : I → Y) (k : K) : I → Y := fun i =>
  if .inl i ∈ L then G (.inl (inp k S (.inl i))) else S i

variable {inp : K → (I → Y) → I ⊕ M → X} {labs : M → Finset (I ⊕ M)} {tag : (X → Y) → K → M → Y}

theorem swap_label {l : List (X ⊕ M)} {L : Finset (I ⊕ M)} {G : X ⊕ M → Y} {S : I → Y} {k : K} (hg : Good inp l L S k)
    {b : I ⊕ M} (hb : b ∈ L) : swapG inp L G S k (.inl (inp k S b)) = ans G S b := by
  have h : ∃ b' ∈ L, inp k S b' = inp k S b := ⟨b, hb, rfl⟩
  rw [swapG, dif_pos h, hg.1 _ h.choose_spec.1 b hb h.choose_spec.2]

theorem swap_asked {l : List (X ⊕ M)} {L : Finset (I ⊕ M)} {G : X ⊕ M → Y} {S : I → Y} {k : K} (hg : Good inp l L S k)
    {x : X} (hx : .inl x ∈ l) : swapG inp L G S k (.inl x) = G (.inl x) := by
  rw [swapG, dif_neg]
  rintro ⟨b, hb, e⟩
  exact hg.2 x hx b hb e

theorem swap_back {L : Finset (I ⊕ M)} {G : X ⊕ M → Y} {S : I → Y} {k : K} {b : I ⊕ M} (hb : b ∈ L) :
    ans (swapG inp L G S k) (swapS inp L G S k) b = G (.inl (inp k S b)) := by
  cases b with
  | inl i => exact if_pos hb
  | inr μ => exact if_pos hb

theorem swap_other {L : Finset (I ⊕ M)} {G : X ⊕ M → Y} {S : I → Y} {k : K} {b : I ⊕ M} (hb : b ∉ L) :
    ans (swapG inp L G S k) (swapS inp L G S k) b = ans G S b := by
  cases b with
  | inl i => exact if_neg hb
  | inr μ => exact if_neg hb

/-- the run in reality, after the exchange, is the run with random answers -/
theorem swap_run {α : Type} (H1 : ∀ (F : X → Y) (k : K) (G : X ⊕ M → Y) (S : I → Y) (μ : M), (∀ b ∈ labs μ, F (inp k S b) = ans G S b) → tag F k μ = G (.inr μ))
    (A : Algo (X ⊕ M) Y α) (G : X ⊕ M → Y) (S : I → Y) (k : K) (hg : Good inp (A.asked G) (labels labs (A.asked G)) S k) :
    let G' := swapG inp (labels labs (A.asked G)) G S k
    A.asked (real tag G' k) = A.asked G ∧ A.result (real tag G' k) = A.result G := by
  apply algo_same
  intro q hq
  cases q with
  | inl x => exact (swap_asked hg hq).symm
  | inr μ =>
    refine (H1 _ k G S μ fun b hb => ?_).symm
    exact swap_label hg (mem_labels.2 ⟨μ, hq, hb⟩)

/-- nothing is lost by the exchange -/
theorem swap_inj {α : Type} (H1 : ∀ (F : X → Y) (k : K) (G : X ⊕ M → Y) (S : I → Y) (μ : M), (∀ b ∈ labs μ, F (inp k S b) = ans G S b) → tag F k μ = G (.inr μ))
    (H2 : ∀ (F : X → Y) (k : K) (G : X ⊕ M → Y) (S : I → Y) (G' : X ⊕ M → Y) (S' : I → Y) (μ : M), (∀ b ∈ labs μ, F (inp k S b) = ans G S b) → (∀ b ∈ labs μ, F (inp k S' b) = ans G' S' b) →
      ∀ b ∈ labs μ, inp k S b = inp k S' b)
    (A : Algo (X ⊕ M) Y α) (G G' : X ⊕ M → Y) (S S' : I → Y) (k : K)
    (hg : Good inp (A.asked G) (labels labs (A.asked G)) S k) (hg' : Good inp (A.asked G') (labels labs (A.asked G')) S' k)
    (eG : swapG inp (labels labs (A.asked G)) G S k = swapG inp (labels labs (A.asked G')) G' S' k)
    (eS : swapS inp (labels labs (A.asked G)) G S k = swapS inp (labels labs (A.asked G')) G' S' k) : G = G' ∧ S = S' := by
  obtain ⟨h1, -⟩ := swap_run H1 A G S k hg
  obtain ⟨h2, -⟩ := swap_run H1 A G' S' k hg'
  have hl : A.asked G = A.asked G' := by rw [← h1, ← h2, eG]
  rw [← hl] at eG eS hg'
  generalize hL : labels labs (A.asked G) = L at *
  have hin : ∀ b ∈ L, inp k S b = inp k S' b := by
    intro b hb
    obtain ⟨μ, hμ, hb'⟩ := mem_labels.1 (hL ▸ hb)
    have hsub : ∀ c ∈ labs μ, c ∈ L := fun c hc => hL ▸ mem_labels.2 ⟨μ, hμ, hc⟩
    refine H2 (fun x => swapG inp L G S k (.inl x)) k G S G' S' μ (fun c hc => swap_label hg (hsub c hc)) (fun c hc => ?_) b hb'
    rw [eG]
    exact swap_label hg' (hsub c hc)
  have hans : ∀ b, ans G S b = ans G' S' b := by
    intro b
    by_cases hb : b ∈ L
    · rw [← swap_label (G := G) hg hb, ← swap_label (G := G') hg' hb, eG, hin b hb]
    · rw [← swap_other (inp := inp) (k := k) hb, ← swap_other (inp := inp) (G := G') (S := S') (k := k) hb, eG, eS]
  refine ⟨?_, funext fun i => hans (.inl i)⟩
  funext q
  cases q with
  | inr μ => exact hans (.inr μ)
  | inl x =>
    by_cases hx : ∃ b ∈ L, inp k S b = x
    · obtain ⟨b, hb, rfl⟩ := hx
      rw [← swap_back (inp := inp) (G := G) (S := S) (k := k) hb, eG, eS, swap_back hb, hin b hb]
    · have e := congrFun eG (.inl x)
      rw [swapG, dif_neg hx, swapG, dif_neg] at e
      · exact e
      · rintro ⟨b, hb, eb⟩
        exact hx ⟨b, hb, (hin b hb).trans eb⟩

variable [Finite X] [Finite Y] [Finite K] [Finite I] [Finite M]

/-- Reality and random answers differ by the exchanges that do not work. -/
theorem count_real {α : Type} (H1 : ∀ (F : X → Y) (k : K) (G : X ⊕ M → Y) (S : I → Y) (μ : M), (∀ b ∈ labs μ, F (inp k S b) = ans G S b) → tag F k μ = G (.inr μ))
    (H2 : ∀ (F : X → Y) (k : K) (G : X ⊕ M → Y) (S : I → Y) (G' : X ⊕ M → Y) (S' : I → Y) (μ : M), (∀ b ∈ labs μ, F (inp k S b) = ans G S b) → (∀ b ∈ labs μ, F (inp k S' b) = ans G' S' b) →
      ∀ b ∈ labs μ, inp k S b = inp k S' b)
    (A : Algo (X ⊕ M) Y α) (P : α → Prop) :
    Nat.card { w : (X ⊕ M → Y) × (I → Y) × K // P (A.result (real tag w.1 w.2.2)) } ≤
      Nat.card { w : (X ⊕ M → Y) × (I → Y) × K // P (A.result w.1) } +
      Nat.card { w : (X ⊕ M → Y) × (I → Y) × K // ¬ Good inp (A.asked w.1) (labels labs (A.asked w.1)) w.2.1 w.2.2 } := by
  classical
  have := Fintype.ofFinite ((X ⊕ M → Y) × (I → Y) × K)
  simp only [Nat.card_eq_fintype_card, Fintype.card_subtype]
  let good : (X ⊕ M → Y) × (I → Y) × K → Prop := fun w => Good inp (A.asked w.1) (labels labs (A.asked w.1)) w.2.1 w.2.2
  let sw : (X ⊕ M → Y) × (I → Y) × K → (X ⊕ M → Y) × (I → Y) × K := fun w =>
    (swapG inp (labels labs (A.asked w.1)) w.1 w.2.1 w.2.2, swapS inp (labels labs (A.asked w.1)) w.1 w.2.1 w.2.2, w.2.2)
  have hinj : Set.InjOn sw (Finset.univ.filter good) := by
    rintro ⟨G, S, k⟩ h ⟨G', S', k'⟩ h' e
    simp only [Finset.coe_filter, Finset.mem_univ, true_and, Set.mem_ofPred_eq] at h h'
    simp only [sw, Prod.mk.injEq] at e
    obtain ⟨e1, e2, rfl⟩ := e
    obtain ⟨rfl, rfl⟩ := swap_inj H1 H2 A G G' S S' k h h' e1 e2
    rfl
  have hcard := Finset.card_image_of_injOn hinj
  have hsub : (Finset.univ.filter fun w : (X ⊕ M → Y) × (I → Y) × K => P (A.result (real tag w.1 w.2.2))) ⊆
      ((Finset.univ.filter fun w : (X ⊕ M → Y) × (I → Y) × K => P (A.result w.1)).filter good).image sw ∪
        (Finset.univ \ (Finset.univ.filter good).image sw) := by
    intro w hw
    rw [Finset.mem_filter] at hw
    rw [Finset.mem_union]
    by_cases h : w ∈ (Finset.univ.filter good).image sw
    · left
      obtain ⟨g, hg, rfl⟩ := Finset.mem_image.1 h
      rw [Finset.mem_filter] at hg
      refine Finset.mem_image.2 ⟨g, Finset.mem_filter.2 ⟨Finset.mem_filter.2 ⟨Finset.mem_univ _, ?_⟩, hg.2⟩, rfl⟩
      have := (swap_run H1 A g.1 g.2.1 g.2.2 hg.2).2
      rw [← this]
      exact hw.2
    · right
      exact Finset.mem_sdiff.2 ⟨Finset.mem_univ _, h⟩
  refine Nat.le_trans (Finset.card_le_card hsub) (Nat.le_trans (Finset.card_union_le _ _) (Nat.add_le_add ?_ ?_))
  · exact Nat.le_trans Finset.card_image_le (Finset.card_filter_le _ _)
  · rw [Finset.card_sdiff_of_subset (Finset.subset_univ _), hcard]
    show _ ≤ (Finset.univ.filter fun w => ¬ good w).card
    have := Finset.card_filter_add_card_filter_not (s := (Finset.univ : Finset ((X ⊕ M → Y) × (I → Y) × K))) good
    omega

omit [Finite X] [Finite Y] [Finite K] [Finite I] [Finite M] in
/-- one of several -/
theorem card_exists {W β : Type} [Finite W] (L : Finset β) (P : β → W → Prop) (N c : Nat)
    (h : ∀ b ∈ L, Nat.card { w // P b w } * N ≤ c) : Nat.card { w // ∃ b ∈ L, P b w } * N ≤ L.card * c := by
  classical
  have := Fintype.ofFinite W
  have hsub : (Finset.univ.filter fun w => ∃ b ∈ L, P b w) ⊆ L.biUnion fun b => Finset.univ.filter (P b) := by
    intro w hw
    obtain ⟨b, hb, e⟩ := (Finset.mem_filter.1 hw).2
    exact Finset.mem_biUnion.2 ⟨b, hb, Finset.mem_filter.2 ⟨Finset.mem_univ _, e⟩⟩
  rw [Nat.card_eq_fintype_card, Fintype.card_subtype]
  refine Nat.le_trans (Nat.mul_le_mul_right N (Nat.le_trans (Finset.card_le_card hsub) Finset.card_biUnion_le)) ?_
  rw [Finset.sum_mul, ← smul_eq_mul]
  refine Finset.sum_le_card_nsmul _ _ _ fun b hb => ?_
  have := h b hb
  rwa [Nat.card_eq_fintype_card, Fintype.card_subtype] at this

omit [Finite X] [Finite Y] [Finite K] [Finite I] [Finite M] in
theorem card_or {W : Type} [Finite W] (P Q R : W → Prop) (h : ∀ w, P w → Q w ∨ R w) :
    Nat.card { w // P w } ≤ Nat.card { w // Q w } + Nat.card { w // R w } := by
  classical
  have := Fintype.ofFinite W
  simp only [Nat.card_eq_fintype_card, Fintype.card_subtype]
  refine Nat.le_trans (Finset.card_le_card fun w hw => ?_) (Finset.card_union_le _ _)
  rcases h w (Finset.mem_filter.1 hw).2 with h | h
  · exact Finset.mem_union_left _ (Finset.mem_filter.2 ⟨Finset.mem_univ _, h⟩)
  · exact Finset.mem_union_right _ (Finset.mem_filter.2 ⟨Finset.mem_univ _, h⟩)

omit [Finite X] [Finite M] in
theorem card_not_inj (N : Nat)
    (coll : ∀ b c, b ≠ c → Nat.card { p : (I → Y) × K // inp p.2 p.1 b = inp p.2 p.1 c } * N ≤ Nat.card ((I → Y) × K))
    (L : Finset (I ⊕ M)) :
    2 * (Nat.card { p : (I → Y) × K // ¬ ∀ a ∈ L, ∀ b ∈ L, inp p.2 p.1 a = inp p.2 p.1 b → a = b } * N) ≤
      L.card * (L.card - 1) * Nat.card ((I → Y) × K) := by
  classical
  induction L using Finset.induction_on with
  | empty => simp
  | insert b L hb ih =>
    have h1 := card_or (W := (I → Y) × K) (fun p => ¬ ∀ a ∈ insert b L, ∀ c ∈ insert b L, inp p.2 p.1 a = inp p.2 p.1 c → a = c)
      (fun p => ¬ ∀ a ∈ L, ∀ c ∈ L, inp p.2 p.1 a = inp p.2 p.1 c → a = c) (fun p => ∃ c ∈ L, inp p.2 p.1 b = inp p.2 p.1 c) (by
        intro p hp
        by_contra hn
        rw [not_or] at hn
        obtain ⟨h2, h3⟩ := hn
        rw [not_not] at h2
        apply hp
        intro a ha c hc e
        rcases Finset.mem_insert.1 ha with rfl | ha' <;> rcases Finset.mem_insert.1 hc with rfl | hc'
        · rfl
        · exact absurd ⟨c, hc', e⟩ h3
        · exact absurd ⟨a, ha', e.symm⟩ h3
        · exact h2 a ha' c hc' e)
    have h2 := card_exists (W := (I → Y) × K) L (fun c p => inp p.2 p.1 b = inp p.2 p.1 c) N _
      (fun c hc => coll b c (by rintro rfl; exact hb hc))
    rw [Finset.card_insert_of_notMem hb, Nat.add_sub_cancel]
    have h3 := Nat.mul_le_mul_right N h1
    rw [Nat.add_mul] at h3
    generalize Nat.card ((I → Y) × K) = t at *
    generalize L.card = n at *
    have e : (n + 1) * n * t = n * (n - 1) * t + 2 * (n * t) := by
      cases n with
      | zero => simp
      | succ n =>
        rw [Nat.add_sub_cancel, ← Nat.mul_assoc 2, ← Nat.add_mul]
        congr 1
        rw [Nat.mul_comm (n + 1) n, ← Nat.add_mul, Nat.add_right_comm]
    omega

omit [Finite X] [Finite M] in
/-- the exchanges that do not work, for given questions -/
theorem card_bad (N q : Nat)
    (hit : ∀ x b, Nat.card { p : (I → Y) × K // inp p.2 p.1 b = x } * N ≤ Nat.card ((I → Y) × K))
    (coll : ∀ b c, b ≠ c → Nat.card { p : (I → Y) × K // inp p.2 p.1 b = inp p.2 p.1 c } * N ≤ Nat.card ((I → Y) × K))
    (l : List (X ⊕ M)) (hq : (l.filterMap Sum.getLeft?).length ≤ q) (L : Finset (I ⊕ M)) :
    2 * (Nat.card { p : (I → Y) × K // ¬ Good inp l L p.1 p.2 } * N) ≤
      (2 * q * L.card + L.card * (L.card - 1)) * Nat.card ((I → Y) × K) := by
  classical
  have h1 := card_or (W := (I → Y) × K) (fun p => ¬ Good inp l L p.1 p.2)
    (fun p => ∃ x ∈ (l.filterMap Sum.getLeft?).toFinset, ∃ b ∈ L, inp p.2 p.1 b = x)
    (fun p => ¬ ∀ a ∈ L, ∀ b ∈ L, inp p.2 p.1 a = inp p.2 p.1 b → a = b) (by
      intro p hp
      by_contra hn
      rw [not_or, not_not] at hn
      refine hp ⟨hn.2, fun x hx b hb e => hn.1 ⟨x, ?_, b, hb, e⟩⟩
      rw [List.mem_toFinset, List.mem_filterMap]
      exact ⟨_, hx, rfl⟩)
  have h2 := card_exists (W := (I → Y) × K) (l.filterMap Sum.getLeft?).toFinset (fun x p => ∃ b ∈ L, inp p.2 p.1 b = x) N _
    (fun x _ => card_exists (W := (I → Y) × K) L (fun b p => inp p.2 p.1 b = x) N _ fun b _ => hit x b)
  have h3 := card_not_inj N coll L
  have h4 := Nat.mul_le_mul_right N h1
  rw [Nat.add_mul] at h4
  have h5 : (l.filterMap Sum.getLeft?).toFinset.card ≤ q := Nat.le_trans (List.toFinset_card_le _) hq
  have h6 := Nat.mul_le_mul_right (L.card * Nat.card ((I → Y) × K)) h5
  rw [Nat.add_mul, Nat.mul_assoc, Nat.mul_assoc]
  omega

/-- Reality and random answers: how much they can differ. -/
theorem prf {α : Type} [Nonempty Y]
    (H1 : ∀ (F : X → Y) (k : K) (G : X ⊕ M → Y) (S : I → Y) (μ : M), (∀ b ∈ labs μ, F (inp k S b) = ans G S b) → tag F k μ = G (.inr μ))
    (H2 : ∀ (F : X → Y) (k : K) (G : X ⊕ M → Y) (S : I → Y) (G' : X ⊕ M → Y) (S' : I → Y) (μ : M),
      (∀ b ∈ labs μ, F (inp k S b) = ans G S b) → (∀ b ∈ labs μ, F (inp k S' b) = ans G' S' b) → ∀ b ∈ labs μ, inp k S b = inp k S' b)
    (N q s : Nat)
    (hit : ∀ x b, Nat.card { p : (I → Y) × K // inp p.2 p.1 b = x } * N ≤ Nat.card ((I → Y) × K))
    (coll : ∀ b c, b ≠ c → Nat.card { p : (I → Y) × K // inp p.2 p.1 b = inp p.2 p.1 c } * N ≤ Nat.card ((I → Y) × K))
    (A : Algo (X ⊕ M) Y α) (P : α → Prop) (hq : ∀ G, ((A.asked G).filterMap Sum.getLeft?).length ≤ q)
    (hs : ∀ G, (labels labs (A.asked G)).card ≤ s) :
    2 * (Nat.card { w : (X → Y) × K // P (A.result (Sum.elim w.1 (tag w.1 w.2))) } * Nat.card (M → Y) * N) ≤
      2 * (Nat.card { G : X ⊕ M → Y // P (A.result G) } * Nat.card K * N) +
        (2 * q * s + s * (s - 1)) * (Nat.card (X ⊕ M → Y) * Nat.card K) := by
  classical
  have h1 := count_real H1 H2 A P
  have e1 : Nat.card { w : (X ⊕ M → Y) × (I → Y) × K // P (A.result (real tag w.1 w.2.2)) } =
      Nat.card { w : (X → Y) × K // P (A.result (Sum.elim w.1 (tag w.1 w.2))) } * Nat.card (M → Y) * Nat.card (I → Y) := by
    rw [← Nat.card_prod, ← Nat.card_prod]
    refine Nat.card_congr ⟨fun w => ((⟨(fun a => w.1.1 (.inl a), w.1.2.2), w.2⟩, fun μ => w.1.1 (.inr μ)), w.1.2.1),
      fun w => ⟨(Sum.elim w.1.1.1.1 w.1.2, w.2, w.1.1.1.2), w.1.1.2⟩, ?_, ?_⟩
    · rintro ⟨⟨G, S, k⟩, h⟩
      apply Subtype.ext
      refine Prod.ext ?_ rfl
      funext q
      cases q <;> rfl
    · rintro ⟨⟨⟨⟨F, k⟩, h⟩, T⟩, S⟩
      rfl
  have e2 : Nat.card { w : (X ⊕ M → Y) × (I → Y) × K // P (A.result w.1) } =
      Nat.card { G : X ⊕ M → Y // P (A.result G) } * Nat.card K * Nat.card (I → Y) := by
    rw [← Nat.card_prod, ← Nat.card_prod]
    exact Nat.card_congr ⟨fun w => ((⟨w.1.1, w.2⟩, w.1.2.2), w.1.2.1), fun w => ⟨(w.1.1.1, w.2, w.1.2), w.1.1.2⟩,
      fun _ => rfl, fun _ => rfl⟩
  have e3 : 2 * (Nat.card { w : (X ⊕ M → Y) × (I → Y) × K //
      ¬ Good inp (A.asked w.1) (labels labs (A.asked w.1)) w.2.1 w.2.2 } * N) ≤
      (2 * q * s + s * (s - 1)) * (Nat.card (X ⊕ M → Y) * Nat.card K) * Nat.card (I → Y) := by
    have := Fintype.ofFinite (X ⊕ M → Y)
    have e : Nat.card { w : (X ⊕ M → Y) × (I → Y) × K // ¬ Good inp (A.asked w.1) (labels labs (A.asked w.1)) w.2.1 w.2.2 } =
        ∑ G, Nat.card { p : (I → Y) × K // ¬ Good inp (A.asked G) (labels labs (A.asked G)) p.1 p.2 } := by
      rw [← Nat.card_sigma]
      exact Nat.card_congr ⟨fun w => ⟨w.1.1, w.1.2, w.2⟩, fun w => ⟨(w.1, w.2.1), w.2.2⟩, fun _ => rfl, fun _ => rfl⟩
    rw [e, Finset.sum_mul, Finset.mul_sum]
    refine Nat.le_trans (Finset.sum_le_sum fun G _ => card_bad N q hit coll (A.asked G) (hq G) (labels labs (A.asked G))) ?_
    refine Nat.le_trans (Finset.sum_le_sum (g := fun _ => (2 * q * s + s * (s - 1)) * Nat.card ((I → Y) × K)) fun G _ => ?_) ?_
    · refine Nat.mul_le_mul_right _ (Nat.add_le_add (Nat.mul_le_mul_left _ (hs G)) (Nat.mul_le_mul (hs G) ?_))
      have := hs G
      omega
    · rw [Finset.sum_const, Finset.card_univ, smul_eq_mul, ← Nat.card_eq_fintype_card, Nat.card_prod]
      refine Nat.le_of_eq ?_
      rw [Nat.mul_left_comm, Nat.mul_assoc (2 * q * s + s * (s - 1)), Nat.mul_assoc (Nat.card (X ⊕ M → Y)), Nat.mul_comm (Nat.card K)]
  rw [e1, e2] at h1
  have hpos : 0 < Nat.card (I → Y) := Nat.card_pos
  refine Nat.le_of_mul_le_mul_right (c := Nat.card (I → Y)) ?_ hpos
  rw [Nat.add_mul]
  refine Nat.le_trans ?_ (Nat.add_le_add_left e3 _)
  have h2 := Nat.mul_le_mul_left 2 (Nat.mul_le_mul_right N h1)
  rw [Nat.add_mul, Nat.mul_add] at h2
  refine Nat.le_trans (Nat.le_of_eq ?_) (Nat.le_trans h2 (Nat.le_of_eq ?_))
  · rw [Nat.mul_assoc 2, Nat.mul_right_comm]
  · rw [Nat.mul_assoc 2, Nat.mul_right_comm]

end Prf

end Baokeshed.Proofs
