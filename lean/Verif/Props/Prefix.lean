import Verif.Props.Indiff
import Verif.Proofs.Inserted
import Mathlib.Algebra.BigOperators.Field

/-!
# C84: secrets in the input

A holder of a secret answers requests for output, in all modes and with all keys, but puts the secret into the input first: before it,
behind it, or in any other way from which both can be recovered.  The compression function is a black box as in C81.
-/

set_option linter.unusedVariables false
set_option exponentiation.threshold 600

namespace Baokeshed.Props
open Baokeshed.Model Baokeshed.Proofs

attribute [local irreducible] Spec.compress Spec.outBytes Spec.cvBytes Spec.pad

/-- the compression function, and output for inputs that the secret was put into -/
def inserted {K : Type} {N : Nat} (put : K → Bytes → Bytes) (F : Comp) (s : K) : Spec.Input ⊕ Spec.Want N → Spec.Full
  | .inl a => F a
  | .inr w => wordsWith F w.1.1 (put s w.1.2.1) w.1.2.2

/-- the number of compressions that the holder of the secret performs for the requests -/
def putting {K : Type} {N : Nat} (put : K → Bytes → Bytes) (s : K) (l : List (Spec.Input ⊕ Spec.Want N)) : Nat :=
  ((l.filterMap Sum.getRight?).map fun w => Spec.compressions (put s w.1.2.1).length).sum

/-- the request for the hash: block 0 -/
def blockZero {N : Nat} (p : Spec.Mode × { x : Bytes // x.length ≤ N }) : Spec.Want N := ⟨(p.1, p.2.1, 0), p.2.2, Nat.two_pow_pos 58⟩

/-! ## probabilities -/

theorem prob_pos {Ω : Type} [Finite Ω] [Nonempty Ω] : (0 : ℚ) < (Nat.card Ω : ℚ) := by exact_mod_cast Nat.card_pos

theorem prob_mono {Ω : Type} [Finite Ω] {p p' : Ω → Prop} (h : ∀ w, p w → p' w) : prob p ≤ prob p' := by
  refine div_le_div_of_nonneg_right ?_ (Nat.cast_nonneg _)
  exact_mod_cast Nat.card_le_card_of_injective (fun w : { w // p w } => (⟨w.1, h _ w.2⟩ : { w // p' w }))
    fun a b e => Subtype.ext (Subtype.mk.inj e)

theorem prob_or {Ω : Type} [Finite Ω] (p p' : Ω → Prop) : prob (fun w => p w ∨ p' w) ≤ prob p + prob p' := by
  classical
  rw [prob, prob, prob, ← add_div]
  refine div_le_div_of_nonneg_right ?_ (Nat.cast_nonneg _)
  have h := Nat.card_le_card_of_injective (fun w : { w // p w ∨ p' w } =>
      if h : p w.1 then (Sum.inl ⟨w.1, h⟩ : { w // p w } ⊕ { w // p' w }) else .inr ⟨w.1, w.2.resolve_left h⟩) (by
    intro a b e
    dsimp only at e
    split at e <;> split at e <;> simp only [Sum.inl.injEq, Sum.inr.injEq, Subtype.mk.injEq, reduceCtorEq] at e
    all_goals exact Subtype.ext e)
  rw [Nat.card_sum] at h
  exact_mod_cast h

theorem prob_congr {Ω Ω' : Type} (e : Ω ≃ Ω') (p : Ω' → Prop) : prob (fun w => p (e w)) = prob p := by
  rw [prob, prob, Nat.card_congr e, Nat.card_congr (e.subtypeEquiv (p := fun w => p (e w)) (q := p) fun _ => Iff.rfl)]

theorem prob_avg {Ω Λ : Type} [Finite Ω] [Fintype Λ] (p : Ω × Λ → Prop) :
    prob p = (∑ l, prob fun w => p (w, l)) / (Fintype.card Λ : ℚ) := by
  have h : Nat.card { w // p w } = ∑ l, Nat.card { w : Ω // p (w, l) } := by
    rw [← Nat.card_sigma]
    exact Nat.card_congr ⟨fun w => ⟨w.1.2, w.1.1, w.2⟩, fun w => ⟨(w.2.1, w.1), w.2.2⟩, fun _ => rfl, fun _ => rfl⟩
  simp only [prob]
  rw [h, ← Finset.sum_div, Nat.card_prod, Nat.card_eq_fintype_card (α := Λ), div_div]
  push_cast
  rfl

theorem prob_prod_le {Ω Ω' Λ : Type} [Finite Ω] [Finite Ω'] [Finite Λ] [Nonempty Λ] (p : Ω × Λ → Prop) (p' : Ω' × Λ → Prop) (e : ℚ)
    (h : ∀ l, prob (fun w => p (w, l)) ≤ prob (fun w => p' (w, l)) + e) : prob p ≤ prob p' + e := by
  have := Fintype.ofFinite Λ
  rw [prob_avg p, prob_avg p']
  have hc : (0 : ℚ) < (Fintype.card Λ : ℚ) := by exact_mod_cast Fintype.card_pos
  rw [div_add' _ _ _ (ne_of_gt hc)]
  refine div_le_div_of_nonneg_right ?_ (le_of_lt hc)
  refine le_trans (Finset.sum_le_sum fun l _ => h l) ?_
  rw [Finset.sum_add_distrib, Finset.sum_const, Finset.card_univ, nsmul_eq_mul, mul_comm e]

theorem prob_fst {Ω Λ : Type} [Finite Ω] [Finite Λ] [Nonempty Λ] (p : Ω → Prop) : prob (fun w : Ω × Λ => p w.1) = prob p := by
  have := Fintype.ofFinite Λ
  have hc : (Fintype.card Λ : ℚ) ≠ 0 := by exact_mod_cast Fintype.card_ne_zero
  rw [prob_avg]
  simp only [Finset.sum_const, Finset.card_univ, nsmul_eq_mul]
  rw [mul_comm, mul_div_assoc, div_self hc, mul_one]

/-- at most `q` of the second components, for each first -/
theorem prob_few {Ω K : Type} [Finite Ω] [Nonempty Ω] [Finite K] [Nonempty K] (p : Ω × K → Prop) (q : Nat)
    (h : ∀ w, Nat.card { s // p (w, s) } ≤ q) : prob p ≤ (q : ℚ) / (Nat.card K : ℚ) := by
  have := Fintype.ofFinite Ω
  rw [← prob_congr (Equiv.prodComm K Ω) p, prob_avg, div_le_iff₀ (by exact_mod_cast Fintype.card_pos)]
  refine le_trans (Finset.sum_le_sum (g := fun _ => (q : ℚ) / (Nat.card K : ℚ)) fun w _ => ?_) ?_
  · exact div_le_div_of_nonneg_right (by exact_mod_cast h w) (Nat.cast_nonneg _)
  · rw [Finset.sum_const, Finset.card_univ, nsmul_eq_mul, mul_comm]

/-- exchange the output for the requests with the secret and other answers -/
noncomputable def crossing {X Y M Q K : Type} (e : K → Q → M) (hi : ∀ s, Function.Injective (e s)) :
    ((X → Y) × (M ⊕ Q → Y)) × K ≃ (((X → Y) × (M → Y)) × K) × (Q → Y) where
  toFun w := (((w.1.1, fun μ => w.1.2 (Indiff.cross (e w.2) (.inl μ))), w.2), fun ν => w.1.2 (Indiff.cross (e w.2) (.inr ν)))
  invFun w := ((w.1.1.1, fun x => Sum.elim w.1.1.2 w.2 (Indiff.cross (e w.1.2) x)), w.1.2)
  left_inv w := by
    refine Prod.ext (Prod.ext rfl (funext fun x => ?_)) rfl
    dsimp only
    have hcc := Indiff.cross_cross (hi w.2) x
    have : ∀ z : M ⊕ Q, Sum.elim (fun μ => w.1.2 (Indiff.cross (e w.2) (.inl μ)))
        (fun ν => w.1.2 (Indiff.cross (e w.2) (.inr ν))) z = w.1.2 (Indiff.cross (e w.2) z) := by
      intro z; cases z <;> rfl
    rw [this, hcc]
  right_inv w := by
    have hcc := Indiff.cross_cross (hi w.1.2)
    refine Prod.ext (Prod.ext (Prod.ext rfl (funext fun μ => ?_)) rfl) (funext fun ν => ?_)
    · dsimp only; rw [hcc]; rfl
    · dsimp only; rw [hcc]; rfl

/-- requests with a secret, answered by the random output or by anybody -/
theorem prob_apart {X Y M Q K α : Type} [DecidableEq X] [Finite X] [Finite Y] [Nonempty Y] [Finite M] [Finite Q] [Finite K] [Nonempty K]
    (see : List (X × Y) → X → Option M) (e : K → Q → M) (he : ∀ s s' ν ν', e s ν = e s' ν' → s = s' ∧ ν = ν')
    (A : Spec.Algo (X ⊕ Q) Y α) (P : α → Prop) (q : Nat) (hq : ∀ G, Indiff.inls (A.asked G) ≤ q) :
    prob (fun w : ((X → Y) × (M → Y)) × K => P (Spec.simulated see w.1.1 w.1.2 (Indiff.rename (Sum.map id (e w.2)) A) [])) ≤
      prob (fun w : (X → Y) × (M ⊕ Q → Y) => P (Indiff.apart see w.1 (fun μ => w.2 (.inl μ)) (fun ν => w.2 (.inr ν)) A [] []).1) +
        (q : ℚ) / (Nat.card K : ℚ) := by
  have hi : ∀ s, Function.Injective (e s) := fun s a b h => (he _ _ _ _ h).2
  let run := fun w : (X → Y) × (M ⊕ Q → Y) => Indiff.apart see w.1 (fun μ => w.2 (.inl μ)) (fun ν => w.2 (.inr ν)) A [] []
  let bad := fun w : ((X → Y) × (M ⊕ Q → Y)) × K => ∃ μ ∈ (run w.1).2.1, ∃ ν, e w.2 ν = μ
  have h1 := prob_fst (Λ := Q → Y) fun w : ((X → Y) × (M → Y)) × K => P (Spec.simulated see w.1.1 w.1.2 (Indiff.rename (Sum.map id (e w.2)) A) [])
  have h2 := prob_congr (crossing (X := X) (Y := Y) e hi) fun w => P (Spec.simulated see w.1.1.1 w.1.1.2 (Indiff.rename (Sum.map id (e w.1.2)) A) [])
  have h3 : prob (fun w : ((X → Y) × (M ⊕ Q → Y)) × K => P (Spec.simulated see (crossing e hi w).1.1.1 (crossing e hi w).1.1.2
      (Indiff.rename (Sum.map id (e (crossing e hi w).1.2)) A) [])) ≤ prob (fun w => P (run w.1).1 ∨ bad w) := by
    refine prob_mono fun w hw => ?_
    by_cases hb : bad w
    · exact .inr hb
    · refine .inl ?_
      have := Indiff.apart_eq see w.1.1 (fun μ => w.1.2 (Indiff.cross (e w.2) (.inl μ))) (fun μ => w.1.2 (.inl μ)) (fun ν => w.1.2 (.inr ν)) (e w.2)
        (fun μ h => by rw [Indiff.cross_out h])
        (fun ν => by rw [Indiff.cross_in (hi w.2)]) A [] [] (fun μ hμ ν hν => hb ⟨μ, hμ, ν, hν⟩)
      show P (Indiff.apart see w.1.1 (fun μ => w.1.2 (.inl μ)) (fun ν => w.1.2 (.inr ν)) A [] []).1
      rw [← this]
      exact hw
  have h4 := prob_or (fun w : ((X → Y) × (M ⊕ Q → Y)) × K => P (run w.1).1) bad
  have h5 := prob_fst (Λ := K) fun w => P (run w).1
  have h6 : prob bad ≤ (q : ℚ) / (Nat.card K : ℚ) := prob_few bad q fun w =>
    Nat.le_trans (Indiff.card_secrets e (fun s s' ν ν' h => (he _ _ _ _ h).1) (run w).2.1)
      (Indiff.apart_count see w.1 (fun μ => w.2 (.inl μ)) (fun ν => w.2 (.inr ν)) A q hq)
  rw [← h1, ← h2]
  exact le_trans h3 (le_trans h4 (add_le_add (le_of_eq h5) h6))

theorem lefts_map {X Q : Type} (l : List X) : (l.map Sum.inl : List (X ⊕ Q)).filterMap Sum.getLeft? = l ∧
    (l.map Sum.inl : List (X ⊕ Q)).filterMap Sum.getRight? = [] := by
  induction l with
  | nil => exact ⟨rfl, rfl⟩
  | cons x l ih => exact ⟨congrArg _ ih.1, ih.2⟩

section
variable {K : Type} {N N' : Nat} {put : K → Bytes → Bytes}

/-- the request with the secret -/
def putIn (put : K → Bytes → Bytes) (hlen : ∀ s x, x.length ≤ N → (put s x).length ≤ N') (s : K) (w : Spec.Want N) : Spec.Want N' :=
  ⟨(w.1.1, put s w.1.2.1, w.1.2.2), hlen s _ w.2.1, w.2.2⟩

theorem putIn_inj (hput : ∀ s s' x x', put s x = put s' x' → s = s' ∧ x = x') (hlen : ∀ s x, x.length ≤ N → (put s x).length ≤ N')
    {s s' : K} {w w' : Spec.Want N} (h : putIn put hlen s w = putIn put hlen s' w') : s = s' ∧ w = w' := by
  have h := Subtype.mk.inj h
  simp only [Prod.mk.injEq] at h
  obtain ⟨h1, h2, h3⟩ := h
  obtain ⟨rfl, h4⟩ := hput _ _ _ _ h2
  exact ⟨rfl, Subtype.ext (Prod.ext h1 (Prod.ext h4 h3))⟩

theorem inserted_eq (hlen : ∀ s x, x.length ≤ N → (put s x).length ≤ N') (F : Comp) (s : K) :
    inserted (N := N) put F s = fun q => library F (Sum.map id (putIn put hlen s) q) := by
  funext q
  cases q <;> rfl

theorem inserted_le [Finite K] [Nonempty K] (hN : N' < 2 ^ 64) (hput : ∀ s s' x x', put s x = put s' x' → s = s' ∧ x = x')
    (hlen : ∀ s x, x.length ≤ N → (put s x).length ≤ N') {α : Type} (A : Spec.Algo (Spec.Input ⊕ Spec.Want N) Spec.Full α) (P : α → Prop)
    (q t : Nat) (hq : ∀ G, calls (A.asked G) ≤ q) (ht : ∀ G s, putting put s (A.asked G) ≤ t) :
    prob (fun w : Comp × K => P (A.result (inserted put w.1 w.2))) ≤
      prob (fun w : Comp × (Spec.Want N → Spec.Full) => P (A.result (Sum.elim w.1 w.2))) +
        ((q : ℚ) / (Nat.card K : ℚ) + ((3 * (q + t) ^ 2 + (q + t) + (3 * q ^ 2 + q) : Nat) : ℚ) / 2 ^ 257) := by
  let e := fun s => putIn put hlen s
  let A' := fun s => Indiff.rename (Sum.map id (e s)) A
  -- the output is made by the library: replace it by random output
  have h1 : prob (fun w : Comp × K => P (A.result (inserted put w.1 w.2))) ≤
      prob (fun w : (Comp × (Spec.Want N' → Spec.Full)) × K => P (pretended w.1.1 w.1.2 (A' w.2))) +
        ((3 * (q + t) ^ 2 + (q + t) : Nat) : ℚ) / 2 ^ 257 := by
    refine prob_prod_le _ _ _ fun s => ?_
    have h := C83_indifferentiable hN (A' s) P q t
      (fun G => by
        simp only [A', Indiff.rename_asked]
        refine Nat.le_trans (Nat.le_of_eq ?_) (hq fun x => G (Sum.map id (e s) x))
        generalize A.asked _ = l
        simp only [calls]
        induction l with
        | nil => rfl
        | cons x l ih =>
          cases x with
          | inl a => exact congrArg (· + 1) ih
          | inr w => exact ih)
      (fun G => by
        simp only [A', Indiff.rename_asked]
        refine Nat.le_trans (Nat.le_of_eq ?_) (ht (fun x => G (Sum.map id (e s) x)) s)
        generalize A.asked _ = l
        simp only [spent, putting]
        induction l with
        | nil => rfl
        | cons x l ih =>
          cases x with
          | inl a => exact ih
          | inr w => exact congrArg (_ + ·) ih)
    simp only [A', Indiff.rename_result] at h
    simp only [inserted_eq hlen]
    have := (abs_le.1 h).2
    simp only [A', e] at this ⊢
    linarith
  -- the requests with the secret may be answered by anybody
  let T := Spec.Want N' ⊕ Spec.Want N → Spec.Full
  have h2 : prob (fun w : (Comp × (Spec.Want N' → Spec.Full)) × K => P (pretended w.1.1 w.1.2 (A' w.2))) ≤
      prob (fun w : Comp × T => P (Indiff.apart (Spec.seen N') w.1 (fun μ => w.2 (.inl μ)) (fun ν => w.2 (.inr ν)) A [] []).1) +
        (q : ℚ) / (Nat.card K : ℚ) := by
    exact prob_apart (Spec.seen N') e (fun s s' ν ν' h => putIn_inj hput hlen h) A P q hq
  -- back from the simulator to the compressions
  have h3 : prob (fun w : Comp × T => P (Indiff.apart (Spec.seen N') w.1 (fun μ => w.2 (.inl μ)) (fun ν => w.2 (.inr ν)) A [] []).1) ≤
      prob (fun w : Comp × (Spec.Want N → Spec.Full) => P (A.result (Sum.elim w.1 w.2))) + ((3 * q ^ 2 + q : Nat) : ℚ) / 2 ^ 257 := by
    let ex : (Comp × (Spec.Want N' → Spec.Full)) × (Spec.Want N → Spec.Full) ≃ Comp × T :=
      ⟨fun w => (w.1.1, Sum.elim w.1.2 w.2), fun w => ((w.1, fun μ => w.2 (.inl μ)), fun ν => w.2 (.inr ν)), fun _ => rfl,
        fun w => Prod.ext rfl (Sum.elim_comp_inl_inr w.2)⟩
    rw [← prob_congr ex]
    refine prob_prod_le _ _ _ fun S => ?_
    have h := C83_indifferentiable hN (Indiff.settle S A) P q 0
      (fun G => by
        rw [Indiff.settle_asked]
        rw [calls, (lefts_map _).1]
        exact hq (Sum.elim (fun x => G (.inl x)) S))
      (fun G => by
        rw [Indiff.settle_asked, spent, (lefts_map _).2]
        exact Nat.le_refl _)
    have := (abs_le.1 h).1
    simp only [Indiff.settle_result] at this
    simp only [ex, Indiff.apart_settle, Nat.add_zero] at this ⊢
    show prob (fun w : Comp × (Spec.Want N' → Spec.Full) => P (pretended w.1 w.2 (Indiff.settle S A))) ≤ _
    have e : (fun F : Comp => P (A.result (Sum.elim (fun x => library (N := N') F (.inl x)) S))) = fun F => P (A.result (Sum.elim F S)) := rfl
    rw [e] at this
    linarith
  rw [Nat.cast_add, add_div]
  linarith

/-- C84.  To an attacker, the holder of a random secret who puts it into the inputs is like somebody who answers every request with 64
random bytes.  In the first probability the compression function and the secret are random, in the second the compression function and
all answers are.  `P` is whatever the attacker may find out.  The attacker asks for `q` compressions, and the holder performs `t`. -/
theorem C84_secret [Finite K] [Nonempty K] (hN : N' < 2 ^ 64) (hput : ∀ s s' x x', put s x = put s' x' → s = s' ∧ x = x')
    (hlen : ∀ s x, x.length ≤ N → (put s x).length ≤ N') {α : Type} (A : Spec.Algo (Spec.Input ⊕ Spec.Want N) Spec.Full α) (P : α → Prop)
    (q t : Nat) (hq : ∀ G, calls (A.asked G) ≤ q) (ht : ∀ G s, putting put s (A.asked G) ≤ t) :
    |prob (fun w : Comp × K => P (A.result (inserted put w.1 w.2))) -
      prob (fun w : Comp × (Spec.Want N → Spec.Full) => P (A.result (Sum.elim w.1 w.2)))| ≤
    (q : ℚ) / (Nat.card K : ℚ) + ((3 * (q + t) ^ 2 + (q + t) + (3 * q ^ 2 + q) : Nat) : ℚ) / 2 ^ 257 := by
  have h1 := inserted_le hN hput hlen A P q t hq ht
  have h2 := inserted_le hN hput hlen A (fun a => ¬ P a) q t hq ht
  rw [prob_not, prob_not (fun w : Comp × (Spec.Want N → Spec.Full) => P (A.result (Sum.elim w.1 w.2)))] at h2
  rw [abs_le]
  constructor <;> linarith

/-- C84.  The attacker names a mode, an input and 32 bytes.  The probability that they are the hash of this input with the secret put
into it, although the attacker has not requested block 0 of it, is hardly more than 1 / 2^256.  So nothing follows for an extension of an
input from the hash of the input. -/
theorem C84_mac [Finite K] [Nonempty K] (hN : N' < 2 ^ 64) (hput : ∀ s s' x x', put s x = put s' x' → s = s' ∧ x = x')
    (hlen : ∀ s x, x.length ≤ N → (put s x).length ≤ N')
    (A : Spec.Algo (Spec.Input ⊕ Spec.Want N) Spec.Full ((Spec.Mode × { x : Bytes // x.length ≤ N }) × Vector Byte 32)) (q t : Nat)
    (hq : ∀ G, calls (A.asked G) ≤ q)
    (ht : ∀ G s, putting put s (A.asked G) + Spec.compressions (put s (A.result G).1.2.1).length ≤ t) :
    prob (fun w : Comp × K =>
      .inr (blockZero (A.result (inserted put w.1 w.2)).1) ∉ A.asked (inserted put w.1 w.2) ∧
      hashWith w.1 (A.result (inserted put w.1 w.2)).1.1 (put w.2 (A.result (inserted put w.1 w.2)).1.2.1) = (A.result (inserted put w.1 w.2)).2) ≤
    1 / 2 ^ 256 + ((q : ℚ) / (Nat.card K : ℚ) + ((3 * (q + t) ^ 2 + (q + t) + (3 * q ^ 2 + q) : Nat) : ℚ) / 2 ^ 257) := by
  let B : Spec.Algo (Spec.Input ⊕ Spec.Want N) Spec.Full Prop := logged A >>= fun p =>
    .ask (.inr (blockZero p.1.1)) fun y => .done (.inr (blockZero p.1.1) ∉ p.2 ∧ Spec.cvBytes y.1 = p.1.2)
  have hB : ∀ G, B.result G = (.inr (blockZero (A.result G).1) ∉ A.asked G ∧ Spec.cvBytes (G (.inr (blockZero (A.result G).1))).1 = (A.result G).2) ∧
      B.asked G = A.asked G ++ [.inr (blockZero (A.result G).1)] := by
    intro G
    obtain ⟨e1, e2⟩ := logged_eq G A
    simp only [B]
    rw [Gen.result_bind, Gen.asked_bind, e1, e2]
    exact ⟨rfl, rfl⟩
  have h := inserted_le hN hput hlen B id q t
    (fun G => by
      rw [(hB G).2, calls, List.filterMap_append]
      simp only [List.filterMap_cons, Sum.getLeft?, List.filterMap_nil, List.append_nil]
      exact hq G)
    (fun G s => by
      rw [(hB G).2, putting, List.filterMap_append]
      simp only [List.filterMap_cons, Sum.getRight?, List.filterMap_nil, List.map_append, List.sum_append, List.map_cons, List.map_nil,
        List.sum_cons, List.sum_nil, Nat.add_zero]
      exact ht G s)
  simp only [id, fun G => (hB G).1] at h
  have hv : ∀ w : Comp × K, Spec.cvBytes (inserted put w.1 w.2 (.inr (blockZero (A.result (inserted put w.1 w.2)).1))).1 =
      hashWith w.1 (A.result (inserted put w.1 w.2)).1.1 (put w.2 (A.result (inserted put w.1 w.2)).1.2.1) := fun w => (C82_answer w.1 _ _ 0).2.symm
  simp only [hv] at h
  refine le_trans h (add_le_add_left ?_ _)
  -- a guess of a random answer
  have hc := count_guess (fun y : Spec.Full => y.1) (fun y z => (z, y.2)) (fun _ _ => rfl) (fun _ => rfl) (fun _ _ _ => rfl)
    (A >>= fun a => .done ((.inr (blockZero a.1) : Spec.Input ⊕ Spec.Want N), words_from_key_bytes a.2))
  simp only [Gen.result_bind, Gen.asked_bind, Spec.Algo.result, Spec.Algo.asked, List.append_nil] at hc
  have hle : Nat.card { G : Spec.Input ⊕ Spec.Want N → Spec.Full // .inr (blockZero (A.result G).1) ∉ A.asked G } ≤
      Nat.card (Spec.Input ⊕ Spec.Want N → Spec.Full) := Nat.card_le_card_of_injective _ Subtype.val_injective
  rw [← hc, card_words] at hle
  have hw : ∀ (y : Vector Word 8) (v : Vector Byte 32), Spec.cvBytes y = v ↔ y = words_from_key_bytes v := by
    intro y v
    constructor
    · rintro rfl; rw [← bytes_from_state_words_eq, C34_words_roundtrip]
    · rintro rfl; rw [← bytes_from_state_words_eq, C34_key_roundtrip]
  simp only [hw]
  have p2 : (0 : ℚ) < (Nat.card (Spec.Input ⊕ Spec.Want N → Spec.Full) : ℚ) := prob_pos
  have hx := prob_congr (Equiv.sumArrowEquivProdArrow Spec.Input (Spec.Want N) Spec.Full).symm fun G =>
    .inr (blockZero (A.result G).1) ∉ A.asked G ∧ (G (.inr (blockZero (A.result G).1))).1 = words_from_key_bytes (A.result G).2
  refine le_trans (le_of_eq hx) ?_
  rw [prob, div_le_div_iff₀ p2 (by positivity), one_mul]
  exact_mod_cast hle

end

/-! ## examples -/

/-- 32 secret bytes before the input -/
def before (s : Vector Byte 32) (x : Bytes) : Bytes := s.toList ++ x

theorem before_inj (s s' : Vector Byte 32) (x x' : Bytes) (h : before s x = before s' x') : s = s' ∧ x = x' := by
  obtain ⟨h1, h2⟩ := List.append_inj h (by rw [Vector.length_toList, Vector.length_toList])
  exact ⟨Vector.toList_inj.1 h1, h2⟩

theorem before_length (s : Vector Byte 32) (x : Bytes) : (before s x).length = x.length + 32 := by
  rw [before, List.length_append, Vector.length_toList, Nat.add_comm]

/-- with 2^80 compressions on either side: differences below 1 / 2^93, whatever the requests -/
example {N : Nat} (hN : N + 32 < 2 ^ 64) {α : Type} (A : Spec.Algo (Spec.Input ⊕ Spec.Want N) Spec.Full α) (P : α → Prop)
    (hq : ∀ G, calls (A.asked G) ≤ 2 ^ 80) (ht : ∀ G s, putting before s (A.asked G) ≤ 2 ^ 80) :
    |prob (fun w : Comp × Vector Byte 32 => P (A.result (inserted before w.1 w.2))) -
      prob (fun w : Comp × (Spec.Want N → Spec.Full) => P (A.result (Sum.elim w.1 w.2)))| ≤ 1 / 2 ^ 93 := by
  refine le_trans (C84_secret hN before_inj (fun s x h => by rw [before_length]; omega) A P _ _ hq ht) ?_
  rw [card_key]
  norm_num

/-- the secret behind the input -/
example (s s' : Vector Byte 32) (x x' : Bytes) (h : x ++ s.toList = x' ++ s'.toList) : s = s' ∧ x = x' := by
  obtain ⟨h1, h2⟩ := List.append_inj' h (by rw [Vector.length_toList, Vector.length_toList])
  exact ⟨Vector.toList_inj.1 h2, h1⟩

/-- An attacker who requests the hash for 32 bytes, and continues from there as if it were a chaining value: the extension that works
against functions that end with a chaining value. -/
def exExtend : Spec.Algo (Spec.Input ⊕ Spec.Want 4096) Spec.Full ((Spec.Mode × { x : Bytes // x.length ≤ 4096 }) × Vector Byte 32) :=
  .ask (.inr ⟨(.hash, List.replicate 32 1, 0), by rw [List.length_replicate]; decide, Nat.two_pow_pos 58⟩) fun y =>
  .ask (.inl { cv := y.1, block := Spec.pad [7], blockLen := 1, offset := 0, flags := Spec.chunkEnd ||| Spec.rootFlag }) fun z =>
  .done ((.hash, ⟨List.replicate 32 1 ++ [7], by decide⟩), Spec.cvBytes z.1)

example : prob (fun w : Comp × Vector Byte 32 =>
      .inr (blockZero (exExtend.result (inserted before w.1 w.2)).1) ∉ exExtend.asked (inserted before w.1 w.2) ∧
      hashWith w.1 (exExtend.result (inserted before w.1 w.2)).1.1 (before w.2 (exExtend.result (inserted before w.1 w.2)).1.2.1) =
        (exExtend.result (inserted before w.1 w.2)).2) ≤ 1 / 2 ^ 249 := by
  refine le_trans (C84_mac (N' := 5000) (by decide) before_inj (fun s x h => by rw [before_length]; omega) exExtend 1 3 (fun G => Nat.le_refl 1)
    (fun G s => by
      show Spec.compressions (before s (List.replicate 32 1)).length + 0 + Spec.compressions (before s (List.replicate 32 1 ++ [7])).length ≤ 3
      rw [before_length, before_length]
      decide)) ?_
  rw [card_key]
  norm_num

end Baokeshed.Props
