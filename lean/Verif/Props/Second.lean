import Verif.Props.Ideal
import Verif.Props.Secret
import Verif.Proofs.Caught
import Mathlib.Tactic.Ring
import Mathlib.Data.Finite.Sigma

/-!
# C85: second preimages, and many targets

The compression function is a black box as in C81.
-/

set_option linter.unusedVariables false

namespace Baokeshed.Props
open Baokeshed.Model Baokeshed.Proofs

attribute [local irreducible] Spec.compress Spec.outBytes Spec.cvBytes Spec.pad

theorem sum_min (c q : Nat) : 2 * ∑ i ∈ Finset.range (c + q), min i c * 2 ^ 256 = (c * (c - 1) + 2 * q * c) * 2 ^ 256 := by
  rw [← Finset.sum_mul, ← Nat.mul_assoc]
  congr 1
  induction q with
  | zero =>
    rw [Nat.add_zero, Finset.sum_congr rfl fun i hi => Nat.min_eq_left (Nat.le_of_lt (Finset.mem_range.1 hi)), Nat.mul_comm,
      Finset.sum_range_id_mul_two]
    omega
  | succ q ih =>
    rw [← Nat.add_assoc, Finset.sum_range_succ, Nat.mul_add, ih, Nat.min_eq_right (by omega)]
    ring

/-- C85.  An attacker is given an input (with its mode and key) and wants another with the same hash.  `c`: the compressions of the given
input.  `q`: the questions of the attacker and those for hashing the input that is named in the end.  The attacker succeeds for at most
`q c + c (c - 1) / 2` of every 2^256 functions; for a short input that is about `q`, not `q²`. -/
theorem C85_second (m : Spec.Mode) (x : Bytes) (A : Spec.Asking (Spec.Mode × Bytes)) (q : Nat)
    (hq : ∀ F, (A.asked F).length + ((Spec.hashAsk (A.result F).1 (A.result F).2).asked F).length ≤ q) :
    2 * (Nat.card { F : Comp // A.result F ≠ (m, x) ∧ hashWith F (A.result F).1 (A.result F).2 = hashWith F m x } * 2 ^ 256) ≤
    (Spec.compressions x.length * (Spec.compressions x.length - 1) + 2 * q * Spec.compressions x.length) * Nat.card Comp := by
  classical
  generalize hc : Spec.compressions x.length = c
  have hx : ∀ F, ((Spec.hashAsk m x).asked F).length = c := fun F => by rw [← hc]; exact C81_questions F m x
  let B : Spec.Asking (Vector Byte 32) := Spec.hashAsk m x >>= fun _ => A >>= fun p => Spec.hashAsk p.1 p.2
  have hB : ∀ F, B.asked F = (Spec.hashAsk m x).asked F ++ (A.asked F ++ (Spec.hashAsk (A.result F).1 (A.result F).2).asked F) := by
    intro F
    simp only [B, Gen.asked_bind]
  -- an answer is caught if it repeats one of the answers for the given input
  let hit : List (Spec.Input × Spec.Full) → Spec.Input → Spec.Full → Prop := fun h a y => ∃ p ∈ h.take c, p.2.1 = y.1
  have h := count_caught_all hit (fun i => min i c * 2 ^ 256) (fun h a => by
      obtain ⟨V, hV, hm⟩ := card_low ((h.take c).map fun p => p.2.1).toFinset
      have h1 : Nat.card { y // hit h a y } ≤ V.card := by
        rw [← Nat.card_eq_finsetCard]
        exact Nat.card_le_card_of_injective (fun y => ⟨y.1, hm y.1 (by
          obtain ⟨p, hp, e⟩ := y.2
          rw [List.mem_toFinset, List.mem_map]
          exact ⟨p, hp, e⟩)⟩) fun a b e => Subtype.ext (Subtype.mk.inj e)
      refine Nat.le_trans h1 ?_
      rw [hV]
      refine Nat.mul_le_mul_right _ (Nat.le_trans (List.toFinset_card_le _) ?_)
      rw [List.length_map, List.length_take, Nat.min_comm]) B (c + q) (fun F => by
        rw [hB, List.length_append, List.length_append, hx]
        have := hq F
        omega)
  have hsub : Nat.card { F : Comp // A.result F ≠ (m, x) ∧ hashWith F (A.result F).1 (A.result F).2 = hashWith F m x } ≤
      Nat.card { F : Comp // Caught hit F B [] } := by
    refine Nat.card_le_card_of_injective (fun F => ⟨F.1, ?_⟩) fun a b e => Subtype.ext (Subtype.mk.inj e)
    obtain ⟨F, hne, he⟩ := F
    dsimp only
    rcases Gen.hash_inj _ _ _ _ he with ⟨h1, h2⟩ | ⟨b, hb, a, ha, hab, e⟩
    · exact absurd (Prod.ext h1 h2) hne
    by_contra hn
    have key := fun l1 l2 z he hz => not_caught B [] hn l1 l2 z (Nat.zero_le _) he hz
    rw [List.nil_append, hB] at key
    have hX := hx F
    generalize (Spec.hashAsk m x).asked F = X at *
    generalize (Spec.hashAsk (A.result F).1 (A.result F).2).asked F = Y at *
    -- `z` comes after `w`, which is one of the first
    have step : ∀ w z, w ∈ X → w ≠ z → (F w).1 = (F z).1 → z ∈ X ++ (A.asked F ++ Y) →
        (∀ u v, X = u ++ z :: v → z ∉ u → w ∈ u) → False := by
      intro w z hw hwz hF hz hord
      obtain ⟨l1, l2, hl, hnot⟩ := List.eq_append_cons_of_mem hz
      refine key l1 l2 z hl hnot ?_
      refine ⟨(w, F w), ?_, hF⟩
      rw [← List.map_take, List.mem_map]
      refine ⟨w, ?_, rfl⟩
      by_cases hle : l1.length < c
      · have : ∃ v, X = l1 ++ z :: v := by
          rw [← hX] at hle
          have := congrArg (List.take X.length) hl
          rw [List.take_left] at this
          rw [this, List.take_append, List.take_of_length_le (Nat.le_of_lt hle)]
          obtain ⟨n, hn⟩ : ∃ n, X.length - l1.length = n + 1 := ⟨X.length - l1.length - 1, by omega⟩
          rw [hn, List.take_succ_cons]
          exact ⟨_, rfl⟩
        obtain ⟨v, hv⟩ := this
        rw [List.take_of_length_le (Nat.le_of_lt hle)]
        exact hord l1 v hv hnot
      · have : l1.take c = X := by
          have := congrArg (List.take c) hl
          rw [← hX, List.take_left, List.take_append_of_le_length (by rw [hX]; omega)] at this
          rw [← hX]
          exact this.symm
        rw [this]
        exact hw
    by_cases haX : b ∈ X
    · -- both belong to the given input: the later one
      obtain ⟨u, v, hu, hnu⟩ := List.eq_append_cons_of_mem haX
      by_cases hau : a ∈ u
      · refine step a b ha hab.symm e.symm (List.mem_append_left _ haX) fun u' v' hu' hn' => ?_
        have : u' = u := by
          rcases List.append_eq_append_iff.1 (hu'.symm.trans hu) with ⟨t, h1, h2⟩ | ⟨t, h1, h2⟩
          · cases t with
            | nil => rw [h1, List.append_nil]
            | cons y t =>
              rw [List.cons_append] at h2
              obtain ⟨rfl, -⟩ := List.cons.inj h2
              exact absurd (by rw [h1]; simp) hnu
          · cases t with
            | nil => rw [h1, List.append_nil]
            | cons y t =>
              rw [List.cons_append] at h2
              obtain ⟨rfl, -⟩ := List.cons.inj h2
              exact absurd (by rw [h1]; simp) hn'
        rw [this]
        exact hau
      · refine step b a haX hab e (List.mem_append_left _ ha) fun u' v' hu' hn' => ?_
        rcases List.append_eq_append_iff.1 (hu'.symm.trans hu) with ⟨t, h1, h2⟩ | ⟨t, h1, h2⟩
        · cases t with
          | nil =>
            rw [List.nil_append] at h2
            exact absurd (List.cons.inj h2).1.symm hab
          | cons y t =>
            rw [List.cons_append] at h2
            obtain ⟨rfl, -⟩ := List.cons.inj h2
            exact absurd (by rw [h1]; simp) hau
        · cases t with
          | nil =>
            rw [List.nil_append] at h2
            exact absurd (List.cons.inj h2).1 hab
          | cons y t =>
            rw [List.cons_append] at h2
            obtain ⟨rfl, -⟩ := List.cons.inj h2
            rw [h1]; simp
    · refine step a b ha hab.symm e.symm (by simp [hb]) fun u v hu hn => ?_
      exact absurd (by rw [hu]; simp) haX
  have h := Nat.mul_le_mul_left 2 (Nat.le_trans (Nat.mul_le_mul_right _ hsub) h)
  rw [card_full, ← Nat.mul_assoc 2 (∑ i ∈ _, _), sum_min, ← Nat.mul_assoc _ (2 ^ 256) (2 ^ 256), ← Nat.mul_assoc 2, Nat.mul_right_comm _ (2 ^ 256) (Nat.card _)] at h
  exact Nat.le_of_mul_le_mul_right h (by decide)

/-- C85.  With many targets: an attacker who wants an input, in any mode and with any key, whose hash is one of the values in `D` finds one
for at most `q |D|` of every 2^256 functions. -/
theorem C85_targets (D : Finset (Vector Byte 32)) (A : Spec.Asking (Spec.Mode × Bytes)) (q : Nat)
    (hq : ∀ F, (A.asked F).length + ((Spec.hashAsk (A.result F).1 (A.result F).2).asked F).length ≤ q) :
    Nat.card { F : Comp // hashWith F (A.result F).1 (A.result F).2 ∈ D } * 2 ^ 256 ≤ q * D.card * Nat.card Comp := by
  classical
  have h : Nat.card { F : Comp // hashWith F (A.result F).1 (A.result F).2 ∈ D } ≤
      ∑ d ∈ D, Nat.card { F : Comp // hashWith F (A.result F).1 (A.result F).2 = d } := by
    rw [← Finset.sum_coe_sort, ← Nat.card_sigma]
    exact Nat.card_le_card_of_injective (fun F => (⟨⟨_, F.2⟩, F.1, rfl⟩ : (d : D) × { F : Comp // hashWith F (A.result F).1 (A.result F).2 = d }))
      fun a b e => by
        obtain ⟨a, ha⟩ := a
        obtain ⟨b, hb⟩ := b
        simp only [Sigma.mk.injEq, Subtype.mk.injEq] at e
        obtain ⟨e1, e2⟩ := e
        refine Subtype.ext ?_
        have := (Subtype.heq_iff_coe_eq (by intro F; rw [e1])).1 e2
        exact this
  refine Nat.le_trans (Nat.mul_le_mul_right _ h) ?_
  rw [Finset.sum_mul]
  refine Nat.le_trans (Finset.sum_le_sum fun d _ => C81_preimage d A q hq) ?_
  rw [Finset.sum_const, smul_eq_mul, ← Nat.mul_assoc, Nat.mul_comm D.card]

/-! ## examples -/

/-- an attacker who asks one question and makes an input of the answer -/
def exSecond : Spec.Asking (Spec.Mode × Bytes) :=
  .ask (Spec.parent (Vector.replicate 8 1) 0 (Vector.replicate 8 2) (Vector.replicate 8 3)) fun y =>
    .done (.keyedHash (Spec.cvBytes y.2), (Spec.cvBytes y.1).toList ++ List.replicate 100 7)

example (F : Comp) : (exSecond.asked F).length + ((Spec.hashAsk (exSecond.result F).1 (exSecond.result F).2).asked F).length ≤ 4 := by
  rw [C81_questions]
  simp only [exSecond, Spec.Algo.asked, Spec.Algo.result, List.length_cons, List.length_nil, List.length_append,
    List.length_replicate, Vector.length_toList]
  decide

/-- For an input of at most 64 bytes and 2^200 questions: fewer than one of every 2^56 functions.  The bound for collisions says nothing
about so many questions. -/
example (m : Spec.Mode) (x : Bytes) (hx : x.length ≤ 64) (A : Spec.Asking (Spec.Mode × Bytes))
    (hq : ∀ F, (A.asked F).length + ((Spec.hashAsk (A.result F).1 (A.result F).2).asked F).length ≤ 2 ^ 200) :
    Nat.card { F : Comp // A.result F ≠ (m, x) ∧ hashWith F (A.result F).1 (A.result F).2 = hashWith F m x } * 2 ^ 56 ≤ Nat.card Comp := by
  have h := C85_second m x A (2 ^ 200) hq
  have hc : Spec.compressions x.length = 1 := by
    rw [Spec.compressions]
    omega
  rw [hc] at h
  generalize Nat.card { F : Comp // A.result F ≠ (m, x) ∧ hashWith F (A.result F).1 (A.result F).2 = hashWith F m x } = b at *
  generalize Nat.card Comp = n at *
  have e : 2 * (b * 2 ^ 256) = 2 * 2 ^ 200 * (b * 2 ^ 56) := by
    rw [show (2 : Nat) ^ 256 = 2 ^ 200 * 2 ^ 56 from rfl, Nat.mul_left_comm b, Nat.mul_assoc]
  rw [e, Nat.sub_self, Nat.mul_zero, Nat.zero_add, Nat.mul_one] at h
  exact Nat.le_of_mul_le_mul_left h (by decide)

/-- An input of 2 GiB, 2^20 chunks, has 33 · 2^20 - 1 compressions. -/
example : Spec.compressions (2 ^ 31) = 33 * 2 ^ 20 - 1 := by decide

end Baokeshed.Props
