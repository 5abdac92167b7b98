import Verif.Props.Verify
import Verif.Props.Second

/-!
# C95: shortened hashes, and other parts of the output

The compression function is a black box as in C81.  Users keep the first `n` bytes of a hash, or of a later block of the output.
-/

set_option linter.unusedVariables false
set_option exponentiation.threshold 600

namespace Baokeshed.Props
open Baokeshed.Model Baokeshed.Proofs

attribute [local irreducible] Spec.compress Spec.outBytes Spec.cvBytes Spec.pad

/-- What is named: mode with key, input, and the number of a block of the output.  The numbers are those below 2^58, the output has
2^64 bytes. -/
abbrev Place := Spec.Mode × Bytes × Fin (2 ^ 58)

/-- the first `n` bytes of the block -/
def Place.part (n : Nat) (F : Comp) (p : Place) : Bytes := (blockWith F p.1 p.2.1 p.2.2.val).toList.take n

/-- the compressions for the block -/
def Place.cost (p : Place) : Nat := Spec.compressions p.2.1.length

/-! ## answers that start with given bytes -/

theorem firstBytes_get (n : Nat) (hn : n ≤ 64) (y : Spec.Full) (i : Nat) (hi : i < n) :
    (firstBytes n hn y)[i] = (fullBytes y)[i] := Vector.getElem_ofFn hi

def fiberEquiv (n : Nat) (hn : n ≤ 64) (z : Vector Byte n) : { y : Spec.Full // firstBytes n hn y = z } ≃ Vector Byte (64 - n) where
  toFun y := Vector.ofFn fun i : Fin (64 - n) => (fullBytes y.1)[n + i.val]
  invFun w := ⟨ofBytes (Vector.ofFn fun i : Fin 64 => if h : i.val < n then z[i.val] else w[i.val - n]), by
    refine Vector.ext fun i hi => ?_
    rw [firstBytes_get, fullBytes_ofBytes, Vector.getElem_ofFn, dif_pos hi]⟩
  left_inv y := by
    refine Subtype.ext (Eq.trans (congrArg ofBytes ?_) (ofBytes_fullBytes y.1))
    refine Vector.ext fun i hi => ?_
    rw [Vector.getElem_ofFn]
    dsimp only
    split
    · next h =>
      have := y.2
      have hg := firstBytes_get n hn y.1 i h
      simp only [this] at hg
      exact hg
    · next h =>
      rw [Vector.getElem_ofFn]
      congr 1
      show n + (i - n) = i
      omega
  right_inv w := by
    refine Vector.ext fun i hi => ?_
    rw [Vector.getElem_ofFn]
    dsimp only
    rw [fullBytes_ofBytes, Vector.getElem_ofFn, dif_neg (by simp)]
    congr 1
    show n + i - n = i
    omega

open Classical in
/-- answers whose first bytes are in a given set -/
theorem card_start (n : Nat) (hn : n ≤ 64) (S : Finset (Vector Byte n)) :
    ∃ B : Finset Spec.Full, B.card ≤ S.card * 2 ^ (8 * (64 - n)) ∧ ∀ y : Spec.Full, firstBytes n hn y ∈ S → y ∈ B := by
  have := Fintype.ofFinite Spec.Full
  refine ⟨Finset.univ.filter fun y => firstBytes n hn y ∈ S, ?_, fun y hy => Finset.mem_filter.2 ⟨Finset.mem_univ _, hy⟩⟩
  rw [Nat.mul_comm]
  refine Finset.card_le_mul_card_image_of_maps_to (f := firstBytes n hn) (fun y hy => (Finset.mem_filter.1 hy).2) _ fun z hz => ?_
  refine Nat.le_trans (Finset.card_le_card (t := Finset.univ.filter fun y => firstBytes n hn y = z) fun y hy => ?_) ?_
  · exact Finset.mem_filter.2 ⟨Finset.mem_univ _, (Finset.mem_filter.1 hy).2⟩
  · rw [← Fintype.card_subtype, ← Nat.card_eq_fintype_card, Nat.card_congr (fiberEquiv n hn z), card_bytes]

theorem card_full_bytes (n : Nat) (hn : n ≤ 64) : Nat.card Spec.Full = 2 ^ (8 * (64 - n)) * 2 ^ (8 * n) := by
  rw [card_full, ← Nat.pow_add, ← Nat.pow_add]
  congr 1
  omega

/-! ## the last question -/

/-- the last question for a place -/
def Place.last (F : Comp) (p : Place) : Spec.Input := Gen.rootAt (Gen.low F) p.1 p.2.1 p.2.2.val

/-- the others -/
def Place.others (F : Comp) (p : Place) : List Spec.Input := G.inner (Gen.low F) p.1 p.2.1

theorem place_asked (F : Comp) (p : Place) : (Spec.blockAsk p.1 p.2.1 p.2.2.val).asked F = p.others F ++ [p.last F] :=
  (Gen.block_asks F _ _ _).2

theorem place_part (n : Nat) (hn : n ≤ 64) (F : Comp) (p : Place) : p.part n F = (firstBytes n hn (F (p.last F))).toList := by
  rw [Place.part, blockWith, (Gen.block_asks F _ _ _).1]
  apply List.ext_getElem
  · rw [List.length_take, Vector.length_toList, Vector.length_toList]
    omega
  · intro i h1 h2
    have hi : i < n := by rwa [Vector.length_toList] at h2
    rw [List.getElem_take, Vector.getElem_toList, Vector.getElem_toList, firstBytes_get]
    rfl

theorem place_cost (F : Comp) (p : Place) : ((Spec.blockAsk p.1 p.2.1 p.2.2.val).asked F).length = p.cost := by
  have h := C81_questions F p.1 p.2.1
  rw [(Gen.hash_asks F _ _).2, List.length_append] at h
  rw [place_asked, List.length_append]
  exact h

/-- the same last question: the same place, or two questions with the same chaining value as answer -/
theorem last_inj (F : Comp) (p p' : Place) (h : p.last F = p'.last F) : p = p' ∨ Gen.Coll (Gen.low F) (p.others F) (p'.others F) := by
  obtain ⟨m, x, k, hk⟩ := p
  obtain ⟨m', x', k', hk'⟩ := p'
  have h1 : G.root (Gen.low F) m x = G.root (Gen.low F) m' x' := by
    rw [← Gen.root_at_zero, ← Gen.root_at_zero]
    exact congrArg (fun n : Spec.Input => { n with offset := BitVec.ofNat 64 (64 * 0) }) h
  have h2 : BitVec.ofNat 64 (64 * k) = BitVec.ofNat 64 (64 * k') := congrArg Spec.Input.offset h
  have h3 : k = k' := by
    have := congrArg BitVec.toNat h2
    rw [BitVec.toNat_ofNat, BitVec.toNat_ofNat, Nat.mod_eq_of_lt (by omega), Nat.mod_eq_of_lt (by omega)] at this
    omega
  subst h3
  rcases Gen.root_inj _ _ _ _ h1 with ⟨rfl, rfl⟩ | h
  · exact .inl rfl
  · exact .inr h

/-! ## collisions -/

theorem first_of_low (n : Nat) (hn : n ≤ 32) (y y' : Spec.Full) (h : y.1 = y'.1) : firstBytes n (by omega) y = firstBytes n (by omega) y' := by
  refine Vector.ext fun i hi => ?_
  rw [firstBytes_get, firstBytes_get, fullBytes, fullBytes, Vector.getElem_append_left (by omega), Vector.getElem_append_left (by omega), h]

theorem collision_le (n : Nat) (hn : n ≤ 32) (A : Spec.Asking (Place × Place)) (q : Nat)
    (hq : ∀ F, (A.asked F).length + (A.result F).1.cost + (A.result F).2.cost ≤ q) :
    2 * (Nat.card { F : Comp // (A.result F).1 ≠ (A.result F).2 ∧ (A.result F).1.part n F = (A.result F).2.part n F } * 2 ^ (8 * n)) ≤
    q * (q - 1) * Nat.card Comp := by
  classical
  have hn' : n ≤ 64 := by omega
  let B : Spec.Asking (Vector Byte 64) := A >>= fun p =>
    Spec.blockAsk p.1.1 p.1.2.1 p.1.2.2.val >>= fun _ => Spec.blockAsk p.2.1 p.2.2.1 p.2.2.2.val
  have hB : ∀ F, B.asked F = A.asked F ++ (((A.result F).1.others F ++ [(A.result F).1.last F]) ++
      ((A.result F).2.others F ++ [(A.result F).2.last F])) := by
    intro F
    simp only [B, Gen.asked_bind, place_asked]
  have h := count_all (fun (F : Comp) S => ∃ a ∈ S, ∃ b ∈ S, a ≠ b ∧ firstBytes n hn' (F a) = firstBytes n hn' (F b))
    (fun i => i * 2 ^ (8 * (64 - n)))
    (fun F F' S h => by
      rintro ⟨a, ha, b, hb, hne, e⟩
      exact ⟨a, ha, b, hb, hne, by rw [← h a ha, ← h b hb]; exact e⟩)
    (fun F => by rintro ⟨a, ha, -⟩; exact absurd ha (Finset.notMem_empty a))
    (fun F S x hx hF => by
      obtain ⟨V, hV, hm⟩ := card_start n hn' (S.image fun a => firstBytes n hn' (F a))
      refine ⟨V, Nat.le_trans hV (Nat.mul_le_mul_right _ Finset.card_image_le), ?_⟩
      rintro y ⟨a, ha, b, hb, hne, e⟩
      apply hm
      rw [Finset.mem_image]
      rcases Finset.mem_insert.1 ha with rfl | ha' <;> rcases Finset.mem_insert.1 hb with rfl | hb'
      · exact absurd rfl hne
      · rw [Function.update_self, Function.update_of_ne hne.symm] at e
        exact ⟨b, hb', e.symm⟩
      · rw [Function.update_self, Function.update_of_ne hne] at e
        exact ⟨a, ha', e⟩
      · have hax : a ≠ x := fun h => hx (h ▸ ha')
        have hbx : b ≠ x := fun h => hx (h ▸ hb')
        rw [Function.update_of_ne hax, Function.update_of_ne hbx] at e
        exact absurd ⟨a, ha', b, hb', hne, e⟩ hF)
    B q (fun F => by
      have := hq F
      rw [← place_cost F, ← place_cost F, place_asked, place_asked] at this
      rw [hB, List.length_append, List.length_append]
      omega)
    (fun F => (A.result F).1 ≠ (A.result F).2 ∧ (A.result F).1.part n F = (A.result F).2.part n F)
    (fun F hF => by
      by_cases hl : (A.result F).1.last F = (A.result F).2.last F
      · rcases last_inj F _ _ hl with h | ⟨a, ha, b, hb, hne, e⟩
        · exact absurd h hF.1
        · refine ⟨a, ?_, b, ?_, hne, first_of_low n hn _ _ e⟩ <;> rw [List.mem_toFinset, hB] <;> simp [ha, hb]
      · have e := hF.2
        rw [place_part n hn', place_part n hn', Vector.toList_inj] at e
        refine ⟨_, ?_, _, ?_, hl, e⟩ <;> rw [List.mem_toFinset, hB] <;> simp)
  rw [card_full_bytes n hn', ← Finset.sum_mul, ← Nat.mul_assoc, Nat.mul_right_comm _ (2 ^ (8 * (64 - n))) (2 ^ (8 * n)),
    Nat.mul_right_comm (∑ i ∈ Finset.range q, i)] at h
  have h := Nat.le_of_mul_le_mul_right h (Nat.two_pow_pos _)
  have hs := Finset.sum_range_id_mul_two q
  calc 2 * (_ * 2 ^ (8 * n)) ≤ 2 * ((∑ i ∈ Finset.range q, i) * Nat.card Comp) := Nat.mul_le_mul_left 2 h
    _ = q * (q - 1) * Nat.card Comp := by rw [← hs, ← Nat.mul_assoc, Nat.mul_comm 2]

/-- C95.  An attacker asks questions and names two places: two inputs with modes and keys, and a block of the output of each.  If the
attacker's questions and those for the two blocks are at most `q`, then the places differ and their first `n` bytes are the same with
probability at most `q (q - 1) / 2` over 2^(8 n).  More than 32 bytes do not give more than 32 bytes do: the chaining values in the
tree have 32 bytes. -/
theorem C95_collision (n : Nat) (A : Spec.Asking (Place × Place)) (q : Nat)
    (hq : ∀ F, (A.asked F).length + (A.result F).1.cost + (A.result F).2.cost ≤ q) :
    prob (fun F : Comp => (A.result F).1 ≠ (A.result F).2 ∧ (A.result F).1.part n F = (A.result F).2.part n F) ≤
      (q * (q - 1) : Nat) / (2 * 2 ^ (8 * min n 32)) := by
  refine le_trans (prob_mono _ (fun F : Comp => (A.result F).1 ≠ (A.result F).2 ∧
    (A.result F).1.part (min n 32) F = (A.result F).2.part (min n 32) F) ?_) ?_
  · rintro F ⟨h1, h2⟩
    refine ⟨h1, ?_⟩
    have := congrArg (List.take 32) h2
    rw [Place.part, Place.part, List.take_take, List.take_take, Nat.min_comm] at this
    exact this
  · have h := collision_le (min n 32) (Nat.min_le_right _ _) A q hq
    have p : (0 : ℚ) < (Nat.card Comp : ℚ) := by exact_mod_cast Nat.card_pos
    rw [prob, div_le_div_iff₀ p (by positivity)]
    have h : ((2 * (Nat.card { F : Comp // (A.result F).1 ≠ (A.result F).2 ∧
        (A.result F).1.part (min n 32) F = (A.result F).2.part (min n 32) F } * 2 ^ (8 * min n 32)) : Nat) : ℚ) ≤
      ((q * (q - 1) * Nat.card Comp : Nat) : ℚ) := Nat.cast_le.2 h
    refine le_trans (le_of_eq ?_) (le_trans h (le_of_eq ?_))
    · push_cast
      ring
    · rw [Nat.cast_mul]

/-! ## preimages -/

/-- C95.  An attacker who wants a place whose first `n` bytes are one of the values in `D` finds one with probability at most `q |D|`
over 2^(8 n), here for any `n` up to 64. -/
theorem C95_targets (n : Nat) (hn : n ≤ 64) (D : Finset (Vector Byte n)) (A : Spec.Asking Place) (q : Nat)
    (hq : ∀ F, (A.asked F).length + (A.result F).cost ≤ q) :
    prob (fun F : Comp => ∃ d ∈ D, (A.result F).part n F = d.toList) ≤ q * D.card / 2 ^ (8 * n) := by
  classical
  let B : Spec.Asking (Vector Byte 64) := A >>= fun p => Spec.blockAsk p.1 p.2.1 p.2.2.val
  have hB : ∀ F, B.asked F = A.asked F ++ ((A.result F).others F ++ [(A.result F).last F]) := by
    intro F
    simp only [B, Gen.asked_bind, place_asked]
  have h := count_all (fun (F : Comp) S => ∃ a ∈ S, firstBytes n hn (F a) ∈ D) (fun _ => D.card * 2 ^ (8 * (64 - n)))
    (fun F F' S h => by
      rintro ⟨a, ha, e⟩
      exact ⟨a, ha, by rw [← h a ha]; exact e⟩)
    (fun F => by rintro ⟨a, ha, -⟩; exact absurd ha (Finset.notMem_empty a))
    (fun F S x hx hF => by
      obtain ⟨V, hV, hm⟩ := card_start n hn D
      refine ⟨V, hV, ?_⟩
      rintro y ⟨a, ha, e⟩
      apply hm
      rcases Finset.mem_insert.1 ha with rfl | ha'
      · rwa [Function.update_self] at e
      · have hax : a ≠ x := fun h => hx (h ▸ ha')
        rw [Function.update_of_ne hax] at e
        exact absurd ⟨a, ha', e⟩ hF)
    B q (fun F => by
      have := hq F
      rw [← place_cost F, place_asked] at this
      rw [hB, List.length_append]
      omega)
    (fun F => ∃ d ∈ D, (A.result F).part n F = d.toList)
    (fun F hF => by
      obtain ⟨d, hd, e⟩ := hF
      rw [place_part n hn, Vector.toList_inj] at e
      refine ⟨(A.result F).last F, ?_, by rw [e]; exact hd⟩
      rw [List.mem_toFinset, hB]
      simp)
  rw [card_full_bytes n hn, Finset.sum_const, Finset.card_range, smul_eq_mul, ← Nat.mul_assoc, ← Nat.mul_assoc, Nat.mul_right_comm _ (2 ^ (8 * (64 - n))) (2 ^ (8 * n)),
    Nat.mul_right_comm (q * D.card)] at h
  have h := Nat.le_of_mul_le_mul_right h (Nat.two_pow_pos _)
  have p : (0 : ℚ) < (Nat.card Comp : ℚ) := by exact_mod_cast Nat.card_pos
  rw [prob, div_le_div_iff₀ p (by positivity)]
  exact_mod_cast h

/-- C95.  With one target. -/
theorem C95_preimage (n : Nat) (hn : n ≤ 64) (d : Vector Byte n) (A : Spec.Asking Place) (q : Nat)
    (hq : ∀ F, (A.asked F).length + (A.result F).cost ≤ q) :
    prob (fun F : Comp => (A.result F).part n F = d.toList) ≤ q / 2 ^ (8 * n) := by
  have h := C95_targets n hn {d} A q hq
  simp only [Finset.mem_singleton, exists_eq_left, Finset.card_singleton, Nat.cast_one, mul_one] at h
  exact h

/-! ## second preimages -/

/-- of two elements of a list, one comes after the other -/
theorem one_later {α : Type} {X R : List α} {a b : α} (ha : a ∈ X) (hb : b ∈ X ++ R) (hab : a ≠ b) :
    ∃ l1 z l2 w, X ++ R = l1 ++ z :: l2 ∧ z ∉ l1 ∧ w ∈ l1.take X.length ∧ ((w = a ∧ z = b) ∨ (w = b ∧ z = a)) := by
  obtain ⟨u, v, hu, hnu⟩ := List.eq_append_cons_of_mem ha
  obtain ⟨s, t, hs, hns⟩ := List.eq_append_cons_of_mem hb
  by_cases h : a ∈ s
  · refine ⟨s, b, t, a, hs, hns, ?_, .inl ⟨rfl, rfl⟩⟩
    rcases Nat.le_total s.length X.length with hl | hl
    · rwa [List.take_of_length_le hl]
    · have := congrArg (List.take X.length) hs
      rw [List.take_left, List.take_append_of_le_length hl] at this
      rwa [← this]
  · refine ⟨u, a, v ++ R, b, by rw [hu, List.append_assoc, List.cons_append], hnu, ?_, .inr ⟨rfl, rfl⟩⟩
    rw [List.take_of_length_le (by rw [hu, List.length_append]; omega)]
    rw [hu, List.append_assoc, List.cons_append] at hs
    rcases List.append_eq_append_iff.1 hs with ⟨r, h1, h2⟩ | ⟨r, h1, h2⟩
    · cases r with
      | nil => exact absurd (List.cons.inj h2).1 hab
      | cons y r =>
        rw [List.cons_append] at h2
        exact absurd (by rw [h1, (List.cons.inj h2).1]; simp) h
    · cases r with
      | nil => exact absurd (List.cons.inj h2).1.symm hab
      | cons y r =>
        rw [List.cons_append] at h2
        rw [h1, (List.cons.inj h2).1]
        simp

/-- the last question for one place is not among the others for another place -/
theorem last_new (F : Comp) (p p' : Place) : p.last F ∉ p'.others F := by
  intro h
  have h1 := Gen.below_flags (Gen.low F) (modeFlag p'.1) p'.1.key p'.2.1 0 _ h
  rw [Place.last, Gen.rootAt, G.root] at h1
  dsimp only at h1
  generalize (G.subtree (Gen.low F) p.1.key p.1.flag 0 p.2.1).flags = b at h1
  have h2 : (b ||| Spec.rootFlag) &&& 8 = 8 := by
    ext i hi
    simp only [BitVec.getElem_and, BitVec.getElem_or, Spec.rootFlag]
    cases b[i] <;> simp
  rw [h2] at h1
  exact absurd h1 (by decide)

theorem sum_second (d q e : Nat) : 2 * ∑ i ∈ Finset.range (d + 1 + q), (min i d * 2 ^ 256 + if d < i then e else 0) =
    d * (d + 1 + 2 * q) * 2 ^ 256 + 2 * q * e := by
  rw [Finset.sum_add_distrib, Nat.mul_add, Nat.add_assoc d 1 q, sum_min]
  refine congrArg₂ (· + ·) ?_ ?_
  · refine congrArg (· * 2 ^ 256) ?_
    cases d with
    | zero => simp
    | succ d => rw [Nat.add_sub_cancel]; ring
  · rw [Nat.mul_assoc]
    refine congrArg (2 * ·) ?_
    rw [← Nat.add_assoc]
    induction q with
    | zero =>
      rw [Nat.add_zero, Nat.zero_mul]
      exact Finset.sum_eq_zero fun i hi => if_neg (by have := Finset.mem_range.1 hi; omega)
    | succ q ih => rw [← Nat.add_assoc, Finset.sum_range_succ, ih, if_pos (by omega), Nat.add_mul, Nat.one_mul]

/-- C95.  An attacker is given a place and wants another one with the same first `n` bytes.  `c`: the compressions for the given place.
`q`: the questions of the attacker and those for the place that is named in the end.  The probability is at most `q` over 2^(8 n) and what
comes from collisions with the `c - 1` chaining values in the tree of the given input: nothing for an input of one block. -/
theorem C95_second (n : Nat) (hn : n ≤ 64) (p : Place) (A : Spec.Asking Place) (q : Nat)
    (hq : ∀ F, (A.asked F).length + (A.result F).cost ≤ q) :
    prob (fun F : Comp => A.result F ≠ p ∧ (A.result F).part n F = p.part n F) ≤
      q / 2 ^ (8 * n) + ((p.cost - 1) * (p.cost + 2 * q) : Nat) / 2 ^ 257 := by
  classical
  obtain ⟨d, hd⟩ : ∃ d, p.cost = d + 1 := ⟨p.cost - 1, by
    have := place_cost (fun _ => default) p
    rw [place_asked, List.length_append, List.length_singleton] at this
    omega⟩
  have hx : ∀ F, (p.others F).length = d := fun F => by
    have := place_cost F p
    rw [place_asked, List.length_append, List.length_singleton] at this
    omega
  let B : Spec.Asking (Vector Byte 64) := Spec.blockAsk p.1 p.2.1 p.2.2.val >>= fun _ => A >>= fun p => Spec.blockAsk p.1 p.2.1 p.2.2.val
  have hB : ∀ F, B.asked F = p.others F ++ (p.last F :: (A.asked F ++ ((A.result F).others F ++ [(A.result F).last F]))) := by
    intro F
    simp only [B, Gen.asked_bind, place_asked, List.append_assoc, List.singleton_append]
  -- an answer is caught if it repeats a chaining value of the given input, or the bytes of the given place
  let hit : List (Spec.Input × Spec.Full) → Spec.Input → Spec.Full → Prop := fun h a y =>
    (∃ p ∈ h.take d, p.2.1 = y.1) ∨ ∃ p, h[d]? = some p ∧ firstBytes n hn p.2 = firstBytes n hn y
  have h := count_caught_all hit (fun i => min i d * 2 ^ 256 + if d < i then 2 ^ (8 * (64 - n)) else 0) (fun h a => by
      obtain ⟨V, hV, hm⟩ := card_low ((h.take d).map fun p => p.2.1).toFinset
      obtain ⟨W, hW, hw⟩ := card_start n hn (h[d]?.map fun p => firstBytes n hn p.2).toFinset
      have h1 : Nat.card { y // hit h a y } ≤ (V ∪ W).card := by
        rw [← Nat.card_eq_finsetCard]
        refine Nat.card_le_card_of_injective (fun y => ⟨y.1, ?_⟩) fun a b e => Subtype.ext (Subtype.mk.inj e)
        rw [Finset.mem_union]
        rcases y.2 with ⟨p, hp, e⟩ | ⟨p, hp, e⟩
        · refine .inl (hm _ ?_)
          rw [List.mem_toFinset, List.mem_map]
          exact ⟨p, hp, e⟩
        · refine .inr (hw _ ?_)
          rw [hp, Option.map_some, e]
          simp
      refine Nat.le_trans h1 (Nat.le_trans (Finset.card_union_le _ _) (Nat.add_le_add ?_ ?_))
      · rw [hV]
        refine Nat.mul_le_mul_right _ (Nat.le_trans (List.toFinset_card_le _) ?_)
        rw [List.length_map, List.length_take, Nat.min_comm]
      · refine Nat.le_trans hW ?_
        split
        · next hl =>
          rw [List.getElem?_eq_getElem hl]
          simp
        · next hl =>
          rw [List.getElem?_eq_none (by omega)]
          simp) B (d + 1 + q) (fun F => by
        have h1 := hq F
        rw [← place_cost F, place_asked] at h1
        rw [hB, List.length_append, List.length_cons, List.length_append, hx]
        omega)
  have hsub : Nat.card { F : Comp // A.result F ≠ p ∧ (A.result F).part n F = p.part n F } ≤ Nat.card { F : Comp // Caught hit F B [] } := by
    refine Nat.card_le_card_of_injective (fun F => ⟨F.1, ?_⟩) fun a b e => Subtype.ext (Subtype.mk.inj e)
    obtain ⟨F, hne, he⟩ := F
    dsimp only
    by_contra hnc
    have key := fun l1 l2 z he hz => not_caught B [] hnc l1 l2 z (Nat.zero_le _) he hz
    rw [List.nil_append, hB] at key
    by_cases hl : (A.result F).last F = p.last F
    · rcases last_inj F _ _ hl with h | ⟨b, hb, a, ha, hab, e⟩
      · exact hne h
      · obtain ⟨l1, z, l2, w, h1, h2, h3, h4⟩ := one_later (R := p.last F :: (A.asked F ++ ((A.result F).others F ++ [(A.result F).last F])))
          ha (by simp [hb] : b ∈ _) hab.symm
        refine key l1 l2 z h1 h2 (.inl ⟨(w, F w), ?_, ?_⟩)
        · rw [← List.map_take, List.mem_map, ← hx F]
          exact ⟨w, h3, rfl⟩
        · rcases h4 with ⟨rfl, rfl⟩ | ⟨rfl, rfl⟩
          · exact e.symm
          · exact e
    · rw [place_part n hn, place_part n hn, Vector.toList_inj] at he
      have hz : (A.result F).last F ∈ A.asked F ++ ((A.result F).others F ++ [(A.result F).last F]) := by simp
      obtain ⟨s, t, hs, hns⟩ := List.eq_append_cons_of_mem hz
      refine key (p.others F ++ (p.last F :: s)) t ((A.result F).last F) (by rw [hs]; simp) ?_ (.inr ⟨(p.last F, F (p.last F)), ?_, he.symm⟩)
      · rw [List.mem_append, List.mem_cons]
        rintro (h | h | h)
        · exact last_new F _ _ h
        · exact hl h
        · exact hns h
      · rw [List.map_append, List.getElem?_append_right (by rw [List.length_map, hx]), List.length_map, hx, Nat.sub_self]
        rfl
  have h := Nat.mul_le_mul_left 2 (Nat.le_trans (Nat.mul_le_mul_right _ hsub) h)
  rw [← Nat.mul_assoc 2 (∑ i ∈ _, _), sum_second] at h
  have pc : (0 : ℚ) < (Nat.card Comp : ℚ) := by exact_mod_cast Nat.card_pos
  have hf : (Nat.card Spec.Full : ℚ) = 2 ^ 512 := by rw [card_full]; norm_num
  have hf' : (2 : ℚ) ^ (8 * (64 - n)) * 2 ^ (8 * n) = 2 ^ 512 := by
    rw [← pow_add]
    congr 1
    omega
  have h : ((2 * (Nat.card { F : Comp // A.result F ≠ p ∧ (A.result F).part n F = p.part n F } * Nat.card Spec.Full) : Nat) : ℚ) ≤
    (((d * (d + 1 + 2 * q) * 2 ^ 256 + 2 * q * 2 ^ (8 * (64 - n))) * Nat.card Comp : Nat) : ℚ) := Nat.cast_le.2 h
  rw [prob, div_le_iff₀ pc, hd, Nat.add_sub_cancel]
  generalize Nat.card { F : Comp // A.result F ≠ p ∧ (A.result F).part n F = p.part n F } = b at *
  generalize Nat.card Comp = N at *
  push_cast at h ⊢
  rw [hf] at h
  have hn0 : (0 : ℚ) < 2 ^ (8 * n) := by positivity
  have e1 : (2 : ℚ) ^ (8 * (64 - n)) = 2 ^ 512 / 2 ^ (8 * n) := by rw [eq_div_iff hn0.ne', hf']
  rw [e1] at h
  refine le_of_mul_le_mul_left (a := 2 * 2 ^ 512) ?_ (by positivity)
  refine le_trans (le_of_eq ?_) (le_trans h (le_of_eq ?_))
  · ring
  · ring

/-! ## the library -/

/-- C95.  With the compression function itself, the first `n` bytes of block `k` are those of the read that the library performs after
`k` other reads. -/
theorem C95_library (n : Nat) (cfg : Config) (hv : cfg.Valid) (m : Spec.Mode) (x : Bytes) (hf : cfg.Fits x.length) (prof : Profile)
    (k : Fin (2 ^ 58)) (hk : k.val < 2 ^ 58 - 1) :
    ∃ o bs o' b o'', oneShotXof cfg m x = .ok o ∧ o.readMany prof k.val = .ok (bs, o') ∧ o'.read prof = .ok (b, o'') ∧
      b.toList.take n = Place.part n realComp (m, x, k) := by
  obtain ⟨o, e, -, ho⟩ := oneShotXof_eq cfg m x hv hf
  obtain ⟨o', h, h', -⟩ := (OutAt.zero ho).readMany prof k.val (Or.inr (by omega))
  rw [Nat.zero_add] at h'
  refine ⟨o, _, o', _, _, e, h, h'.read prof (Or.inr hk), ?_⟩
  rw [Place.part, C81_stream]

/-- C95.  Up to 32 bytes of block 0 are the first bytes of the hash, whichever way the library is called. -/
theorem C95_library_hash (n : Nat) (hn : n ≤ 32) (m : Spec.Mode) (w : How) (hw : w.Ok) :
    ∃ h, (w.digest m).res = .ok h ∧ h.take n = Place.part n realComp (m, w.bytes, 0) := by
  refine ⟨_, (C81_code m w hw).1, ?_⟩
  rw [Place.part, (C82_answer realComp m w.bytes _).1, (C82_answer realComp m w.bytes 0).2, Vector.toList_append,
    List.take_append_of_le_length (by rw [Vector.length_toList]; exact hn)]
  rfl

/-! ## examples -/

/-- an attacker who asks one question and makes two inputs of the answer -/
def exPlaces : Spec.Asking (Place × Place) :=
  .ask (Spec.parent (Vector.replicate 8 1) 0 (Vector.replicate 8 2) (Vector.replicate 8 3)) fun y =>
    .done ((.keyedHash (Spec.cvBytes y.2), (Spec.cvBytes y.1).toList ++ List.replicate 100 7, 5), (.hash, (Spec.cvBytes y.2).toList, 0))

example (F : Comp) : (exPlaces.asked F).length + (exPlaces.result F).1.cost + (exPlaces.result F).2.cost ≤ 5 := by
  simp only [exPlaces, Spec.Algo.asked, Spec.Algo.result, Place.cost, List.length_cons, List.length_nil, List.length_append,
    List.length_replicate, Vector.length_toList]
  decide

/-- The event is not empty: this attacker succeeds if all answers are the same. -/
example (n : Nat) (y : Spec.Full) : (exPlaces.result fun _ => y).1 ≠ (exPlaces.result fun _ => y).2 ∧
    (exPlaces.result fun _ => y).1.part n (fun _ => y) = (exPlaces.result fun _ => y).2.part n fun _ => y := by
  constructor
  · intro h
    exact absurd (congrArg (fun p : Place => p.2.2.val) h) (by decide : (5 : Nat) ≠ 0)
  · rw [Place.part, Place.part, (C82_answer _ _ _ _).1, (C82_answer _ _ _ _).1, wordsWith, wordsWith, Gen.result_bind, Gen.result_bind]
    rfl

/-- 20 bytes, as with SHA-1: with 2^60 questions, collisions have a probability below 1 / 2^40. -/
example (A : Spec.Asking (Place × Place)) (hq : ∀ F, (A.asked F).length + (A.result F).1.cost + (A.result F).2.cost ≤ 2 ^ 60) :
    prob (fun F : Comp => (A.result F).1 ≠ (A.result F).2 ∧ (A.result F).1.part 20 F = (A.result F).2.part 20 F) ≤ 1 / 2 ^ 40 := by
  refine le_trans (C95_collision 20 A _ hq) ?_
  norm_num

/-- 16 bytes of an input of at most 64 bytes: with 2^80 questions, another place with the same bytes is found with probability at most
1 / 2^48. -/
example (p : Place) (hp : p.2.1.length ≤ 64) (A : Spec.Asking Place) (hq : ∀ F, (A.asked F).length + (A.result F).cost ≤ 2 ^ 80) :
    prob (fun F : Comp => A.result F ≠ p ∧ (A.result F).part 16 F = p.part 16 F) ≤ 1 / 2 ^ 48 := by
  have hc : p.cost = 1 := by
    rw [Place.cost, Spec.compressions]
    omega
  refine le_trans (C95_second 16 (by decide) p A _ hq) ?_
  rw [hc]
  norm_num

/-- a table of a million values of 16 bytes -/
example (D : Finset (Vector Byte 16)) (hD : D.card = 10 ^ 6) (A : Spec.Asking Place) (hq : ∀ F, (A.asked F).length + (A.result F).cost ≤ 2 ^ 64) :
    prob (fun F : Comp => ∃ d ∈ D, (A.result F).part 16 F = d.toList) ≤ 1 / 2 ^ 44 := by
  refine le_trans (C95_targets 16 (by decide) D A _ hq) ?_
  rw [hD]
  norm_num

end Baokeshed.Props
