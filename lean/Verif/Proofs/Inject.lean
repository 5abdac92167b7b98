import Verif.Spec
import Verif.Spec64

/-! # The rounds are a permutation of the state -/

namespace Baokeshed.Proofs

theorem rotateRight_inj {w r : Nat} (hr : r < w) {x y : BitVec w} (h : x.rotateRight r = y.rotateRight r) : x = y := by
  apply BitVec.eq_of_getLsbD_eq
  intro j hj
  by_cases c : r ≤ j
  · have := congrArg (fun z => z.getLsbD (j - r)) h
    simp only [BitVec.getLsbD_rotateRight_of_lt hr] at this
    have t : decide (j - r < w - r) = true := decide_eq_true (by omega)
    rw [t, cond_true, cond_true] at this
    rwa [show r + (j - r) = j by omega] at this
  · have := congrArg (fun z => z.getLsbD (w - r + j)) h
    simp only [BitVec.getLsbD_rotateRight_of_lt hr] at this
    have t : decide (w - r + j < w - r) = false := decide_eq_false (by omega)
    rw [t, cond_false, cond_false, show w - r + j - (w - r) = j by omega] at this
    simpa [show w - r + j < w by omega] using this

theorem xor_right_inj {w : Nat} {x y z : BitVec w} (h : x ^^^ z = y ^^^ z) : x = y := by
  have := congrArg (· ^^^ z) h
  simpa [BitVec.xor_assoc] using this

theorem add_right_inj' {w : Nat} {x y z : BitVec w} (h : x + z = y + z) : x = y := by
  have := congrArg (· - z) h
  simpa [BitVec.add_sub_cancel] using this

theorem foldl_inj {α β : Type} (f : α → β → α) (l : List β) (hf : ∀ r s t, f s r = f t r → s = t) (s t : α)
    (h : l.foldl f s = l.foldl f t) : s = t := by
  induction l generalizing s t with
  | nil => exact h
  | cons r l ih => exact hf r s t (ih _ _ h)

/-! ## 32 bits -/
namespace Inj
open Spec

theorem mix_inj {a b c d a' b' c' d' x y : Word} (h : mix a b c d x y = mix a' b' c' d' x y) :
    a = a' ∧ b = b' ∧ c = c' ∧ d = d' := by
  unfold mix at h
  simp only [Prod.mk.injEq] at h
  obtain ⟨h1, h2, h3, h4⟩ := h
  rw [h3] at h2
  have b1 := xor_right_inj (rotateRight_inj (by decide) h2)
  rw [h4] at h3
  have c1 := add_right_inj' h3
  rw [h1] at h4
  have d1 := xor_right_inj (rotateRight_inj (by decide) h4)
  have a1 := add_right_inj' h1
  rw [b1] at a1
  have a1 := add_right_inj' a1
  rw [c1] at b1
  have b0 := xor_right_inj (rotateRight_inj (by decide) b1)
  rw [d1] at c1
  have c0 := add_right_inj' c1
  rw [a1] at d1
  have d0 := xor_right_inj (rotateRight_inj (by decide) d1)
  rw [b0] at a1
  exact ⟨add_right_inj' (add_right_inj' a1), b0, c0, d0⟩

theorem matrix_ext' {s t : Matrix} (ha : ∀ i, s.a i = t.a i) (hb : ∀ i, s.b i = t.b i) (hc : ∀ i, s.c i = t.c i)
    (hd : ∀ i, s.d i = t.d i) : s = t := by
  cases s; cases t; congr <;> funext i
  · exact ha i
  · exact hb i
  · exact hc i
  · exact hd i

theorem mixColumns_inj {s t : Matrix} {x y : Fin 4 → Word} (h : mixColumns s x y = mixColumns t x y) : s = t := by
  have k : ∀ i, s.a i = t.a i ∧ s.b i = t.b i ∧ s.c i = t.c i ∧ s.d i = t.d i := by
    intro i
    apply mix_inj (x := x i) (y := y i)
    refine Prod.ext (congrFun (congrArg Matrix.a h) i) (Prod.ext (congrFun (congrArg Matrix.b h) i)
      (Prod.ext (congrFun (congrArg Matrix.c h) i) (congrFun (congrArg Matrix.d h) i)))
  exact matrix_ext' (fun i => (k i).1) (fun i => (k i).2.1) (fun i => (k i).2.2.1) (fun i => (k i).2.2.2)

theorem rotateRows_inj {s t : Matrix} (h : rotateRows s = rotateRows t) : s = t := by
  refine matrix_ext' (fun i => congrFun (congrArg Matrix.a h) i) (fun i => ?_) (fun i => ?_) (fun i => ?_)
  · have := congrFun (congrArg Matrix.b h) (i - 1)
    simpa only [rotateRows, show i - 1 + 1 = i by clear this; revert i; decide] using this
  · have := congrFun (congrArg Matrix.c h) (i - 2)
    simpa only [rotateRows, show i - 2 + 2 = i by clear this; revert i; decide] using this
  · have := congrFun (congrArg Matrix.d h) (i - 3)
    simpa only [rotateRows, show i - 3 + 3 = i by clear this; revert i; decide] using this

theorem unrotateRows_inj {s t : Matrix} (h : unrotateRows s = unrotateRows t) : s = t := by
  refine matrix_ext' (fun i => congrFun (congrArg Matrix.a h) i) (fun i => ?_) (fun i => ?_) (fun i => ?_)
  · have := congrFun (congrArg Matrix.b h) (i + 1)
    simpa only [unrotateRows, show i + 1 - 1 = i by clear this; revert i; decide] using this
  · have := congrFun (congrArg Matrix.c h) (i + 2)
    simpa only [unrotateRows, show i + 2 - 2 = i by clear this; revert i; decide] using this
  · have := congrFun (congrArg Matrix.d h) (i + 3)
    simpa only [unrotateRows, show i + 3 - 3 = i by clear this; revert i; decide] using this

theorem round_inj (p : Vector (Fin 16) 16) (msg : Fin 16 → Word) {s t : Matrix} (h : round p msg s = round p msg t) :
    s = t :=
  mixColumns_inj (rotateRows_inj (mixColumns_inj (unrotateRows_inj h)))

theorem permuted_inj {m n : Input} (hb : m.block = n.block) (h : permuted m = permuted n) : initial m = initial n := by
  unfold permuted at h
  rw [hb] at h
  exact foldl_inj _ _ (fun r s t => round_inj (sigma r) (blockWord n.block)) _ _ h

theorem setWidth_inj {x y : Byte} (h : x.setWidth 32 = y.setWidth 32) : x = y := by
  have := congrArg (BitVec.setWidth 8) h
  simpa using this

theorem offset_inj {x y : U64} (h0 : x.extractLsb' 0 32 = y.extractLsb' 0 32)
    (h1 : x.extractLsb' 32 32 = y.extractLsb' 32 32) : x = y := by
  apply BitVec.eq_of_getLsbD_eq
  intro i hi
  by_cases c : i < 32
  · have := congrArg (fun z => z.getLsbD i) h0
    simpa [c] using this
  · have := congrArg (fun z => z.getLsbD (i - 32)) h1
    simpa [show i - 32 < 32 by omega, show 32 + (i - 32) = i by omega] using this

theorem initial_inj {m n : Input} (h : initial m = initial n) (hb : m.block = n.block) : m = n := by
  have d0 := congrFun (congrArg Matrix.d h) 0
  have d1 := congrFun (congrArg Matrix.d h) 1
  have d2 := congrFun (congrArg Matrix.d h) 2
  have d3 := congrFun (congrArg Matrix.d h) 3
  have hcv : m.cv = n.cv := by
    apply Vector.ext
    intro i hi
    by_cases c : i < 4
    · exact congrFun (congrArg Matrix.a h) ⟨i, c⟩
    · have := congrFun (congrArg Matrix.b h) ⟨i - 4, by omega⟩
      simpa [initial, show 4 + (i - 4) = i by omega] using this
  have ho := offset_inj d0 d1
  have hl := setWidth_inj d2
  have hf := setWidth_inj d3
  cases m; cases n
  simp_all

theorem word_inj {v w : Word} (h0 : v.extractLsb' 0 8 = w.extractLsb' 0 8) (h1 : v.extractLsb' 8 8 = w.extractLsb' 8 8)
    (h2 : v.extractLsb' 16 8 = w.extractLsb' 16 8) (h3 : v.extractLsb' 24 8 = w.extractLsb' 24 8) : v = w := by
  apply BitVec.eq_of_getLsbD_eq
  intro i hi
  have a : i < 8 ∨ (8 ≤ i ∧ i < 16) ∨ (16 ≤ i ∧ i < 24) ∨ (24 ≤ i ∧ i < 32) := by omega
  rcases a with a | a | a | a
  · have := congrArg (fun z => z.getLsbD i) h0
    simpa [a] using this
  · have := congrArg (fun z => z.getLsbD (i - 8)) h1
    simpa [show i - 8 < 8 by omega, show 8 + (i - 8) = i by omega] using this
  · have := congrArg (fun z => z.getLsbD (i - 16)) h2
    simpa [show i - 16 < 8 by omega, show 16 + (i - 16) = i by omega] using this
  · have := congrArg (fun z => z.getLsbD (i - 24)) h3
    simpa [show i - 24 < 8 by omega, show 24 + (i - 24) = i by omega] using this

theorem wordBytes_inj {v w : List Word} (h : wordBytes v = wordBytes w) : v = w := by
  induction v generalizing w with
  | nil =>
    cases w with
    | nil => rfl
    | cons _ _ => simp [wordBytes, List.flatMap_cons] at h
  | cons a v ih =>
    cases w with
    | nil => simp [wordBytes, List.flatMap_cons] at h
    | cons b w =>
      have e : ∀ (x : Word) l, wordBytes (x :: l) = x.extractLsb' 0 8 :: x.extractLsb' 8 8 :: x.extractLsb' 16 8 ::
        x.extractLsb' 24 8 :: wordBytes l := fun _ _ => rfl
      rw [e, e] at h
      injection h with h0 h
      injection h with h1 h
      injection h with h2 h
      injection h with h3 h
      rw [word_inj h0 h1 h2 h3, ih h]

/-- The 64 bytes computed by a compression determine its other inputs, given the chaining value and the block. -/
theorem outBytes_inj {m n : Input} (hcv : m.cv = n.cv) (hb : m.block = n.block) (h : outBytes m = outBytes n) :
    m = n := by
  have hw : (outLow m).toList ++ (outHigh m).toList = (outLow n).toList ++ (outHigh n).toList := by
    apply wordBytes_inj
    have := congrArg Vector.toList h
    exact this
  obtain ⟨hl, hh⟩ := List.append_inj hw (by simp)
  have hl : outLow m = outLow n := Vector.toList_inj.1 hl
  have hh : outHigh m = outHigh n := Vector.toList_inj.1 hh
  have gl : ∀ i (hi : i < 8), (outLow m)[i] = (outLow n)[i] := fun i hi => by rw [hl]
  have gh : ∀ i (hi : i < 8), (outHigh m)[i] = (outHigh n)[i] := fun i hi => by rw [hh]
  have hc : ∀ i, (permuted m).c i = (permuted n).c i := by
    intro i
    have := gh i.val (by omega)
    simp only [outHigh, Vector.getElem_ofFn, i.isLt, dif_pos, Fin.eta, hcv] at this
    exact xor_right_inj this
  have hd : ∀ i, (permuted m).d i = (permuted n).d i := by
    intro i
    have := gh (i.val + 4) (by omega)
    simp only [outHigh, Vector.getElem_ofFn, show ¬ i.val + 4 < 4 by omega, dif_neg, not_false_eq_true,
      Nat.add_sub_cancel, Fin.eta, hcv] at this
    exact xor_right_inj this
  have ha : ∀ i, (permuted m).a i = (permuted n).a i := by
    intro i
    have := gl i.val (by omega)
    simp only [outLow, Vector.getElem_ofFn, i.isLt, dif_pos, Fin.eta, hc] at this
    exact xor_right_inj this
  have hb' : ∀ i, (permuted m).b i = (permuted n).b i := by
    intro i
    have := gl (i.val + 4) (by omega)
    simp only [outLow, Vector.getElem_ofFn, show ¬ i.val + 4 < 4 by omega, dif_neg, not_false_eq_true,
      Nat.add_sub_cancel, Fin.eta, hd] at this
    exact xor_right_inj this
  exact initial_inj (permuted_inj hb (matrix_ext' ha hb' hc hd)) hb

end Inj

/-! ## 64 bits -/
namespace Inj64
open Spec64

theorem mix_inj {a b c d a' b' c' d' x y : U64} (h : mix a b c d x y = mix a' b' c' d' x y) :
    a = a' ∧ b = b' ∧ c = c' ∧ d = d' := by
  unfold mix at h
  simp only [Prod.mk.injEq] at h
  obtain ⟨h1, h2, h3, h4⟩ := h
  rw [h3] at h2
  have b1 := xor_right_inj (rotateRight_inj (by decide) h2)
  rw [h4] at h3
  have c1 := add_right_inj' h3
  rw [h1] at h4
  have d1 := xor_right_inj (rotateRight_inj (by decide) h4)
  have a1 := add_right_inj' h1
  rw [b1] at a1
  have a1 := add_right_inj' a1
  rw [c1] at b1
  have b0 := xor_right_inj (rotateRight_inj (by decide) b1)
  rw [d1] at c1
  have c0 := add_right_inj' c1
  rw [a1] at d1
  have d0 := xor_right_inj (rotateRight_inj (by decide) d1)
  rw [b0] at a1
  exact ⟨add_right_inj' (add_right_inj' a1), b0, c0, d0⟩

theorem matrix_ext' {s t : Matrix} (ha : ∀ i, s.a i = t.a i) (hb : ∀ i, s.b i = t.b i) (hc : ∀ i, s.c i = t.c i)
    (hd : ∀ i, s.d i = t.d i) : s = t := by
  cases s; cases t; congr <;> funext i
  · exact ha i
  · exact hb i
  · exact hc i
  · exact hd i

theorem mixColumns_inj {s t : Matrix} {x y : Fin 4 → U64} (h : mixColumns s x y = mixColumns t x y) : s = t := by
  have k : ∀ i, s.a i = t.a i ∧ s.b i = t.b i ∧ s.c i = t.c i ∧ s.d i = t.d i := by
    intro i
    apply mix_inj (x := x i) (y := y i)
    refine Prod.ext (congrFun (congrArg Matrix.a h) i) (Prod.ext (congrFun (congrArg Matrix.b h) i)
      (Prod.ext (congrFun (congrArg Matrix.c h) i) (congrFun (congrArg Matrix.d h) i)))
  exact matrix_ext' (fun i => (k i).1) (fun i => (k i).2.1) (fun i => (k i).2.2.1) (fun i => (k i).2.2.2)

theorem rotateRows_inj {s t : Matrix} (h : rotateRows s = rotateRows t) : s = t := by
  refine matrix_ext' (fun i => congrFun (congrArg Matrix.a h) i) (fun i => ?_) (fun i => ?_) (fun i => ?_)
  · have := congrFun (congrArg Matrix.b h) (i - 1)
    simpa only [rotateRows, show i - 1 + 1 = i by clear this; revert i; decide] using this
  · have := congrFun (congrArg Matrix.c h) (i - 2)
    simpa only [rotateRows, show i - 2 + 2 = i by clear this; revert i; decide] using this
  · have := congrFun (congrArg Matrix.d h) (i - 3)
    simpa only [rotateRows, show i - 3 + 3 = i by clear this; revert i; decide] using this

theorem unrotateRows_inj {s t : Matrix} (h : unrotateRows s = unrotateRows t) : s = t := by
  refine matrix_ext' (fun i => congrFun (congrArg Matrix.a h) i) (fun i => ?_) (fun i => ?_) (fun i => ?_)
  · have := congrFun (congrArg Matrix.b h) (i + 1)
    simpa only [unrotateRows, show i + 1 - 1 = i by clear this; revert i; decide] using this
  · have := congrFun (congrArg Matrix.c h) (i + 2)
    simpa only [unrotateRows, show i + 2 - 2 = i by clear this; revert i; decide] using this
  · have := congrFun (congrArg Matrix.d h) (i + 3)
    simpa only [unrotateRows, show i + 3 - 3 = i by clear this; revert i; decide] using this

theorem round_inj (p : Vector (Fin 16) 16) (msg : Fin 16 → U64) {s t : Matrix} (h : round p msg s = round p msg t) :
    s = t :=
  mixColumns_inj (rotateRows_inj (mixColumns_inj (unrotateRows_inj h)))

theorem permuted_inj {m n : Input} (hb : m.block = n.block) (h : permuted m = permuted n) : initial m = initial n := by
  unfold permuted at h
  rw [hb] at h
  exact foldl_inj _ _ (fun r s t => round_inj (sigma r) (blockWord n.block)) _ _ h

theorem setWidth_inj {x y : Byte} (h : x.setWidth 64 = y.setWidth 64) : x = y := by
  have := congrArg (BitVec.setWidth 8) h
  simpa using this

theorem initial_inj {m n : Input} (h : initial m = initial n) (hb : m.block = n.block) : m = n := by
  have d0 := congrFun (congrArg Matrix.d h) 0
  have d2 := congrFun (congrArg Matrix.d h) 2
  have d3 := congrFun (congrArg Matrix.d h) 3
  have hcv : m.cv = n.cv := by
    apply Vector.ext
    intro i hi
    exact congrFun (congrArg Matrix.a h) ⟨i, hi⟩
  have ho : m.offset = n.offset := d0
  have hl := setWidth_inj d2
  have hf := setWidth_inj d3
  clear h d0 d2 d3
  cases m; cases n
  simp_all

theorem wordBytes_inj {v w : U64} (h : wordBytes v = wordBytes w) : v = w := by
  apply BitVec.eq_of_getLsbD_eq
  intro i hi
  have e : ∀ u : U64, (wordBytes u)[i / 8]? = some (u.extractLsb' (8 * (i / 8)) 8) := by
    intro u
    rw [wordBytes, List.getElem?_map, List.getElem?_range (by omega)]; rfl
  have := congrArg (fun l => l[i / 8]?) h
  simp only [e, Option.some.injEq] at this
  have := congrArg (fun z => z.getLsbD (i % 8)) this
  simpa [show i % 8 < 8 by omega, show 8 * (i / 8) + i % 8 = i by omega] using this

theorem flatMap_inj {v w : List U64} (h : v.flatMap wordBytes = w.flatMap wordBytes) : v = w := by
  have len : ∀ u, (wordBytes u).length = 8 := fun u => by simp [wordBytes]
  induction v generalizing w with
  | nil =>
    cases w with
    | nil => rfl
    | cons b _ => have := congrArg List.length h; simp [List.flatMap_cons, len] at this; omega
  | cons a v ih =>
    cases w with
    | nil => have := congrArg List.length h; simp [List.flatMap_cons, len] at this
    | cons b w =>
      rw [List.flatMap_cons, List.flatMap_cons] at h
      obtain ⟨h1, h2⟩ := List.append_inj h (by rw [len, len])
      rw [wordBytes_inj h1, ih h2]

theorem map_finRange_inj {f g : Fin 4 → U64} (h : (List.finRange 4).map f = (List.finRange 4).map g) (i : Fin 4) :
    f i = g i := by
  have h4 : List.finRange 4 = [0, 1, 2, 3] := by decide
  simp only [h4, List.map_cons, List.map_nil, List.cons.injEq, and_true] at h
  match i with
  | 0 => exact h.1
  | 1 => exact h.2.1
  | 2 => exact h.2.2.1
  | 3 => exact h.2.2.2

/-- The 128 bytes computed by a compression determine its other inputs, given the chaining value and the block. -/
theorem outBytes_inj {m n : Input} (hcv : m.cv = n.cv) (hb : m.block = n.block) (h : outBytes m = outBytes n) :
    m = n := by
  unfold outBytes at h
  have h := flatMap_inj h
  obtain ⟨h, hd⟩ := List.append_inj h (by simp)
  obtain ⟨h, hc⟩ := List.append_inj h (by simp)
  obtain ⟨h, h2⟩ := List.append_inj h (by simp)
  have hd := map_finRange_inj hd
  have hc := map_finRange_inj hc
  have hb' : ∀ i, (permuted m).b i = (permuted n).b i := by
    intro i
    have := map_finRange_inj h2 i
    rw [hcv] at this
    exact xor_right_inj this
  have ha : ∀ i, (permuted m).a i = (permuted n).a i := by
    intro i
    have := map_finRange_inj h i
    rw [hb'] at this
    exact xor_right_inj this
  exact initial_inj (permuted_inj hb (matrix_ext' ha hb' hc hd)) hb

end Inj64
end Baokeshed.Proofs
