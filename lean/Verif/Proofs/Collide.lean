import Verif.SpecCalls
import Verif.Props.Kernels

/-!
# Equal nodes come from equal inputs, or from a collision below them
-/

set_option linter.unusedVariables false

namespace Baokeshed.Proofs
open Baokeshed.Model

theorem cvBytes_inj {a b : Vector Word 8} (h : Spec.cvBytes a = Spec.cvBytes b) : a = b := by
  rw [← bytes_from_state_words_eq, ← bytes_from_state_words_eq] at h
  rw [← Props.C34_words_roundtrip a, h, Props.C34_words_roundtrip]

attribute [local irreducible] Spec.compress Spec.cvBytes Spec.outBytes

/-- Two calls, one from each list, with different arguments and the same chaining value. -/
def Coll (A B : List Spec.Input) : Prop := ∃ a ∈ A, ∃ b ∈ B, a ≠ b ∧ Spec.compress a = Spec.compress b

theorem Coll.mono {A A' B B' : List Spec.Input} (h : Coll A B) (ha : ∀ x ∈ A, x ∈ A') (hb : ∀ x ∈ B, x ∈ B') :
    Coll A' B' := by
  obtain ⟨a, h1, b, h2, h3⟩ := h
  exact ⟨a, ha a h1, b, hb b h2, h3⟩

theorem eq_or_coll {a b : Spec.Input} {A B : List Spec.Input} (ha : a ∈ A) (hb : b ∈ B)
    (h : Spec.compress a = Spec.compress b) : a = b ∨ Coll A B := by
  by_cases e : a = b
  · exact Or.inl e
  · exact Or.inr ⟨a, ha, b, hb, e, h⟩

/-! ## flags -/

/-- the flags of a mode -/
def ModeFlag (f : Byte) : Prop := f = 0 ∨ f = 16 ∨ f = 32

theorem modeFlag (m : Spec.Mode) : ModeFlag m.flag := by
  cases m
  · exact Or.inl rfl
  · exact Or.inr (Or.inl rfl)
  · exact Or.inr (Or.inr rfl)

/-- `CHUNK_START` or nothing -/
def startFlag (s : Bool) : Byte := if s then Spec.chunkStart else 0

theorem flags_block {f f' : Byte} (hf : ModeFlag f) (hf' : ModeFlag f') {s s' : Bool}
    (h : f ||| startFlag s = f' ||| startFlag s') : f = f' ∧ s = s' := by
  rcases hf with rfl | rfl | rfl <;> rcases hf' with rfl | rfl | rfl <;> cases s <;> cases s' <;>
    first | exact ⟨rfl, rfl⟩ | exact absurd h (by decide)

theorem flags_end {f f' : Byte} (hf : ModeFlag f) (hf' : ModeFlag f') {s s' : Bool}
    (h : f ||| startFlag s ||| Spec.chunkEnd = f' ||| startFlag s' ||| Spec.chunkEnd) : f = f' ∧ s = s' := by
  rcases hf with rfl | rfl | rfl <;> rcases hf' with rfl | rfl | rfl <;> cases s <;> cases s' <;>
    first | exact ⟨rfl, rfl⟩ | exact absurd h (by decide)

theorem flags_parent {f f' : Byte} (hf : ModeFlag f) (hf' : ModeFlag f')
    (h : f ||| Spec.parentFlag = f' ||| Spec.parentFlag) : f = f' := by
  rcases hf with rfl | rfl | rfl <;> rcases hf' with rfl | rfl | rfl <;>
    first | rfl | exact absurd h (by decide)

theorem flags_kind {f f' : Byte} (hf : ModeFlag f) (hf' : ModeFlag f') {s : Bool} :
    f ||| startFlag s ||| Spec.chunkEnd ≠ f' ||| Spec.parentFlag := by
  rcases hf with rfl | rfl | rfl <;> rcases hf' with rfl | rfl | rfl <;> cases s <;> decide

/-! ## chunks -/

theorem pad_inj {a b : Bytes} (ha : a.length ≤ 64) (hl : a.length = b.length) (h : Spec.pad a = Spec.pad b) : a = b := by
  apply List.ext_getElem hl
  intro i h1 h2
  have e := congrArg (fun v => v[i]'(by omega)) h
  simp only [Spec.pad, Vector.getElem_ofFn] at e
  rw [List.getD_eq_getElem?_getD, List.getD_eq_getElem?_getD, List.getElem?_eq_getElem h1, List.getElem?_eq_getElem h2] at e
  exact e

/-- number of blocks of a chunk -/
def nBlocks (c : Bytes) : Nat := (c.length - 1) / 64 + 1

theorem chunkFrom_flags (f : Byte) (off : Nat) (c : Bytes) (cv : Vector Word 8) (s : Bool) :
    ∃ s', (Spec.chunkFrom f off cv (f ||| startFlag s) c).flags = f ||| startFlag s' ||| Spec.chunkEnd := by
  induction hn : c.length using Nat.strongRecOn generalizing c cv s with
  | ind n ih =>
  rw [Spec.chunkFrom]
  split
  · exact ⟨s, rfl⟩
  · obtain ⟨s', h⟩ := ih (c.drop 64).length (by simp; omega) (c.drop 64)
      (Spec.compress ⟨cv, Spec.pad (c.take 64), 64, BitVec.ofNat 64 off, f ||| startFlag s⟩) false rfl
    refine ⟨s', ?_⟩
    rw [show f ||| startFlag false = f from BitVec.or_zero] at h
    exact h

theorem ofNat8_inj {a b : Nat} (ha : a ≤ 64) (hb : b ≤ 64) (h : BitVec.ofNat 8 a = BitVec.ofNat 8 b) : a = b := by
  have := congrArg BitVec.toNat h
  rw [BitVec.toNat_ofNat, BitVec.toNat_ofNat] at this
  omega

/-- chunks with the same number of blocks -/
theorem chunk_same {f f' : Byte} (hf : ModeFlag f) (hf' : ModeFlag f') (off off' : Nat) (c c' : Bytes) (cv cv' : Vector Word 8)
    (s s' : Bool) (hb : nBlocks c = nBlocks c')
    (h : Spec.chunkFrom f off cv (f ||| startFlag s) c = Spec.chunkFrom f' off' cv' (f' ||| startFlag s') c') :
    (f = f' ∧ s = s' ∧ cv = cv' ∧ c = c') ∨
      Coll (Spec.chunkBefore f off cv (f ||| startFlag s) c) (Spec.chunkBefore f' off' cv' (f' ||| startFlag s') c') := by
  induction hn : c.length using Nat.strongRecOn generalizing c c' cv cv' s s' with
  | ind n ih =>
  unfold nBlocks at hb
  rw [Spec.chunkBefore, Spec.chunkBefore]
  rw [Spec.chunkFrom, Spec.chunkFrom.eq_def f'] at h
  by_cases h1 : c.length ≤ 64
  · rw [dif_pos h1, dif_pos (by omega)] at h
    simp only [Spec.Input.mk.injEq] at h
    obtain ⟨h2, h3, h4, -, h5⟩ := h
    left
    obtain ⟨h6, h7⟩ := flags_end hf hf' h5
    exact ⟨h6, h7, h2, pad_inj h1 (ofNat8_inj h1 (by omega) h4) h3⟩
  · rw [dif_neg h1, dif_neg (by omega)] at h
    rw [dif_neg h1, dif_neg (by omega)]
    dsimp only
    have e0 : f ||| startFlag false = f := BitVec.or_zero
    have e0' : f' ||| startFlag false = f' := BitVec.or_zero
    have := ih (c.drop 64).length (by simp; omega) (c.drop 64) (c'.drop 64)
      (Spec.compress ⟨cv, Spec.pad (c.take 64), 64, BitVec.ofNat 64 off, f ||| startFlag s⟩)
      (Spec.compress ⟨cv', Spec.pad (c'.take 64), 64, BitVec.ofNat 64 off', f' ||| startFlag s'⟩) false false
      (by unfold nBlocks; simp only [List.length_drop]; omega) (by rw [e0, e0']; exact h) rfl
    rw [e0, e0'] at this
    rcases this with ⟨h2, -, h3, h4⟩ | hc
    · rcases eq_or_coll List.mem_cons_self List.mem_cons_self h3 with e | hc
      · simp only [Spec.Input.mk.injEq] at e
        obtain ⟨e1, e2, -, -, e3⟩ := e
        obtain ⟨-, e4⟩ := flags_block hf hf' e3
        left
        refine ⟨h2, e4, e1, ?_⟩
        have e5 := pad_inj (a := c.take 64) (b := c'.take 64) (by simp; omega) (by simp; omega) e2
        rw [← List.take_append_drop 64 c, e5, h4, List.take_append_drop]
      · exact Or.inr hc
    · exact Or.inr (hc.mono (fun _ => List.mem_cons_of_mem _) (fun _ => List.mem_cons_of_mem _))

theorem Coll.symm {A B : List Spec.Input} (h : Coll A B) : Coll B A := by
  obtain ⟨a, h1, b, h2, h3, h4⟩ := h
  exact ⟨b, h2, a, h1, h3.symm, h4.symm⟩

/-- a chunk with more blocks -/
theorem chunk_more {f f' : Byte} (hf : ModeFlag f) (hf' : ModeFlag f') (off off' : Nat) (c c' : Bytes) (cv cv' : Vector Word 8)
    (s : Bool) (hb : nBlocks c' < nBlocks c)
    (h : Spec.chunkFrom f off cv (f ||| startFlag s) c = Spec.chunkFrom f' off' cv' (f' ||| startFlag true) c') :
      Coll (Spec.chunkBefore f off cv (f ||| startFlag s) c) (Spec.chunkBefore f' off' cv' (f' ||| startFlag true) c') := by
  induction hn : c.length using Nat.strongRecOn generalizing c cv s with
  | ind n ih =>
  have h1 : ¬ c.length ≤ 64 := by unfold nBlocks at hb; omega
  have hd : nBlocks (c.drop 64) + 1 = nBlocks c := by unfold nBlocks; simp only [List.length_drop]; omega
  rw [Spec.chunkBefore, dif_neg h1]
  rw [Spec.chunkFrom, dif_neg h1] at h
  dsimp only
  have e0 : f ||| startFlag false = f := BitVec.or_zero
  generalize Spec.compress ⟨cv, Spec.pad (c.take 64), 64, BitVec.ofNat 64 off, f ||| startFlag s⟩ = cv1 at *
  by_cases h2 : nBlocks (c.drop 64) = nBlocks c'
  · have := chunk_same hf hf' off off' (c.drop 64) c' cv1 cv' false true h2 (by rw [e0]; exact h)
    rw [e0] at this
    rcases this with ⟨-, h3, -⟩ | hc
    · cases h3
    · exact hc.mono (fun _ => List.mem_cons_of_mem _) (fun _ => id)
  · have := ih (c.drop 64).length (by simp; omega) (c.drop 64) cv1 false (by omega) (by rw [e0]; exact h) rfl
    rw [e0] at this
    exact this.mono (fun _ => List.mem_cons_of_mem _) (fun _ => id)

theorem chunk_inj {f f' : Byte} (hf : ModeFlag f) (hf' : ModeFlag f') (off off' : Nat) (c c' : Bytes) (k k' : Vector Word 8)
    (h : Spec.chunk k f off c = Spec.chunk k' f' off' c') :
    (f = f' ∧ k = k' ∧ c = c') ∨
      Coll (Spec.chunkBefore f off k (f ||| Spec.chunkStart) c) (Spec.chunkBefore f' off' k' (f' ||| Spec.chunkStart) c') := by
  rcases Nat.lt_trichotomy (nBlocks c) (nBlocks c') with hb | hb | hb
  · exact Or.inr (chunk_more hf' hf off' off c' c k' k true hb h.symm).symm
  · rcases chunk_same hf hf' off off' c c' k k' true true hb h with ⟨h1, -, h2, h3⟩ | hc
    · exact Or.inl ⟨h1, h2, h3⟩
    · exact Or.inr hc
  · exact Or.inr (chunk_more hf hf' off off' c c' k k' true hb h)

/-! ## trees -/

theorem append_inj32 {a b a' b' : Vector Byte 32} (h : a ++ b = a' ++ b') : a = a' ∧ b = b' := by
  have e := congrArg Vector.toList h
  rw [Vector.toList_append, Vector.toList_append] at e
  obtain ⟨h1, h2⟩ := List.append_inj e (by simp)
  exact ⟨Vector.toList_inj.1 h1, Vector.toList_inj.1 h2⟩

theorem subtree_inj {f f' : Byte} (hf : ModeFlag f) (hf' : ModeFlag f') (off off' : Nat) (x y : Bytes) (k k' : Vector Word 8)
    (h : Spec.subtree k f off x = Spec.subtree k' f' off' y) :
    (f = f' ∧ k = k' ∧ x = y) ∨ Coll (Spec.below k f off x) (Spec.below k' f' off' y) := by
  induction hn : x.length using Nat.strongRecOn generalizing x y off off' with
  | ind n ih =>
  have hkind : ∀ (o o' : Nat) (c : Bytes) (l r : Vector Word 8) (g g' : Byte) (kk kk' : Vector Word 8), ModeFlag g → ModeFlag g' →
      Spec.chunk kk g o c ≠ Spec.parent kk' g' l r := by
    intro o o' c l r g g' kk kk' hg hg' e
    obtain ⟨s, hs⟩ := chunkFrom_flags g o c kk true
    have := congrArg Spec.Input.flags e
    exact flags_kind hg hg' (hs.symm.trans this)
  rw [Spec.below, Spec.below]
  rw [Spec.subtree, Spec.subtree.eq_def k'] at h
  by_cases h1 : x.length ≤ 2048
  · rw [dif_pos h1] at h ⊢
    by_cases h2 : y.length ≤ 2048
    · rw [dif_pos h2] at h ⊢
      exact chunk_inj hf hf' off off' x y k k' h
    · rw [dif_neg h2] at h
      exact absurd h (hkind _ 0 _ _ _ _ _ _ _ hf hf')
  · rw [dif_neg h1] at h ⊢
    by_cases h2 : y.length ≤ 2048
    · rw [dif_pos h2] at h
      exact absurd h.symm (hkind _ 0 _ _ _ _ _ _ _ hf' hf)
    · rw [dif_neg h2] at h ⊢
      dsimp only at h ⊢
      have hlx := Spec.leftLen_lt (Nat.lt_of_not_le h1)
      have hpx := Spec.leftLen_pos x.length
      generalize Spec.leftLen x.length = lx at *
      generalize Spec.leftLen y.length = ly at *
      simp only [Spec.parent, Spec.Input.mk.injEq] at h
      obtain ⟨hk, hb, -, -, hfl⟩ := h
      obtain ⟨hb1, hb2⟩ := append_inj32 hb
      have hff := flags_parent hf hf' hfl
      rcases eq_or_coll (A := Spec.below k f off (x.take lx) ++ [Spec.subtree k f off (x.take lx)] ++
          (Spec.below k f (off + lx) (x.drop lx) ++ [Spec.subtree k f (off + lx) (x.drop lx)]))
        (B := Spec.below k' f' off' (y.take ly) ++ [Spec.subtree k' f' off' (y.take ly)] ++
          (Spec.below k' f' (off' + ly) (y.drop ly) ++ [Spec.subtree k' f' (off' + ly) (y.drop ly)]))
        (by simp) (by simp) (cvBytes_inj hb1) with e1 | hc
      · rcases eq_or_coll (A := Spec.below k f off (x.take lx) ++ [Spec.subtree k f off (x.take lx)] ++
          (Spec.below k f (off + lx) (x.drop lx) ++ [Spec.subtree k f (off + lx) (x.drop lx)]))
          (B := Spec.below k' f' off' (y.take ly) ++ [Spec.subtree k' f' off' (y.take ly)] ++
          (Spec.below k' f' (off' + ly) (y.drop ly) ++ [Spec.subtree k' f' (off' + ly) (y.drop ly)]))
          (by simp) (by simp) (cvBytes_inj hb2) with e2 | hc
        · rcases ih (x.take lx).length (by simp; omega) off off' _ _ e1 rfl with ⟨-, -, h3⟩ | hc
          · rcases ih (x.drop lx).length (by simp; omega) _ _ _ _ e2 rfl with ⟨-, -, h4⟩ | hc
            · left
              refine ⟨hff, hk, ?_⟩
              rw [← List.take_append_drop lx x, h3, h4, List.take_append_drop]
            · exact Or.inr (hc.mono (by intro a ha; simp [ha]) (by intro a ha; simp [ha]))
          · exact Or.inr (hc.mono (by intro a ha; simp [ha]) (by intro a ha; simp [ha]))
        · exact Or.inr hc
      · exact Or.inr hc

/-! ## whole inputs -/

theorem flags_root {f f' : Byte} (hf : ModeFlag f) (hf' : ModeFlag f') {x x' : Byte}
    (hx : (∃ s, x = f ||| startFlag s ||| Spec.chunkEnd) ∨ x = f ||| Spec.parentFlag)
    (hx' : (∃ s, x' = f' ||| startFlag s ||| Spec.chunkEnd) ∨ x' = f' ||| Spec.parentFlag)
    (h : x ||| Spec.rootFlag = x' ||| Spec.rootFlag) : x = x' := by
  rcases hx with ⟨s, rfl⟩ | rfl <;> rcases hx' with ⟨s', rfl⟩ | rfl <;> (try cases s) <;> (try cases s') <;>
    rcases hf with rfl | rfl | rfl <;> rcases hf' with rfl | rfl | rfl <;>
    first | rfl | exact absurd h (by decide)

theorem subtree_flags (k : Vector Word 8) (f : Byte) (off : Nat) (x : Bytes) :
    (∃ s, (Spec.subtree k f off x).flags = f ||| startFlag s ||| Spec.chunkEnd) ∨
      (Spec.subtree k f off x).flags = f ||| Spec.parentFlag := by
  rw [Spec.subtree]
  split
  · exact Or.inl (chunkFrom_flags f off x k true)
  · exact Or.inr rfl

theorem root_inj (m m' : Spec.Mode) (x y : Bytes) (h : Spec.root m x = Spec.root m' y) :
    (m = m' ∧ x = y) ∨ Coll (Spec.inner m x) (Spec.inner m' y) := by
  have hs : Spec.subtree m.key m.flag 0 x = Spec.subtree m'.key m'.flag 0 y := by
    have hfl := flags_root (modeFlag m) (modeFlag m') (subtree_flags m.key m.flag 0 x) (subtree_flags m'.key m'.flag 0 y)
      (congrArg Spec.Input.flags h)
    simp only [Spec.root, Spec.Input.mk.injEq] at h
    obtain ⟨h1, h2, h3, h4, -⟩ := h
    generalize Spec.subtree m.key m.flag 0 x = a at *
    generalize Spec.subtree m'.key m'.flag 0 y = b at *
    cases a; cases b
    simp_all
  rcases subtree_inj (modeFlag m) (modeFlag m') 0 0 x y m.key m'.key hs with ⟨h1, h2, h3⟩ | hc
  · left
    refine ⟨?_, h3⟩
    have hk : ∀ a b : Vector Byte 32, (Spec.Mode.keyedHash a).key = (Spec.Mode.keyedHash b).key → a = b := by
      intro a b h
      apply Props.C34_key_injective
      rw [key_words_eq, key_words_eq]
      exact h
    have ne1 : (0 : Byte) ≠ 16 := by decide
    have ne2 : (0 : Byte) ≠ 32 := by decide
    have ne3 : (16 : Byte) ≠ 32 := by decide
    cases m with
    | hash => cases m' with
      | hash => rfl
      | keyedHash b => exact absurd h1 ne1
      | deriveKey b => exact absurd h1 ne2
    | keyedHash a => cases m' with
      | hash => exact absurd h1.symm ne1
      | keyedHash b => rw [hk a b h2]
      | deriveKey b => exact absurd h1 ne3
    | deriveKey a => cases m' with
      | hash => exact absurd h1.symm ne2
      | keyedHash b => exact absurd h1.symm ne3
      | deriveKey b => rw [hk a b h2]
  · exact Or.inr hc

/-- Equal hashes: equal inputs in the same mode, or a collision among the compressions. -/
theorem hash_inj (m m' : Spec.Mode) (x y : Bytes) (h : Spec.hash m x = Spec.hash m' y) :
    (m = m' ∧ x = y) ∨ Coll (Spec.calls m x) (Spec.calls m' y) := by
  have hh : ∀ (m : Spec.Mode) (x : Bytes), (Spec.hash m x).toList = (Spec.cvBytes (Spec.compress (Spec.root m x))).toList := by
    intro m x
    have hr : { Spec.root m x with offset := BitVec.ofNat 64 (64 * 0) } = Spec.root m x := by
      rw [show BitVec.ofNat 64 (64 * 0) = (Spec.root m x).offset from (root_offset m x).symm]
    rw [hash_toList, slice_block m x 0 32 (by decide), Spec.streamBlock, outBytes_take, hr]
  have e := cvBytes_inj (Vector.toList_inj.1 ((hh m x).symm.trans ((congrArg Vector.toList h).trans (hh m' y))))
  rcases eq_or_coll (A := Spec.calls m x) (B := Spec.calls m' y) (by simp [Spec.calls]) (by simp [Spec.calls]) e with e | hc
  · rcases root_inj m m' x y e with h | hc
    · exact Or.inl h
    · exact Or.inr (hc.mono (by intro a ha; simp [Spec.calls, ha]) (by intro a ha; simp [Spec.calls, ha]))
  · exact Or.inr hc

end Baokeshed.Proofs
