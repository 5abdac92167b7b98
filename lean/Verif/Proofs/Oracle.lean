import Verif.Proofs.Collide
import Verif.Proofs.Count

/-!
# The mode over an arbitrary compression function

Equal hashes come from equal inputs or from two questions with the same answer.  Proofs as in `Proofs/Collide.lean`, with `F`
in place of the compression function.
-/

set_option linter.unusedVariables false

namespace Baokeshed.Proofs.G
open Baokeshed.Spec

/-- The last compression of a chunk (not yet performed): all blocks but the last are
absorbed into the chaining value.  `fl` are the flags of the next block: `CHUNK_START` is
present in the first block only; `CHUNK_END` is added for the last. -/
def chunkFrom (F : Input → Vector Word 8) (flags : Byte) (offset : Nat) (cv : Vector Word 8) (fl : Byte) (c : Bytes) : Input :=
  if _h : c.length ≤ 64 then
    { cv, block := pad c, blockLen := BitVec.ofNat 8 c.length, offset := BitVec.ofNat 64 offset,
      flags := fl ||| chunkEnd }
  else
    chunkFrom F flags offset
      (F { cv, block := pad (c.take 64), blockLen := 64,
                  offset := BitVec.ofNat 64 offset, flags := fl })
      flags (c.drop 64)
termination_by c.length
decreasing_by simp; omega

/-- A leaf of the tree. -/
def chunk (F : Input → Vector Word 8) (key : Vector Word 8) (flags : Byte) (offset : Nat) (c : Bytes) : Input :=
  chunkFrom F flags offset key (flags ||| chunkStart) c

/-- The top node of the subtree over `input`, which starts at byte `offset`. -/
def subtree (F : Input → Vector Word 8) (key : Vector Word 8) (flags : Byte) (offset : Nat) (input : Bytes) : Input :=
  if h : input.length ≤ 2048 then chunk F key flags offset input
  else
    let l := leftLen input.length
    parent key flags
      (F (subtree F key flags offset (input.take l)))
      (F (subtree F key flags (offset + l) (input.drop l)))
termination_by input.length
decreasing_by
  all_goals
    have := leftLen_lt (Nat.lt_of_not_le h)
    have := leftLen_pos input.length
    simp only [List.length_take, List.length_drop]; omega

/-- The root node: the top node of the whole tree, flagged `ROOT`. -/
def root (F : Input → Vector Word 8) (m : Mode) (input : Bytes) : Input :=
  let n := subtree F m.key m.flag 0 input
  { n with flags := n.flags ||| rootFlag }

/-- The compressions of a chunk before the last one. -/
def chunkBefore (F : Input → Vector Word 8) (flags : Byte) (offset : Nat) (cv : Vector Word 8) (fl : Byte) (c : Bytes) : List Input :=
  if _h : c.length ≤ 64 then []
  else
    let n : Input := { cv, block := pad (c.take 64), blockLen := 64, offset := BitVec.ofNat 64 offset, flags := fl }
    n :: chunkBefore F flags offset (F n) flags (c.drop 64)
termination_by c.length
decreasing_by simp; omega

/-- The compressions below the top node of the subtree over `input`, which starts at byte `offset`. -/
def below (F : Input → Vector Word 8) (key : Vector Word 8) (flags : Byte) (offset : Nat) (input : Bytes) : List Input :=
  if h : input.length ≤ 2048 then chunkBefore F flags offset key (flags ||| chunkStart) input
  else
    let l := leftLen input.length
    below F key flags offset (input.take l) ++ [subtree F key flags offset (input.take l)] ++
      (below F key flags (offset + l) (input.drop l) ++ [subtree F key flags (offset + l) (input.drop l)])
termination_by input.length
decreasing_by
  all_goals
    have := leftLen_lt (Nat.lt_of_not_le h)
    have := leftLen_pos input.length
    simp only [List.length_take, List.length_drop]; omega

/-- The compressions that give chaining values, for a whole input. -/
def inner (F : Input → Vector Word 8) (m : Mode) (input : Bytes) : List Input := below F m.key m.flag 0 input


end Baokeshed.Proofs.G

namespace Baokeshed.Proofs.Gen
open Baokeshed.Model

variable {F : Spec.Input → Vector Word 8}

attribute [local irreducible] Spec.cvBytes

/-- Two calls, one from each list, with different arguments and the same answer. -/
def Coll (F : Spec.Input → Vector Word 8) (A B : List Spec.Input) : Prop := ∃ a ∈ A, ∃ b ∈ B, a ≠ b ∧ F a = F b

theorem Coll.mono {A A' B B' : List Spec.Input} (h : Coll F A B) (ha : ∀ x ∈ A, x ∈ A') (hb : ∀ x ∈ B, x ∈ B') :
    Coll F A' B' := by
  obtain ⟨a, h1, b, h2, h3⟩ := h
  exact ⟨a, ha a h1, b, hb b h2, h3⟩

theorem eq_or_coll {a b : Spec.Input} {A B : List Spec.Input} (ha : a ∈ A) (hb : b ∈ B)
    (h : F a = F b) : a = b ∨ Coll F A B := by
  by_cases e : a = b
  · exact Or.inl e
  · exact Or.inr ⟨a, ha, b, hb, e, h⟩

theorem chunkFrom_flags (f : Byte) (off : Nat) (c : Bytes) (cv : Vector Word 8) (s : Bool) :
    ∃ s', (G.chunkFrom F f off cv (f ||| startFlag s) c).flags = f ||| startFlag s' ||| Spec.chunkEnd := by
  induction hn : c.length using Nat.strongRecOn generalizing c cv s with
  | ind n ih =>
  rw [G.chunkFrom]
  split
  · exact ⟨s, rfl⟩
  · obtain ⟨s', h⟩ := ih (c.drop 64).length (by simp; omega) (c.drop 64)
      (F ⟨cv, Spec.pad (c.take 64), 64, BitVec.ofNat 64 off, f ||| startFlag s⟩) false rfl
    refine ⟨s', ?_⟩
    rw [show f ||| startFlag false = f from BitVec.or_zero] at h
    exact h

/-- chunks with the same number of blocks -/
theorem chunk_same {f f' : Byte} (hf : ModeFlag f) (hf' : ModeFlag f') (off off' : Nat) (c c' : Bytes) (cv cv' : Vector Word 8)
    (s s' : Bool) (hb : nBlocks c = nBlocks c')
    (h : G.chunkFrom F f off cv (f ||| startFlag s) c = G.chunkFrom F f' off' cv' (f' ||| startFlag s') c') :
    (f = f' ∧ s = s' ∧ cv = cv' ∧ c = c') ∨
      Coll F (G.chunkBefore F f off cv (f ||| startFlag s) c) (G.chunkBefore F f' off' cv' (f' ||| startFlag s') c') := by
  induction hn : c.length using Nat.strongRecOn generalizing c c' cv cv' s s' with
  | ind n ih =>
  unfold nBlocks at hb
  rw [G.chunkBefore, G.chunkBefore]
  rw [G.chunkFrom, G.chunkFrom.eq_def F f'] at h
  by_cases h1 : c.length ≤ 64
  · rw [dif_pos h1, dif_pos (by omega)] at h
    simp only [Spec.Input.mk.injEq] at h
    obtain ⟨h2, h3, h4, -, h5⟩ := h
    left
    obtain ⟨h6, h7⟩ := flags_end hf hf' h5
    exact ⟨h6, h7, h2, pad_inj h1 (ofNat8_inj h1 (by omega) h4) h3⟩
  · rw [dif_neg h1, dif_neg (by omega)] at h
    rw [dif_neg h1, dif_neg (by omega)]
    dsimp only
    have e0 : f ||| startFlag false = f := BitVec.or_zero
    have e0' : f' ||| startFlag false = f' := BitVec.or_zero
    have := ih (c.drop 64).length (by simp; omega) (c.drop 64) (c'.drop 64)
      (F ⟨cv, Spec.pad (c.take 64), 64, BitVec.ofNat 64 off, f ||| startFlag s⟩)
      (F ⟨cv', Spec.pad (c'.take 64), 64, BitVec.ofNat 64 off', f' ||| startFlag s'⟩) false false
      (by unfold nBlocks; simp only [List.length_drop]; omega) (by rw [e0, e0']; exact h) rfl
    rw [e0, e0'] at this
    rcases this with ⟨h2, -, h3, h4⟩ | hc
    · rcases eq_or_coll List.mem_cons_self List.mem_cons_self h3 with e | hc
      · simp only [Spec.Input.mk.injEq] at e
        obtain ⟨e1, e2, -, -, e3⟩ := e
        obtain ⟨-, e4⟩ := flags_block hf hf' e3
        left
        refine ⟨h2, e4, e1, ?_⟩
        have e5 := pad_inj (a := c.take 64) (b := c'.take 64) (by simp) (by simp; omega) e2
        rw [← List.take_append_drop 64 c, e5, h4, List.take_append_drop]
      · exact Or.inr hc
    · exact Or.inr (hc.mono (fun _ => List.mem_cons_of_mem _) (fun _ => List.mem_cons_of_mem _))

theorem Coll.symm {A B : List Spec.Input} (h : Coll F A B) : Coll F B A := by
  obtain ⟨a, h1, b, h2, h3, h4⟩ := h
  exact ⟨b, h2, a, h1, h3.symm, h4.symm⟩

/-- a chunk with more blocks -/
theorem chunk_more {f f' : Byte} (hf : ModeFlag f) (hf' : ModeFlag f') (off off' : Nat) (c c' : Bytes) (cv cv' : Vector Word 8)
    (s : Bool) (hb : nBlocks c' < nBlocks c)
    (h : G.chunkFrom F f off cv (f ||| startFlag s) c = G.chunkFrom F f' off' cv' (f' ||| startFlag true) c') :
      Coll F (G.chunkBefore F f off cv (f ||| startFlag s) c) (G.chunkBefore F f' off' cv' (f' ||| startFlag true) c') := by
  induction hn : c.length using Nat.strongRecOn generalizing c cv s with
  | ind n ih =>
  have h1 : ¬ c.length ≤ 64 := by unfold nBlocks at hb; omega
  have hd : nBlocks (c.drop 64) + 1 = nBlocks c := by unfold nBlocks; simp only [List.length_drop]; omega
  rw [G.chunkBefore, dif_neg h1]
  rw [G.chunkFrom, dif_neg h1] at h
  dsimp only
  have e0 : f ||| startFlag false = f := BitVec.or_zero
  generalize F ⟨cv, Spec.pad (c.take 64), 64, BitVec.ofNat 64 off, f ||| startFlag s⟩ = cv1 at *
  by_cases h2 : nBlocks (c.drop 64) = nBlocks c'
  · have := chunk_same hf hf' off off' (c.drop 64) c' cv1 cv' false true h2 (by rw [e0]; exact h)
    rw [e0] at this
    rcases this with ⟨-, h3, -⟩ | hc
    · cases h3
    · exact hc.mono (fun _ => List.mem_cons_of_mem _) (fun _ => id)
  · have := ih (c.drop 64).length (by simp; omega) (c.drop 64) cv1 false (by omega) (by rw [e0]; exact h) rfl
    rw [e0] at this
    exact this.mono (fun _ => List.mem_cons_of_mem _) (fun _ => id)

theorem chunk_inj {f f' : Byte} (hf : ModeFlag f) (hf' : ModeFlag f') (off off' : Nat) (c c' : Bytes) (k k' : Vector Word 8)
    (h : G.chunk F k f off c = G.chunk F k' f' off' c') :
    (f = f' ∧ k = k' ∧ c = c') ∨
      Coll F (G.chunkBefore F f off k (f ||| Spec.chunkStart) c) (G.chunkBefore F f' off' k' (f' ||| Spec.chunkStart) c') := by
  rcases Nat.lt_trichotomy (nBlocks c) (nBlocks c') with hb | hb | hb
  · exact Or.inr (chunk_more hf' hf off' off c' c k' k true hb h.symm).symm
  · rcases chunk_same hf hf' off off' c c' k k' true true hb h with ⟨h1, -, h2, h3⟩ | hc
    · exact Or.inl ⟨h1, h2, h3⟩
    · exact Or.inr hc
  · exact Or.inr (chunk_more hf hf' off off' c c' k k' true hb h)

theorem subtree_inj {f f' : Byte} (hf : ModeFlag f) (hf' : ModeFlag f') (off off' : Nat) (x y : Bytes) (k k' : Vector Word 8)
    (h : G.subtree F k f off x = G.subtree F k' f' off' y) :
    (f = f' ∧ k = k' ∧ x = y) ∨ Coll F (G.below F k f off x) (G.below F k' f' off' y) := by
  induction hn : x.length using Nat.strongRecOn generalizing x y off off' with
  | ind n ih =>
  have hkind : ∀ (o o' : Nat) (c : Bytes) (l r : Vector Word 8) (g g' : Byte) (kk kk' : Vector Word 8), ModeFlag g → ModeFlag g' →
      G.chunk F kk g o c ≠ Spec.parent kk' g' l r := by
    intro o o' c l r g g' kk kk' hg hg' e
    obtain ⟨s, hs⟩ := chunkFrom_flags g o c kk true
    have := congrArg Spec.Input.flags e
    exact flags_kind hg hg' (hs.symm.trans this)
  rw [G.below, G.below]
  rw [G.subtree, G.subtree.eq_def F k'] at h
  by_cases h1 : x.length ≤ 2048
  · rw [dif_pos h1] at h ⊢
    by_cases h2 : y.length ≤ 2048
    · rw [dif_pos h2] at h ⊢
      exact chunk_inj hf hf' off off' x y k k' h
    · rw [dif_neg h2] at h
      exact absurd h (hkind _ 0 _ _ _ _ _ _ _ hf hf')
  · rw [dif_neg h1] at h ⊢
    by_cases h2 : y.length ≤ 2048
    · rw [dif_pos h2] at h
      exact absurd h.symm (hkind _ 0 _ _ _ _ _ _ _ hf' hf)
    · rw [dif_neg h2] at h ⊢
      dsimp only at h ⊢
      have hlx := Spec.leftLen_lt (Nat.lt_of_not_le h1)
      have hpx := Spec.leftLen_pos x.length
      generalize Spec.leftLen x.length = lx at *
      generalize Spec.leftLen y.length = ly at *
      simp only [Spec.parent, Spec.Input.mk.injEq] at h
      obtain ⟨hk, hb, -, -, hfl⟩ := h
      obtain ⟨hb1, hb2⟩ := append_inj32 hb
      have hff := flags_parent hf hf' hfl
      rcases eq_or_coll (F := F) (A := G.below F k f off (x.take lx) ++ [G.subtree F k f off (x.take lx)] ++
          (G.below F k f (off + lx) (x.drop lx) ++ [G.subtree F k f (off + lx) (x.drop lx)]))
        (B := G.below F k' f' off' (y.take ly) ++ [G.subtree F k' f' off' (y.take ly)] ++
          (G.below F k' f' (off' + ly) (y.drop ly) ++ [G.subtree F k' f' (off' + ly) (y.drop ly)]))
        (by simp) (by simp) (cvBytes_inj hb1) with e1 | hc
      · rcases eq_or_coll (F := F) (A := G.below F k f off (x.take lx) ++ [G.subtree F k f off (x.take lx)] ++
          (G.below F k f (off + lx) (x.drop lx) ++ [G.subtree F k f (off + lx) (x.drop lx)]))
          (B := G.below F k' f' off' (y.take ly) ++ [G.subtree F k' f' off' (y.take ly)] ++
          (G.below F k' f' (off' + ly) (y.drop ly) ++ [G.subtree F k' f' (off' + ly) (y.drop ly)]))
          (by simp) (by simp) (cvBytes_inj hb2) with e2 | hc
        · rcases ih (x.take lx).length (by simp; omega) off off' _ _ e1 rfl with ⟨-, -, h3⟩ | hc
          · rcases ih (x.drop lx).length (by simp; omega) _ _ _ _ e2 rfl with ⟨-, -, h4⟩ | hc
            · left
              refine ⟨hff, hk, ?_⟩
              rw [← List.take_append_drop lx x, h3, h4, List.take_append_drop]
            · exact Or.inr (hc.mono (by intro a ha; simp [ha]) (by intro a ha; simp [ha]))
          · exact Or.inr (hc.mono (by intro a ha; simp [ha]) (by intro a ha; simp [ha]))
        · exact Or.inr hc
      · exact Or.inr hc

theorem subtree_flags (k : Vector Word 8) (f : Byte) (off : Nat) (x : Bytes) :
    (∃ s, (G.subtree F k f off x).flags = f ||| startFlag s ||| Spec.chunkEnd) ∨
      (G.subtree F k f off x).flags = f ||| Spec.parentFlag := by
  rw [G.subtree]
  split
  · exact Or.inl (chunkFrom_flags f off x k true)
  · exact Or.inr rfl

theorem root_inj (m m' : Spec.Mode) (x y : Bytes) (h : G.root F m x = G.root F m' y) :
    (m = m' ∧ x = y) ∨ Coll F (G.inner F m x) (G.inner F m' y) := by
  have hs : G.subtree F m.key m.flag 0 x = G.subtree F m'.key m'.flag 0 y := by
    have hfl := flags_root (modeFlag m) (modeFlag m') (subtree_flags m.key m.flag 0 x) (subtree_flags m'.key m'.flag 0 y)
      (congrArg Spec.Input.flags h)
    simp only [G.root, Spec.Input.mk.injEq] at h
    obtain ⟨h1, h2, h3, h4, -⟩ := h
    generalize G.subtree F m.key m.flag 0 x = a at *
    generalize G.subtree F m'.key m'.flag 0 y = b at *
    cases a; cases b
    simp_all
  rcases subtree_inj (modeFlag m) (modeFlag m') 0 0 x y m.key m'.key hs with ⟨h1, h2, h3⟩ | hc
  · left
    refine ⟨?_, h3⟩
    have hk : ∀ a b : Vector Byte 32, (Spec.Mode.keyedHash a).key = (Spec.Mode.keyedHash b).key → a = b := by
      intro a b h
      apply Props.C34_key_injective
      rw [key_words_eq, key_words_eq]
      exact h
    have ne1 : (0 : Byte) ≠ 16 := by decide
    have ne2 : (0 : Byte) ≠ 32 := by decide
    have ne3 : (16 : Byte) ≠ 32 := by decide
    cases m with
    | hash => cases m' with
      | hash => rfl
      | keyedHash b => exact absurd h1 ne1
      | deriveKey b => exact absurd h1 ne2
    | keyedHash a => cases m' with
      | hash => exact absurd h1.symm ne1
      | keyedHash b => rw [hk a b h2]
      | deriveKey b => exact absurd h1 ne3
    | deriveKey a => cases m' with
      | hash => exact absurd h1.symm ne2
      | keyedHash b => exact absurd h1.symm ne3
      | deriveKey b => rw [hk a b h2]
  · exact Or.inr hc


/-! ## questions and results -/

theorem result_bind {X Y α β : Type} (F : X → Y) (A : Spec.Algo X Y α) (f : α → Spec.Algo X Y β) :
    (A >>= f).result F = (f (A.result F)).result F := by
  induction A with
  | done a => rfl
  | ask x k ih => exact ih (F x)

theorem asked_bind {X Y α β : Type} (F : X → Y) (A : Spec.Algo X Y α) (f : α → Spec.Algo X Y β) :
    (A >>= f).asked F = A.asked F ++ (f (A.result F)).asked F := by
  induction A with
  | done a => rfl
  | ask x k ih => exact congrArg (x :: ·) (ih (F x))

/-- the chaining values -/
def low (F : Spec.Input → Spec.Full) : Spec.Input → Vector Word 8 := fun a => (F a).1

theorem chunk_asks (F : Spec.Input → Spec.Full) (f : Byte) (off : Nat) (c : Bytes) : ∀ (cv : Vector Word 8) (fl : Byte),
    (Spec.chunkAsk f off cv fl c).result F = G.chunkFrom (low F) f off cv fl c ∧
    (Spec.chunkAsk f off cv fl c).asked F = G.chunkBefore (low F) f off cv fl c := by
  induction hn : c.length using Nat.strongRecOn generalizing c with
  | ind n ih =>
  intro cv fl
  rw [Spec.chunkAsk, G.chunkFrom, G.chunkBefore]
  split
  · exact ⟨rfl, rfl⟩
  · obtain ⟨h1, h2⟩ := ih (c.drop 64).length (by simp; omega) (c.drop 64) rfl
      (low F { cv, block := Spec.pad (c.take 64), blockLen := 64, offset := BitVec.ofNat 64 off, flags := fl }) f
    exact ⟨h1, congrArg _ h2⟩

theorem subtree_asks (F : Spec.Input → Spec.Full) (k : Vector Word 8) (f : Byte) (x : Bytes) : ∀ off,
    (Spec.subtreeAsk k f off x).result F = G.subtree (low F) k f off x ∧
    (Spec.subtreeAsk k f off x).asked F = G.below (low F) k f off x := by
  induction hn : x.length using Nat.strongRecOn generalizing x with
  | ind n ih =>
  intro off
  rw [Spec.subtreeAsk, G.subtree, G.below]
  split
  · exact chunk_asks F f off x k _
  · rename_i h1
    have hl := Spec.leftLen_lt (Nat.lt_of_not_le h1)
    have hp := Spec.leftLen_pos x.length
    dsimp only
    generalize Spec.leftLen x.length = l at *
    obtain ⟨a1, a2⟩ := ih (x.take l).length (by simp; omega) (x.take l) rfl off
    obtain ⟨b1, b2⟩ := ih (x.drop l).length (by simp; omega) (x.drop l) rfl (off + l)
    rw [result_bind, asked_bind, a1, a2, Spec.Algo.result, Spec.Algo.asked, result_bind, asked_bind, b1, b2, Spec.Algo.result,
      Spec.Algo.asked]
    refine ⟨rfl, ?_⟩
    show _ ++ _ :: (_ ++ [_]) = _
    simp

theorem root_asks (F : Spec.Input → Spec.Full) (m : Spec.Mode) (x : Bytes) :
    (Spec.rootAsk m x).result F = G.root (low F) m x ∧ (Spec.rootAsk m x).asked F = G.inner (low F) m x := by
  obtain ⟨h1, h2⟩ := subtree_asks F m.key m.flag x 0
  rw [Spec.rootAsk, result_bind, asked_bind, h1, h2]
  exact ⟨rfl, List.append_nil _⟩

theorem hash_asks (F : Spec.Input → Spec.Full) (m : Spec.Mode) (x : Bytes) :
    (Spec.hashAsk m x).result F = Spec.cvBytes (low F (G.root (low F) m x)) ∧
    (Spec.hashAsk m x).asked F = G.inner (low F) m x ++ [G.root (low F) m x] := by
  obtain ⟨h1, h2⟩ := root_asks F m x
  rw [Spec.hashAsk, result_bind, asked_bind, h1, h2]
  exact ⟨rfl, rfl⟩

/-- the root node for block `k` -/
def rootAt (F : Spec.Input → Vector Word 8) (m : Spec.Mode) (x : Bytes) (k : Nat) : Spec.Input :=
  { G.root F m x with offset := BitVec.ofNat 64 (64 * k) }

theorem block_asks (F : Spec.Input → Spec.Full) (m : Spec.Mode) (x : Bytes) (k : Nat) :
    (Spec.blockAsk m x k).result F = Spec.cvBytes (F (rootAt (low F) m x k)).1 ++ Spec.cvBytes (F (rootAt (low F) m x k)).2 ∧
    (Spec.blockAsk m x k).asked F = G.inner (low F) m x ++ [rootAt (low F) m x k] := by
  obtain ⟨h1, h2⟩ := root_asks F m x
  rw [Spec.blockAsk, result_bind, asked_bind, h1, h2]
  exact ⟨rfl, rfl⟩

/-- Equal hashes: equal inputs in the same mode, or two questions with the same chaining value as answer. -/
theorem hash_inj {F : Spec.Input → Spec.Full} (m m' : Spec.Mode) (x y : Bytes)
    (h : (Spec.hashAsk m x).result F = (Spec.hashAsk m' y).result F) :
    (m = m' ∧ x = y) ∨ Coll (low F) ((Spec.hashAsk m x).asked F) ((Spec.hashAsk m' y).asked F) := by
  obtain ⟨h1, h2⟩ := hash_asks F m x
  obtain ⟨h3, h4⟩ := hash_asks F m' y
  rw [h1, h3] at h
  rw [h2, h4]
  rcases eq_or_coll (F := low F) (A := G.inner (low F) m x ++ [G.root (low F) m x])
    (B := G.inner (low F) m' y ++ [G.root (low F) m' y]) (by simp) (by simp) (cvBytes_inj h) with e | hc
  · rcases root_inj m m' x y e with h | hc
    · exact Or.inl h
    · exact Or.inr (hc.mono (by intro a ha; simp [ha]) (by intro a ha; simp [ha]))
  · exact Or.inr hc

/-! ## with the compression function of the specification -/

theorem chunk_compress (f : Byte) (off : Nat) (c : Bytes) : ∀ (cv : Vector Word 8) (fl : Byte),
    G.chunkFrom Spec.compress f off cv fl c = Spec.chunkFrom f off cv fl c ∧
    G.chunkBefore Spec.compress f off cv fl c = Spec.chunkBefore f off cv fl c := by
  induction hn : c.length using Nat.strongRecOn generalizing c with
  | ind n ih =>
  intro cv fl
  rw [G.chunkFrom, G.chunkBefore, Spec.chunkFrom, Spec.chunkBefore]
  split
  · exact ⟨rfl, rfl⟩
  · obtain ⟨h1, h2⟩ := ih (c.drop 64).length (by simp; omega) (c.drop 64) rfl
      (Spec.compress { cv, block := Spec.pad (c.take 64), blockLen := 64, offset := BitVec.ofNat 64 off, flags := fl }) f
    exact ⟨h1, congrArg _ h2⟩

theorem subtree_compress (k : Vector Word 8) (f : Byte) (x : Bytes) : ∀ off,
    G.subtree Spec.compress k f off x = Spec.subtree k f off x ∧ G.below Spec.compress k f off x = Spec.below k f off x := by
  induction hn : x.length using Nat.strongRecOn generalizing x with
  | ind n ih =>
  intro off
  rw [G.subtree, G.below, Spec.subtree, Spec.below]
  split
  · exact chunk_compress f off x k _
  · rename_i h1
    have hl := Spec.leftLen_lt (Nat.lt_of_not_le h1)
    have hp := Spec.leftLen_pos x.length
    dsimp only
    generalize Spec.leftLen x.length = l at *
    obtain ⟨a1, a2⟩ := ih (x.take l).length (by simp; omega) (x.take l) rfl off
    obtain ⟨b1, b2⟩ := ih (x.drop l).length (by simp; omega) (x.drop l) rfl (off + l)
    rw [a1, a2, b1, b2]
    exact ⟨rfl, rfl⟩

theorem root_compress (m : Spec.Mode) (x : Bytes) :
    G.root Spec.compress m x = Spec.root m x ∧ G.inner Spec.compress m x = Spec.inner m x := by
  obtain ⟨h1, h2⟩ := subtree_compress m.key m.flag x 0
  refine ⟨?_, h2⟩
  rw [G.root, Spec.root, h1]

/-! ## number of questions -/

theorem chunkBefore_length (F : Spec.Input → Vector Word 8) (f : Byte) (off : Nat) (c : Bytes) : ∀ (cv : Vector Word 8) (fl : Byte),
    (G.chunkBefore F f off cv fl c).length = (c.length - 1) / 64 := by
  induction hn : c.length using Nat.strongRecOn generalizing c with
  | ind n ih =>
  intro cv fl
  rw [G.chunkBefore]
  split
  · simp; omega
  · dsimp only
    rw [List.length_cons, ih (c.drop 64).length (by simp; omega) (c.drop 64) rfl]
    simp only [List.length_drop]
    omega

theorem below_length_eq (F F' : Spec.Input → Vector Word 8) (k : Vector Word 8) (f : Byte) (x : Bytes) : ∀ off,
    (G.below F k f off x).length = (G.below F' k f off x).length := by
  induction hn : x.length using Nat.strongRecOn generalizing x with
  | ind n ih =>
  intro off
  rw [G.below, G.below]
  split
  · rw [chunkBefore_length, chunkBefore_length]
  · rename_i h1
    have hl := Spec.leftLen_lt (Nat.lt_of_not_le h1)
    have hp := Spec.leftLen_pos x.length
    dsimp only
    generalize Spec.leftLen x.length = l at *
    simp only [List.length_append, List.length_singleton, ih (x.take l).length (by simp; omega) (x.take l) rfl off,
      ih (x.drop l).length (by simp; omega) (x.drop l) rfl (off + l)]

/-! ## `ROOT` -/

theorem chunkBefore_flags (F : Spec.Input → Vector Word 8) {f : Byte} (hf : ModeFlag f) (off : Nat) (c : Bytes) :
    ∀ (cv : Vector Word 8) (s : Bool), ∀ a ∈ G.chunkBefore F f off cv (f ||| startFlag s) c, a.flags &&& 8 = 0 := by
  have h0 : ∀ s, (f ||| startFlag s) &&& 8 = 0 := by
    intro s; rcases hf with rfl | rfl | rfl <;> cases s <;> decide
  induction hn : c.length using Nat.strongRecOn generalizing c with
  | ind n ih =>
  intro cv s a ha
  rw [G.chunkBefore] at ha
  split at ha
  · cases ha
  · rcases List.mem_cons.1 ha with rfl | ha
    · exact h0 s
    · have e0 : f ||| startFlag false = f := BitVec.or_zero
      exact ih (c.drop 64).length (by simp; omega) (c.drop 64) rfl _ false a (by rw [e0]; exact ha)

theorem subtree_no_root (F : Spec.Input → Vector Word 8) {f : Byte} (hf : ModeFlag f) (k : Vector Word 8) (off : Nat) (x : Bytes) :
    (G.subtree F k f off x).flags &&& 8 = 0 := by
  rcases subtree_flags (F := F) k f off x with ⟨s, h⟩ | h
  · rw [h]; rcases hf with rfl | rfl | rfl <;> cases s <;> decide
  · rw [h]; rcases hf with rfl | rfl | rfl <;> decide

theorem below_flags (F : Spec.Input → Vector Word 8) {f : Byte} (hf : ModeFlag f) (k : Vector Word 8) (x : Bytes) :
    ∀ off, ∀ a ∈ G.below F k f off x, a.flags &&& 8 = 0 := by
  induction hn : x.length using Nat.strongRecOn generalizing x with
  | ind n ih =>
  intro off a ha
  rw [G.below] at ha
  split at ha
  · exact chunkBefore_flags F hf off x k true a ha
  · rename_i h1
    have hl := Spec.leftLen_lt (Nat.lt_of_not_le h1)
    have hp := Spec.leftLen_pos x.length
    dsimp only at ha
    generalize Spec.leftLen x.length = l at *
    rcases List.mem_append.1 ha with ha | ha <;> rcases List.mem_append.1 ha with ha | ha
    · exact ih _ (by simp; omega) (x.take l) rfl off a ha
    · rw [List.mem_singleton.1 ha]; exact subtree_no_root F hf k _ _
    · exact ih _ (by simp; omega) (x.drop l) rfl _ a ha
    · rw [List.mem_singleton.1 ha]; exact subtree_no_root F hf k _ _

theorem root_new (F : Spec.Input → Vector Word 8) (m : Spec.Mode) (x : Bytes) (k : Nat) : rootAt F m x k ∉ G.inner F m x := by
  intro h
  have h1 := below_flags F (modeFlag m) m.key x 0 _ h
  rw [rootAt, G.root] at h1
  dsimp only at h1
  generalize (G.subtree F m.key m.flag 0 x).flags = b at h1
  have h2 : (b ||| Spec.rootFlag) &&& 8 = 8 := by
    ext i hi
    simp only [BitVec.getElem_and, BitVec.getElem_or, Spec.rootFlag]
    cases b[i] <;> simp
  rw [h2] at h1
  exact absurd h1 (by decide)

theorem chunkFrom_offset (F : Spec.Input → Vector Word 8) (f : Byte) (off : Nat) (c : Bytes) : ∀ (cv : Vector Word 8) (fl : Byte),
    (G.chunkFrom F f off cv fl c).offset = BitVec.ofNat 64 off := by
  induction hn : c.length using Nat.strongRecOn generalizing c with
  | ind n ih =>
  intro cv fl
  rw [G.chunkFrom]
  split
  · rfl
  · exact ih (c.drop 64).length (by simp; omega) (c.drop 64) rfl _ _

theorem root_at_zero (F : Spec.Input → Vector Word 8) (m : Spec.Mode) (x : Bytes) : rootAt F m x 0 = G.root F m x := by
  have h : (G.root F m x).offset = 0 := by
    show (G.subtree F m.key m.flag 0 x).offset = 0
    rw [G.subtree]
    split
    · exact chunkFrom_offset F m.flag 0 x _ _
    · rfl
  rw [rootAt, show BitVec.ofNat 64 (64 * 0) = (G.root F m x).offset from h.symm]

end Baokeshed.Proofs.Gen
