import Verif.Proofs.Oracle
import Verif.Proofs.Prf

/-!
# The compressions of a hash, named by what they cover

A label names a compression by the part of the input below it, without the key and without chaining values.
-/

set_option linter.unusedVariables false

namespace Baokeshed.Proofs.Gen
open Baokeshed.Model

attribute [local irreducible] Spec.cvBytes Spec.pad

/-- Compressions that are not at the root: a block that is not the last of its chunk, after which the bytes `pre` of the chunk at
`off` are absorbed; the top node over the bytes `x` at `off`. -/
inductive Lab where
  | block (off : Nat) (pre : Bytes)
  | sub (off : Nat) (x : Bytes)
  deriving DecidableEq

/-- the chaining value after the bytes `p` of a chunk -/
def cvAt (κ : Vector Word 8) (S : Lab → Spec.Full) (off : Nat) (p : Bytes) : Vector Word 8 :=
  if p = [] then κ else (S (.block off p)).1

/-- `CHUNK_START` for the first block -/
def flagAt (f : Byte) (p : Bytes) : Byte := f ||| startFlag (p = [])

/-- all but the last block of a chunk -/
def before (x : Bytes) : Bytes := x.take (64 * ((x.length - 1) / 64))

/-- the compression that a label names, for a key and chaining values -/
def inpLab (κ : Vector Word 8) (f : Byte) (S : Lab → Spec.Full) : Lab → Spec.Input
  | .block off pre =>
    { cv := cvAt κ S off (before pre), block := Spec.pad (pre.drop (before pre).length), blockLen := 64,
      offset := BitVec.ofNat 64 off, flags := flagAt f (before pre) }
  | .sub off x =>
    if x.length ≤ 2048 then
      { cv := cvAt κ S off (before x), block := Spec.pad (x.drop (before x).length),
        blockLen := BitVec.ofNat 8 (x.drop (before x).length).length, offset := BitVec.ofNat 64 off,
        flags := flagAt f (before x) ||| Spec.chunkEnd }
    else
      Spec.parent κ f (S (.sub off (x.take (Spec.leftLen x.length)))).1
        (S (.sub (off + Spec.leftLen x.length) (x.drop (Spec.leftLen x.length)))).1

/-- the blocks of a chunk `p ++ c` after `p`, but the last -/
def labsChunk (off : Nat) (p c : Bytes) : List Lab :=
  if _h : c.length ≤ 64 then [] else .block off (p ++ c.take 64) :: labsChunk off (p ++ c.take 64) (c.drop 64)
termination_by c.length
decreasing_by simp; omega

/-- the compressions below the top node -/
def labsBelow (off : Nat) (x : Bytes) : List Lab :=
  if _h : x.length ≤ 2048 then labsChunk off [] x
  else
    labsBelow off (x.take (Spec.leftLen x.length)) ++ [.sub off (x.take (Spec.leftLen x.length))] ++
      (labsBelow (off + Spec.leftLen x.length) (x.drop (Spec.leftLen x.length)) ++
        [.sub (off + Spec.leftLen x.length) (x.drop (Spec.leftLen x.length))])
termination_by x.length
decreasing_by
  all_goals
    have := Spec.leftLen_lt (Nat.lt_of_not_le _h)
    have := Spec.leftLen_pos x.length
    simp only [List.length_take, List.length_drop]; omega

theorem before_append (p c : Bytes) (hp : p.length % 64 = 0) (hc : c.length ≤ 64) (hne : c ≠ [] ∨ p = []) : before (p ++ c) = p := by
  have hl : 64 * (((p ++ c).length - 1) / 64) = p.length := by
    rw [List.length_append]
    rcases hne with h | rfl
    · have := List.length_pos_iff.2 h
      omega
    · simp
      omega
  rw [before, hl, List.take_left]

theorem chunk_labs (F : Spec.Input → Vector Word 8) (κ : Vector Word 8) (f : Byte) (S : Lab → Spec.Full) (off : Nat) (c : Bytes) :
    ∀ p : Bytes, p.length % 64 = 0 → (c ≠ [] ∨ p = []) → (p ++ c).length ≤ 2048 →
    (∀ b ∈ labsChunk off p c, F (inpLab κ f S b) = (S b).1) →
    G.chunkFrom F f off (cvAt κ S off p) (flagAt f p) c = inpLab κ f S (.sub off (p ++ c)) ∧
    G.chunkBefore F f off (cvAt κ S off p) (flagAt f p) c = (labsChunk off p c).map (inpLab κ f S) := by
  induction hn : c.length using Nat.strongRecOn generalizing c with
  | ind n ih =>
  intro p hp hne hlen hS
  rw [G.chunkFrom, G.chunkBefore, labsChunk]
  rw [labsChunk] at hS
  by_cases h : c.length ≤ 64
  · rw [dif_pos h, dif_pos h, dif_pos h]
    refine ⟨?_, rfl⟩
    have hb := before_append p c hp h hne
    rw [inpLab, if_pos hlen, hb, List.drop_left]
  · rw [dif_neg h] at hS
    rw [dif_neg h, dif_neg h, dif_neg h]
    have h64 : (c.take 64).length = 64 := by simp; omega
    have hb : before (p ++ c.take 64) = p := before_append p _ hp (by omega) (Or.inl (by
      intro e; rw [e] at h64; cases h64))
    have hi : inpLab κ f S (.block off (p ++ c.take 64)) =
        { cv := cvAt κ S off p, block := Spec.pad (c.take 64), blockLen := 64, offset := BitVec.ofNat 64 off, flags := flagAt f p } := by
      rw [inpLab, hb, List.drop_left]
    have hne' : p ++ c.take 64 ≠ [] := by
      intro e
      rw [(List.append_eq_nil_iff.1 e).2] at h64
      cases h64
    have hcv : F { cv := cvAt κ S off p, block := Spec.pad (c.take 64), blockLen := 64, offset := BitVec.ofNat 64 off, flags := flagAt f p } =
        cvAt κ S off (p ++ c.take 64) := by
      rw [← hi, hS _ List.mem_cons_self, cvAt, if_neg hne']
    have hfl : flagAt f (p ++ c.take 64) = f := by
      rw [flagAt, decide_eq_false hne']
      exact BitVec.or_zero
    have happ : p ++ c.take 64 ++ c.drop 64 = p ++ c := by rw [List.append_assoc, List.take_append_drop]
    obtain ⟨h1, h2⟩ := ih (c.drop 64).length (by simp; omega) (c.drop 64) rfl (p ++ c.take 64)
      (by rw [List.length_append, h64]; omega) (Or.inl (by
        intro e
        have := congrArg List.length e
        rw [List.length_drop] at this
        simp only [List.length_nil] at this
        omega))
      (by rw [happ]; exact hlen) (fun b hb => hS b (List.mem_cons_of_mem _ hb))
    rw [hfl, happ] at h1
    rw [hfl] at h2
    dsimp only
    rw [hcv, h1, h2, List.map_cons, hi]
    exact ⟨rfl, rfl⟩

theorem subtree_labs (F : Spec.Input → Vector Word 8) (κ : Vector Word 8) (f : Byte) (S : Lab → Spec.Full) (x : Bytes) :
    ∀ off, (∀ b ∈ labsBelow off x, F (inpLab κ f S b) = (S b).1) →
    G.subtree F κ f off x = inpLab κ f S (.sub off x) ∧ G.below F κ f off x = (labsBelow off x).map (inpLab κ f S) := by
  induction hn : x.length using Nat.strongRecOn generalizing x with
  | ind n ih =>
  intro off hS
  rw [G.subtree, G.below, labsBelow]
  rw [labsBelow] at hS
  by_cases h : x.length ≤ 2048
  · rw [dif_pos h] at hS
    rw [dif_pos h, dif_pos h, dif_pos h]
    exact chunk_labs F κ f S off x [] rfl (Or.inr rfl) h hS
  · rw [dif_neg h] at hS
    rw [dif_neg h, dif_neg h, dif_neg h, inpLab, if_neg h]
    have hl := Spec.leftLen_lt (Nat.lt_of_not_le h)
    have hp := Spec.leftLen_pos x.length
    dsimp only
    generalize Spec.leftLen x.length = l at *
    obtain ⟨a1, a2⟩ := ih (x.take l).length (by simp; omega) (x.take l) rfl off (fun b hb => hS b (by simp [hb]))
    obtain ⟨b1, b2⟩ := ih (x.drop l).length (by simp; omega) (x.drop l) rfl (off + l) (fun b hb => hS b (by simp [hb]))
    rw [a1, b1, a2, b2, hS _ (by simp), hS _ (by simp)]
    refine ⟨rfl, ?_⟩
    simp

/-! ## finitely many labels -/

/-- labels for inputs of at most `N` bytes -/
def Lab.Ok (N : Nat) : Lab → Prop
  | .block off pre => off < 2 ^ 64 ∧ pre.length ≤ 2048 ∧ pre.length % 64 = 0 ∧ pre ≠ []
  | .sub off x => off + x.length < 2 ^ 64 ∧ x.length ≤ N

abbrev Inner (N : Nat) := { b : Lab // b.Ok N }

/-- what is asked for with the secret key: an input of at most `N` bytes, and the number of an output block -/
abbrev Msg (N : Nat) := { p : Bytes × Nat // p.1.length ≤ N ∧ p.2 < 2 ^ 58 }

open Classical in
/-- answers for all labels -/
noncomputable def ext {N : Nat} (S : Inner N → Spec.Full) (b : Lab) : Spec.Full :=
  if h : b.Ok N then S ⟨b, h⟩ else (Vector.replicate 8 0, Vector.replicate 8 0)

theorem ext_ok {N : Nat} (S : Inner N → Spec.Full) (b : Lab) (h : b.Ok N) : ext S b = S ⟨b, h⟩ := dif_pos h

/-- the compression at the root, for output block `j` -/
def inpRoot (κ : Vector Word 8) (f : Byte) (S : Lab → Spec.Full) (x : Bytes) (j : Nat) : Spec.Input :=
  { inpLab κ f S (.sub 0 x) with
    flags := (inpLab κ f S (.sub 0 x)).flags ||| Spec.rootFlag, offset := BitVec.ofNat 64 (64 * j) }

theorem before_length (x : Bytes) : (before x).length = 64 * ((x.length - 1) / 64) := by
  rw [before, List.length_take]
  omega

theorem before_ok {N : Nat} (off : Nat) (x : Bytes) (ho : off < 2 ^ 64) (hx : x.length ≤ 2048) :
    before x = [] ∨ (Lab.block off (before x)).Ok N := by
  by_cases h : before x = []
  · exact Or.inl h
  · right
    have := before_length x
    exact ⟨ho, by omega, by omega, h⟩

theorem rest_length (x : Bytes) : (x.drop (before x).length).length ≤ 64 := by
  have := before_length x
  rw [List.length_drop]
  omega

theorem before_rest (x : Bytes) : before x ++ x.drop (before x).length = x := by
  have h : before x = x.take (before x).length := by
    have := before_length x
    rw [this]
    rfl
  conv => lhs; lhs; rw [h]
  exact List.take_append_drop _ _

theorem cvAt_cases {N : Nat} (off : Nat) (p : Bytes) (h : p = [] ∨ (Lab.block off p).Ok N) :
    (∃ c : Inner N, ∀ κ S, cvAt κ (ext S) off p = (S c).1) ∨ ∀ (κ : Vector Word 8) (S : Inner N → Spec.Full), cvAt κ (ext S) off p = κ := by
  rcases h with h | h
  · exact Or.inr fun κ S => if_pos h
  · refine Or.inl ⟨⟨_, h⟩, fun κ S => ?_⟩
    rw [cvAt, if_neg h.2.2.2, ext_ok S _ h]

theorem sub_cv {N : Nat} (f : Byte) (off : Nat) (x : Bytes) (h : (Lab.sub off x).Ok N) :
    (∃ c : Inner N, ∀ κ S, (inpLab κ f (ext S) (.sub off x)).cv = (S c).1) ∨
      ∀ (κ : Vector Word 8) (S : Inner N → Spec.Full), (inpLab κ f (ext S) (.sub off x)).cv = κ := by
  by_cases hx : x.length ≤ 2048
  · simp only [inpLab, if_pos hx]
    exact cvAt_cases off _ (before_ok off x (by have := h.1; omega) hx)
  · simp only [inpLab, if_neg hx]
    exact Or.inr fun κ S => rfl

theorem cvAt_pair {N : Nat} (off off' : Nat) (p p' : Bytes) (h : p = [] ∨ (Lab.block off p).Ok N)
    (h' : p' = [] ∨ (Lab.block off' p').Ok N) :
    (p = [] ∧ p' = []) ∨ (off = off' ∧ p = p') ∨ decide (p = []) ≠ decide (p' = []) ∨
    ∃ c c' : Inner N, c ≠ c' ∧ ∀ κ S, cvAt κ (ext S) off p = cvAt κ (ext S) off' p' → (S c).1 = (S c').1 := by
  rcases h with h | h <;> rcases h' with h' | h'
  · exact Or.inl ⟨h, h'⟩
  · refine Or.inr (Or.inr (Or.inl ?_))
    rw [decide_eq_true h, decide_eq_false h'.2.2.2]
    decide
  · refine Or.inr (Or.inr (Or.inl ?_))
    rw [decide_eq_false h.2.2.2, decide_eq_true h']
    decide
  · by_cases e : off = off' ∧ p = p'
    · exact Or.inr (Or.inl e)
    · refine Or.inr (Or.inr (Or.inr ⟨⟨_, h⟩, ⟨_, h'⟩, ?_, fun κ S hS => ?_⟩))
      · intro h
        have := congrArg Subtype.val h
        simp only [Lab.block.injEq] at this
        exact e this
      · rw [cvAt, if_neg h.2.2.2, ext_ok S _ h, cvAt, if_neg h'.2.2.2, ext_ok S _ h'] at hS
        exact hS

/-- equal but for the offset -/
def Same (a b : Spec.Input) : Prop := a.cv = b.cv ∧ a.block = b.block ∧ a.blockLen = b.blockLen ∧ a.flags = b.flags

theorem sub_pair {N : Nat} {f : Byte} (hf : ModeFlag f) (off off' : Nat) (x x' : Bytes) (h : (Lab.sub off x).Ok N)
    (h' : (Lab.sub off' x').Ok N) :
    (∀ (κ : Vector Word 8) (S : Inner N → Spec.Full), ¬ Same (inpLab κ f (ext S) (.sub off x)) (inpLab κ f (ext S) (.sub off' x'))) ∨
    (∃ c c' : Inner N, c ≠ c' ∧ ∀ (κ : Vector Word 8) (S : Inner N → Spec.Full),
      Same (inpLab κ f (ext S) (.sub off x)) (inpLab κ f (ext S) (.sub off' x')) → (S c).1 = (S c').1) ∨
    (x = x' ∧ (off = off' ∨ x.length ≤ 2048)) := by
  by_cases hx : x.length ≤ 2048 <;> by_cases hx' : x'.length ≤ 2048
  · simp only [inpLab, if_pos hx, if_pos hx']
    have hr : ∀ (κ : Vector Word 8) (S : Inner N → Spec.Full), Same
        { cv := cvAt κ (ext S) off (before x), block := Spec.pad (x.drop (before x).length), blockLen := BitVec.ofNat 8 (x.drop (before x).length).length, offset := BitVec.ofNat 64 off, flags := flagAt f (before x) ||| Spec.chunkEnd }
        { cv := cvAt κ (ext S) off' (before x'), block := Spec.pad (x'.drop (before x').length), blockLen := BitVec.ofNat 8 (x'.drop (before x').length).length, offset := BitVec.ofNat 64 off', flags := flagAt f (before x') ||| Spec.chunkEnd } →
        x.drop (before x).length = x'.drop (before x').length ∧ decide (before x = []) = decide (before x' = []) ∧
          cvAt κ (ext S) off (before x) = cvAt κ (ext S) off' (before x') := by
      rintro κ S ⟨e1, e2, e3, e4⟩
      dsimp only at e1 e2 e3 e4
      exact ⟨pad_inj (rest_length x) (ofNat8_inj (rest_length x) (rest_length x') e3) e2, (flags_end hf hf e4).2, e1⟩
    by_cases hrest : x.drop (before x).length = x'.drop (before x').length
    · have hx0 : before x = before x' → x = x' := by
        intro e
        rw [← before_rest x, hrest, e, before_rest]
      rcases cvAt_pair off off' (before x) (before x') (before_ok (N := N) off x (by have := h.1; omega) hx)
        (before_ok off' x' (by have := h'.1; omega) hx') with ⟨e, e'⟩ | ⟨e, e'⟩ | e | ⟨c, c', hne, hc⟩
      · exact Or.inr (Or.inr ⟨hx0 (e.trans e'.symm), Or.inr hx⟩)
      · exact Or.inr (Or.inr ⟨hx0 e', Or.inl e⟩)
      · exact Or.inl fun κ S hs => e (hr κ S hs).2.1
      · exact Or.inr (Or.inl ⟨c, c', hne, fun κ S hs => hc κ S (hr κ S hs).2.2⟩)
    · exact Or.inl fun κ S hs => hrest (hr κ S hs).1
  · left
    intro κ S hs
    have := hs.2.2.2
    simp only [inpLab, if_pos hx, if_neg hx', Spec.parent] at this
    exact flags_kind hf hf this
  · left
    intro κ S hs
    have := hs.2.2.2
    simp only [inpLab, if_pos hx', if_neg hx, Spec.parent] at this
    exact flags_kind hf hf this.symm
  · have hl := Spec.leftLen_lt (Nat.lt_of_not_le hx)
    have hl' := Spec.leftLen_lt (Nat.lt_of_not_le hx')
    simp only [inpLab, if_neg hx, if_neg hx']
    generalize Spec.leftLen x.length = l at *
    generalize Spec.leftLen x'.length = l' at *
    have k1 : (Lab.sub off (x.take l)).Ok N := ⟨by have := h.1; rw [List.length_take]; omega, by have := h.2; rw [List.length_take]; omega⟩
    have k2 : (Lab.sub (off + l) (x.drop l)).Ok N := ⟨by have := h.1; rw [List.length_drop]; omega, by have := h.2; rw [List.length_drop]; omega⟩
    have k1' : (Lab.sub off' (x'.take l')).Ok N := ⟨by have := h'.1; rw [List.length_take]; omega, by have := h'.2; rw [List.length_take]; omega⟩
    have k2' : (Lab.sub (off' + l') (x'.drop l')).Ok N := ⟨by have := h'.1; rw [List.length_drop]; omega, by have := h'.2; rw [List.length_drop]; omega⟩
    have hs : ∀ (κ : Vector Word 8) (S : Inner N → Spec.Full), Same
        (Spec.parent κ f (ext S (.sub off (x.take l))).1 (ext S (.sub (off + l) (x.drop l))).1)
        (Spec.parent κ f (ext S (.sub off' (x'.take l'))).1 (ext S (.sub (off' + l') (x'.drop l'))).1) →
        (S ⟨_, k1⟩).1 = (S ⟨_, k1'⟩).1 ∧ (S ⟨_, k2⟩).1 = (S ⟨_, k2'⟩).1 := by
      intro κ S hs
      obtain ⟨e1, e2⟩ := append_inj32 hs.2.1
      rw [ext_ok S _ k1, ext_ok S _ k1'] at e1
      rw [ext_ok S _ k2, ext_ok S _ k2'] at e2
      exact ⟨cvBytes_inj e1, cvBytes_inj e2⟩
    by_cases e1 : (⟨_, k1⟩ : Inner N) = ⟨_, k1'⟩
    · by_cases e2 : (⟨_, k2⟩ : Inner N) = ⟨_, k2'⟩
      · have e1 := congrArg Subtype.val e1
        have e2 := congrArg Subtype.val e2
        simp only [Lab.sub.injEq] at e1 e2
        refine Or.inr (Or.inr ⟨?_, Or.inl e1.1⟩)
        rw [← List.take_append_drop l x, e1.2, e2.2, List.take_append_drop]
      · exact Or.inr (Or.inl ⟨_, _, e2, fun κ S h => (hs κ S h).2⟩)
    · exact Or.inr (Or.inl ⟨_, _, e1, fun κ S h => (hs κ S h).1⟩)

end Baokeshed.Proofs.Gen
