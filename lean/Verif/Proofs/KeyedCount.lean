import Verif.Proofs.Keyed

/-!
# Two keyed modes with one key

The labels of both modes, and the inputs that they name for a key and chaining values.
-/

set_option linter.unusedVariables false

namespace Baokeshed.Proofs.Gen
open Baokeshed.Model Baokeshed.Proofs.Prf

attribute [local irreducible] Spec.cvBytes Spec.pad

/-- `keyed_hash` or `derive_key` -/
def two (d : Bool) (k : Vector Byte 32) : Spec.Mode := if d then .deriveKey k else .keyedHash k

def twoFlag (d : Bool) : Byte := if d then Spec.deriveKeyFlag else Spec.keyedHashFlag

theorem two_flag (d : Bool) (k : Vector Byte 32) : (two d k).flag = twoFlag d := by cases d <;> rfl

theorem twoFlag_mode (d : Bool) : ModeFlag (twoFlag d) := by
  rw [← two_flag d (Vector.replicate 32 0)]
  exact modeFlag _

theorem twoFlag_inj {d d' : Bool} (h : twoFlag d = twoFlag d') : d = d' := by
  cases d <;> cases d' <;> first | rfl | exact absurd h (by decide)

/-- the words of the key -/
def keyWords (k : Vector Byte 32) : Vector Word 8 := (two false k).key

theorem two_key (d : Bool) (k : Vector Byte 32) : (two d k).key = keyWords k := by cases d <;> rfl

/-- chaining values of one mode -/
def part {N : Nat} (S : Bool × Inner N → Spec.Full) (d : Bool) : Inner N → Spec.Full := fun b => S (d, b)

noncomputable def inp {N : Nat} (k : Vector Byte 32) (S : Bool × Inner N → Spec.Full) : (Bool × Inner N) ⊕ (Bool × Msg N) → Spec.Input
  | .inl b => inpLab (keyWords k) (twoFlag b.1) (ext (part S b.1)) b.2.1
  | .inr μ => inpRoot (keyWords k) (twoFlag μ.1) (ext (part S μ.1)) μ.2.1.1 μ.2.1.2

open Classical in
/-- the compressions for an answer -/
noncomputable def labs {N : Nat} (μ : Bool × Msg N) : Finset ((Bool × Inner N) ⊕ (Bool × Msg N)) :=
  insert (.inr μ) ((labsBelow 0 μ.2.1.1).filterMap fun b => if h : b.Ok N then some (.inl (μ.1, ⟨b, h⟩)) else none).toFinset

/-- the answer -/
def tag {N : Nat} (F : Spec.Input → Spec.Full) (k : Vector Byte 32) (μ : Bool × Msg N) : Spec.Full :=
  F (rootAt (low F) (two μ.1 k) μ.2.1.1 μ.2.1.2)

theorem labs_card {N : Nat} (μ : Bool × Msg N) : (labs μ).card ≤ (labsBelow 0 μ.2.1.1).length + 1 := by
  classical
  refine Nat.le_trans (Finset.card_insert_le _ _) (Nat.add_le_add_right ?_ 1)
  exact Nat.le_trans (List.toFinset_card_le _) (List.length_filterMap_le _ _)

theorem labsBelow_length (x : Bytes) (F : Spec.Input → Vector Word 8) (κ : Vector Word 8) (f : Byte) :
    (labsBelow 0 x).length = (G.below F κ f 0 x).length := by
  have h := subtree_labs (fun _ => Vector.replicate 8 0) κ f (fun _ => (Vector.replicate 8 0, Vector.replicate 8 0)) x 0 (fun _ _ => rfl)
  rw [below_length_eq F (fun _ => Vector.replicate 8 0), h.2, List.length_map]

theorem labsChunk_ok {N : Nat} (off : Nat) (ho : off < 2 ^ 64) (c : Bytes) : ∀ p : Bytes, p.length % 64 = 0 → (p ++ c).length ≤ 2048 →
    ∀ b ∈ labsChunk off p c, b.Ok N := by
  induction hn : c.length using Nat.strongRecOn generalizing c with
  | ind n ih =>
  intro p hp hlen b hb
  rw [labsChunk] at hb
  by_cases h : c.length ≤ 64
  · rw [dif_pos h] at hb
    cases hb
  · rw [dif_neg h] at hb
    have h64 : (c.take 64).length = 64 := by rw [List.length_take]; omega
    have hl : (p ++ c.take 64).length = p.length + 64 := by rw [List.length_append, h64]
    rw [List.length_append] at hlen
    rcases List.mem_cons.1 hb with rfl | hb
    · refine ⟨ho, by omega, by omega, ?_⟩
      intro e
      rw [e] at hl
      simp only [List.length_nil] at hl
      omega
    · refine ih (c.drop 64).length (by rw [List.length_drop]; omega) (c.drop 64) rfl (p ++ c.take 64) (by omega) ?_ b hb
      rw [List.append_assoc, List.take_append_drop, List.length_append]
      omega

theorem labsBelow_ok {N : Nat} (x : Bytes) : ∀ off, (Lab.sub off x).Ok N → ∀ b ∈ labsBelow off x, b.Ok N := by
  induction hn : x.length using Nat.strongRecOn generalizing x with
  | ind n ih =>
  intro off ⟨h1, h2⟩ b hb
  rw [labsBelow] at hb
  by_cases h : x.length ≤ 2048
  · rw [dif_pos h] at hb
    exact labsChunk_ok off (by omega) x [] rfl h b hb
  · rw [dif_neg h] at hb
    have hl := Spec.leftLen_lt (Nat.lt_of_not_le h)
    have hp := Spec.leftLen_pos x.length
    generalize Spec.leftLen x.length = l at *
    have k1 : (Lab.sub off (x.take l)).Ok N := ⟨by rw [List.length_take]; omega, by rw [List.length_take]; omega⟩
    have k2 : (Lab.sub (off + l) (x.drop l)).Ok N := ⟨by rw [List.length_drop]; omega, by rw [List.length_drop]; omega⟩
    simp only [List.mem_append, List.mem_singleton] at hb
    rcases hb with (hb | rfl) | hb | rfl
    · exact ih (x.take l).length (by rw [List.length_take]; omega) (x.take l) rfl off k1 b hb
    · exact k1
    · exact ih (x.drop l).length (by rw [List.length_drop]; omega) (x.drop l) rfl (off + l) k2 b hb
    · exact k2

theorem sub_ok {N : Nat} (hN : N < 2 ^ 64) (μ : Msg N) : (Lab.sub 0 μ.1.1).Ok N := ⟨by have := μ.2.1; omega, μ.2.1⟩

theorem mem_labs {N : Nat} {μ : Bool × Msg N} {b : (Bool × Inner N) ⊕ (Bool × Msg N)} :
    b ∈ labs μ ↔ b = .inr μ ∨ ∃ l ∈ labsBelow 0 μ.2.1.1, ∃ h : l.Ok N, b = .inl (μ.1, ⟨l, h⟩) := by
  classical
  rw [labs, Finset.mem_insert, List.mem_toFinset, List.mem_filterMap]
  refine or_congr Iff.rfl ⟨?_, ?_⟩
  · rintro ⟨l, hl, e⟩
    split at e
    · next h => exact ⟨l, hl, h, (Option.some.inj e).symm⟩
    · cases e
  · rintro ⟨l, hl, h, e⟩
    exact ⟨l, hl, by rw [dif_pos h, e]⟩

/-- with a function that answers like `S`, the labels name the compressions -/
theorem names {N : Nat} (hN : N < 2 ^ 64) (F : Spec.Input → Spec.Full) (k : Vector Byte 32) (G : Spec.Input ⊕ (Bool × Msg N) → Spec.Full)
    (S : Bool × Inner N → Spec.Full) (μ : Bool × Msg N) (h : ∀ b ∈ labs μ, F (inp k S b) = ans G S b) :
    inp k S (.inr μ) = rootAt (low F) (two μ.1 k) μ.2.1.1 μ.2.1.2 ∧
    Proofs.G.inner (low F) (two μ.1 k) μ.2.1.1 = (labsBelow 0 μ.2.1.1).map (inpLab (keyWords k) (twoFlag μ.1) (ext (part S μ.1))) := by
  have hs := subtree_labs (low F) (keyWords k) (twoFlag μ.1) (ext (part S μ.1)) μ.2.1.1 0 (fun b hb => by
    have hok := labsBelow_ok μ.2.1.1 0 (sub_ok hN μ.2) b hb
    have := h (.inl (μ.1, ⟨b, hok⟩)) (mem_labs.2 (Or.inr ⟨b, hb, hok, rfl⟩))
    rw [ext_ok _ _ hok]
    exact congrArg Prod.fst this)
  constructor
  · rw [rootAt, Proofs.G.root, two_key, two_flag, hs.1]
    rfl
  · rw [Proofs.G.inner, two_key, two_flag, hs.2]

theorem H1 {N : Nat} (hN : N < 2 ^ 64) (F : Spec.Input → Spec.Full) (k : Vector Byte 32) (G : Spec.Input ⊕ (Bool × Msg N) → Spec.Full)
    (S : Bool × Inner N → Spec.Full) (μ : Bool × Msg N) (h : ∀ b ∈ labs μ, F (inp k S b) = ans G S b) : tag F k μ = G (.inr μ) := by
  rw [tag, ← (names hN F k G S μ h).1, h _ (mem_labs.2 (Or.inl rfl))]
  rfl

theorem H2 {N : Nat} (hN : N < 2 ^ 64) (F : Spec.Input → Spec.Full) (k : Vector Byte 32) (G : Spec.Input ⊕ (Bool × Msg N) → Spec.Full)
    (S : Bool × Inner N → Spec.Full) (G' : Spec.Input ⊕ (Bool × Msg N) → Spec.Full) (S' : Bool × Inner N → Spec.Full) (μ : Bool × Msg N)
    (h : ∀ b ∈ labs μ, F (inp k S b) = ans G S b) (h' : ∀ b ∈ labs μ, F (inp k S' b) = ans G' S' b) :
    ∀ b ∈ labs μ, inp k S b = inp k S' b := by
  intro b hb
  have n := names hN F k G S μ h
  have n' := names hN F k G' S' μ h'
  rcases mem_labs.1 hb with rfl | ⟨l, hl, hok, rfl⟩
  · rw [n.1, n'.1]
  · exact List.map_inj_left.1 (n.2.symm.trans n'.2) l hl

/-! ## secret chaining values -/

/-- the chaining value that goes into a compression is the key or an answer -/
theorem inp_cv {N : Nat} (hN : N < 2 ^ 64) (b : (Bool × Inner N) ⊕ (Bool × Msg N)) :
    (∃ c : Bool × Inner N, ∀ k S, (inp k S b).cv = (S c).1) ∨
      ∀ (k : Vector Byte 32) (S : Bool × Inner N → Spec.Full), (inp k S b).cv = keyWords k := by
  rcases b with ⟨d, b, hb⟩ | ⟨d, μ⟩
  · have h : (∃ c : Inner N, ∀ κ S, (inpLab κ (twoFlag d) (ext S) b).cv = (S c).1) ∨
        ∀ (κ : Vector Word 8) (S : Inner N → Spec.Full), (inpLab κ (twoFlag d) (ext S) b).cv = κ := by
      cases b with
      | block off pre => exact cvAt_cases off _ (before_ok off pre hb.1 hb.2.1)
      | sub off x => exact sub_cv _ off x hb
    rcases h with ⟨c, h⟩ | h
    · exact Or.inl ⟨(d, c), fun k S => h (keyWords k) (part S d)⟩
    · exact Or.inr fun k S => h (keyWords k) (part S d)
  · rcases sub_cv (twoFlag d) 0 μ.1.1 (sub_ok hN μ) with ⟨c, h⟩ | h
    · exact Or.inl ⟨(d, c), fun k S => h (keyWords k) (part S d)⟩
    · exact Or.inr fun k S => h (keyWords k) (part S d)

theorem ofNat64_inj {a b : Nat} (ha : a < 2 ^ 64) (hb : b < 2 ^ 64) (h : BitVec.ofNat 64 a = BitVec.ofNat 64 b) : a = b := by
  have := congrArg BitVec.toNat h
  rwa [BitVec.toNat_ofNat, BitVec.toNat_ofNat, Nat.mod_eq_of_lt ha, Nat.mod_eq_of_lt hb] at this

/-- the flags of a compression -/
theorem lab_flags (κ : Vector Word 8) (f : Byte) (S : Lab → Spec.Full) (off : Nat) (x : Bytes) :
    (x.length ≤ 2048 ∧ ∃ s, (inpLab κ f S (.sub off x)).flags = f ||| startFlag s ||| Spec.chunkEnd) ∨
    (inpLab κ f S (.sub off x)).flags = f ||| Spec.parentFlag := by
  by_cases h : x.length ≤ 2048
  · left
    simp only [inpLab, if_pos h]
    exact ⟨h, _, rfl⟩
  · right
    simp only [inpLab, if_neg h]
    rfl

theorem flags_sep {f f' : Byte} (hf : ModeFlag f) (hf' : ModeFlag f') {x x' : Byte}
    (hx : (∃ s, x = f ||| startFlag s ||| Spec.chunkEnd) ∨ x = f ||| Spec.parentFlag) :
    ((∃ s, x' = f' ||| startFlag s ||| Spec.chunkEnd) ∨ x' = f' ||| Spec.parentFlag → x = x' → f = f') ∧
    ((∃ s, x' = f' ||| startFlag s ||| Spec.chunkEnd) ∨ x' = f' ||| Spec.parentFlag → x ≠ x' ||| Spec.rootFlag) ∧
    ∀ s, f' ||| startFlag s ≠ x ∧ f' ||| startFlag s ≠ x ||| Spec.rootFlag := by
  refine ⟨?_, ?_, ?_⟩
  · rintro (⟨s', rfl⟩ | rfl) <;> rcases hx with ⟨s, rfl⟩ | rfl <;> (try cases s) <;> (try cases s') <;>
      rcases hf with rfl | rfl | rfl <;> rcases hf' with rfl | rfl | rfl <;> decide
  · rintro (⟨s', rfl⟩ | rfl) <;> rcases hx with ⟨s, rfl⟩ | rfl <;> (try cases s) <;> (try cases s') <;>
      rcases hf with rfl | rfl | rfl <;> rcases hf' with rfl | rfl | rfl <;> decide
  · intro s'
    rcases hx with ⟨s, rfl⟩ | rfl <;> (try cases s) <;> cases s' <;>
      rcases hf with rfl | rfl | rfl <;> rcases hf' with rfl | rfl | rfl <;> decide

theorem lab_flags' (κ : Vector Word 8) (f : Byte) (S : Lab → Spec.Full) (off : Nat) (x : Bytes) :
    (∃ s, (inpLab κ f S (.sub off x)).flags = f ||| startFlag s ||| Spec.chunkEnd) ∨
    (inpLab κ f S (.sub off x)).flags = f ||| Spec.parentFlag :=
  (lab_flags κ f S off x).imp (fun h => h.2) id

theorem block_rest (off : Nat) (pre : Bytes) {N : Nat} (h : (Lab.block off pre).Ok N) : (pre.drop (before pre).length).length = 64 := by
  have h1 := before_length pre
  have h2 := List.length_pos_iff.2 h.2.2.2
  have h3 := h.2.2.1
  rw [List.length_drop]
  omega

/-- either never equal, or equal only with an equation between two answers -/
def Apart {N : Nat} (b c : (Bool × Inner N) ⊕ (Bool × Msg N)) : Prop :=
  (∀ (k : Vector Byte 32) (S : Bool × Inner N → Spec.Full), inp k S b ≠ inp k S c) ∨
  ∃ e e' : Bool × Inner N, e ≠ e' ∧ ∀ (k : Vector Byte 32) (S : Bool × Inner N → Spec.Full), inp k S b = inp k S c → (S e).1 = (S e').1

theorem Apart.symm {N : Nat} {b c : (Bool × Inner N) ⊕ (Bool × Msg N)} (h : Apart b c) : Apart c b := by
  rcases h with h | ⟨e, e', hne, h⟩
  · exact Or.inl fun k S he => h k S he.symm
  · exact Or.inr ⟨e, e', hne, fun k S he => h k S he.symm⟩

theorem inner_pair {N : Nat} (d d' : Bool) (b b' : Inner N) (hne : (d, b) ≠ (d', b')) :
    Apart (N := N) (.inl (d, b)) (.inl (d', b')) := by
  obtain ⟨b, hb⟩ := b
  obtain ⟨b', hb'⟩ := b'
  cases b with
  | block off pre =>
    cases b' with
    | block off' pre' =>
      have hsep : ∀ (k : Vector Byte 32) (S : Bool × Inner N → Spec.Full),
          inp k S (.inl (d, ⟨_, hb⟩)) = inp k S (.inl (d', ⟨_, hb'⟩)) →
          d = d' ∧ off = off' ∧ pre.drop (before pre).length = pre'.drop (before pre').length ∧
          decide (before pre = []) = decide (before pre' = []) ∧
          cvAt (keyWords k) (ext (part S d)) off (before pre) = cvAt (keyWords k) (ext (part S d')) off' (before pre') := by
        intro k S h
        simp only [inp, inpLab, Spec.Input.mk.injEq] at h
        obtain ⟨e1, e2, -, e4, e5⟩ := h
        obtain ⟨f1, f2⟩ := flags_block (twoFlag_mode d) (twoFlag_mode d') e5
        have l := block_rest off pre hb
        have l' := block_rest off' pre' hb'
        exact ⟨twoFlag_inj f1, ofNat64_inj hb.1 hb'.1 e4, pad_inj (by omega) (by omega) e2, f2, e1⟩
      by_cases hd : d = d' ∧ off = off' ∧ pre.drop (before pre).length = pre'.drop (before pre').length
      · obtain ⟨rfl, rfl, hr⟩ := hd
        have hbp : before pre ≠ before pre' := by
          intro e
          apply hne
          have : pre = pre' := by rw [← before_rest pre, hr, e, before_rest]
          subst this
          rfl
        rcases cvAt_pair off off (before pre) (before pre') (before_ok (N := N) off pre hb.1 hb.2.1)
          (before_ok off pre' hb'.1 hb'.2.1) with ⟨e, e'⟩ | ⟨e, e'⟩ | e | ⟨c, c', hc, hcc⟩
        · exact absurd (e.trans e'.symm) hbp
        · exact absurd e' hbp
        · exact Or.inl fun k S h => e (hsep k S h).2.2.2.1
        · exact Or.inr ⟨(d, c), (d, c'), fun h => hc (congrArg Prod.snd h), fun k S h => hcc (keyWords k) (part S d) (hsep k S h).2.2.2.2⟩
      · exact Or.inl fun k S h => hd ⟨(hsep k S h).1, (hsep k S h).2.1, (hsep k S h).2.2.1⟩
    | sub off' x' =>
      refine Or.inl fun k S h => ?_
      exact ((flags_sep (twoFlag_mode d') (twoFlag_mode d) (x' := 0) (lab_flags' _ _ _ off' x')).2.2 _).1 (congrArg Spec.Input.flags h)
  | sub off x =>
    cases b' with
    | block off' pre' =>
      refine Or.inl fun k S h => ?_
      exact ((flags_sep (twoFlag_mode d) (twoFlag_mode d') (x' := 0) (lab_flags' _ _ _ off x)).2.2 _).1 (congrArg Spec.Input.flags h).symm
    | sub off' x' =>
      by_cases hd : d = d'
      · subst hd
        rcases sub_pair (N := N) (twoFlag_mode d) off off' x x' hb hb' with h | ⟨c, c', hc, hcc⟩ | ⟨rfl, ho⟩
        · refine Or.inl fun k S e => h (keyWords k) (part S d) ?_
          exact ⟨congrArg Spec.Input.cv e, congrArg Spec.Input.block e, congrArg Spec.Input.blockLen e, congrArg Spec.Input.flags e⟩
        · refine Or.inr ⟨(d, c), (d, c'), fun h => hc (congrArg Prod.snd h), fun k S e => hcc (keyWords k) (part S d) ?_⟩
          exact ⟨congrArg Spec.Input.cv e, congrArg Spec.Input.block e, congrArg Spec.Input.blockLen e, congrArg Spec.Input.flags e⟩
        · have hoff : off ≠ off' := by
            rintro rfl
            exact hne rfl
          refine Or.inl fun k S e => hoff ?_
          have hl := ho.resolve_left hoff
          have e := congrArg Spec.Input.offset e
          simp only [inp, inpLab, if_pos hl] at e
          exact ofNat64_inj (by have := hb.1; omega) (by have := hb'.1; omega) e
      · refine Or.inl fun k S h => hd (twoFlag_inj ?_)
        exact (flags_sep (twoFlag_mode d) (twoFlag_mode d') (lab_flags' _ _ _ off x)).1 (lab_flags' _ _ _ off' x') (congrArg Spec.Input.flags h)

theorem root_pair {N : Nat} (hN : N < 2 ^ 64) (d d' : Bool) (μ μ' : Msg N) (hne : (d, μ) ≠ (d', μ')) :
    Apart (N := N) (.inr (d, μ)) (.inr (d', μ')) := by
  have hfl : ∀ (k : Vector Byte 32) (S : Bool × Inner N → Spec.Full), inp k S (.inr (d, μ)) = inp k S (.inr (d', μ')) →
      (inpLab (keyWords k) (twoFlag d) (ext (part S d)) (.sub 0 μ.1.1)).flags =
      (inpLab (keyWords k) (twoFlag d') (ext (part S d')) (.sub 0 μ'.1.1)).flags := fun k S h =>
    flags_root (twoFlag_mode d) (twoFlag_mode d') (lab_flags' _ _ _ 0 μ.1.1) (lab_flags' _ _ _ 0 μ'.1.1) (congrArg Spec.Input.flags h)
  by_cases hd : d = d'
  · subst hd
    have same : ∀ (k : Vector Byte 32) (S : Bool × Inner N → Spec.Full), inp k S (.inr (d, μ)) = inp k S (.inr (d, μ')) →
        Same (inpLab (keyWords k) (twoFlag d) (ext (part S d)) (.sub 0 μ.1.1)) (inpLab (keyWords k) (twoFlag d) (ext (part S d)) (.sub 0 μ'.1.1)) :=
      fun k S e => ⟨show (inp k S (.inr (d, μ))).cv = (inp k S (.inr (d, μ'))).cv from congrArg _ e,
        show (inp k S (.inr (d, μ))).block = (inp k S (.inr (d, μ'))).block from congrArg _ e,
        show (inp k S (.inr (d, μ))).blockLen = (inp k S (.inr (d, μ'))).blockLen from congrArg _ e, hfl k S e⟩
    rcases sub_pair (N := N) (twoFlag_mode d) 0 0 μ.1.1 μ'.1.1 (sub_ok hN μ) (sub_ok hN μ') with h | ⟨c, c', hc, hcc⟩ | ⟨hx, -⟩
    · exact Or.inl fun k S e => h (keyWords k) (part S d) (same k S e)
    · exact Or.inr ⟨(d, c), (d, c'), fun h => hc (congrArg Prod.snd h), fun k S e => hcc (keyWords k) (part S d) (same k S e)⟩
    · refine Or.inl fun k S e => hne ?_
      have e := congrArg Spec.Input.offset e
      have h1 := μ.2.2
      have h2 := μ'.2.2
      have := ofNat64_inj (a := 64 * μ.1.2) (b := 64 * μ'.1.2) (by omega) (by omega) e
      rw [show μ = μ' from Subtype.ext (Prod.ext hx (by omega))]
  · exact Or.inl fun k S h => hd (twoFlag_inj
      ((flags_sep (twoFlag_mode d) (twoFlag_mode d') (lab_flags' _ _ _ 0 μ.1.1)).1 (lab_flags' _ _ _ 0 μ'.1.1) (hfl k S h)))

theorem mixed_pair {N : Nat} (d d' : Bool) (b : Inner N) (μ : Msg N) : Apart (N := N) (.inl (d, b)) (.inr (d', μ)) := by
  obtain ⟨b, hb⟩ := b
  refine Or.inl fun k S h => ?_
  have h := congrArg Spec.Input.flags h
  cases b with
  | block off pre => exact ((flags_sep (twoFlag_mode d') (twoFlag_mode d) (x' := 0) (lab_flags' _ _ _ 0 μ.1.1)).2.2 _).2 h
  | sub off x => exact (flags_sep (twoFlag_mode d) (twoFlag_mode d') (lab_flags' _ _ _ off x)).2.1 (lab_flags' _ _ _ 0 μ.1.1) h

theorem inp_pair {N : Nat} (hN : N < 2 ^ 64) (b c : (Bool × Inner N) ⊕ (Bool × Msg N)) (hne : b ≠ c) : Apart b c := by
  rcases b with ⟨d, b⟩ | ⟨d, μ⟩ <;> rcases c with ⟨d', b'⟩ | ⟨d', μ'⟩
  · exact inner_pair d d' b b' fun h => hne (congrArg _ h)
  · exact mixed_pair d d' b μ'
  · exact (mixed_pair d' d b' μ).symm
  · exact root_pair hN d d' μ μ' fun h => hne (congrArg _ h)

end Baokeshed.Proofs.Gen
