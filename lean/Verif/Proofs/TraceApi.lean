import Verif.Proofs.TraceHasher
import Verif.Proofs.Collide
import Verif.Props.Xof

/-! # Compressions performed by API calls: used by Props/Trace.lean -/

set_option linter.unusedVariables false

namespace Baokeshed.Proofs
open Baokeshed.Model Baokeshed.Model.T Baokeshed.Proofs.T

attribute [local irreducible] Spec.compress Spec.outBytes Spec.cvBytes Spec.pad

/-! ## Flags -/

/-- the flags of the compressions of a tree, except the root -/
def InnerFlags (f x : Byte) : Prop := ∃ s, x = f ||| startFlag s ∨ x = f ||| startFlag s ||| Spec.chunkEnd ∨
  x = f ||| Spec.parentFlag

theorem InnerFlags.mode {f x : Byte} (hf : ModeFlag f) (h : InnerFlags f x) : x &&& 0x30 = f ∧ x &&& 8 = 0 := by
  obtain ⟨s, rfl | rfl | rfl⟩ := h <;> cases s <;> rcases hf with rfl | rfl | rfl <;> decide

theorem chunkBefore_flags (f : Byte) (off : Nat) (c : Bytes) (cv : Vector Word 8) (s : Bool) :
    ∀ a ∈ Spec.chunkBefore f off cv (f ||| startFlag s) c, InnerFlags f a.flags := by
  induction hn : c.length using Nat.strongRecOn generalizing c cv s with
  | ind n ih =>
  intro a ha
  rw [Spec.chunkBefore] at ha
  split at ha
  · cases ha
  · rcases List.mem_cons.1 ha with rfl | ha
    · exact ⟨s, Or.inl rfl⟩
    · have := ih (c.drop 64).length (by rw [List.length_drop]; omega) (c.drop 64)
        (Spec.compress ⟨cv, Spec.pad (c.take 64), 64, BitVec.ofNat 64 off, f ||| startFlag s⟩) false rfl a
      rw [show f ||| startFlag false = f from BitVec.or_zero] at this
      exact this ha

theorem below_flags (k : Vector Word 8) (f : Byte) (off : Nat) (x : Bytes) :
    ∀ a ∈ Spec.below k f off x, InnerFlags f a.flags := by
  induction hn : x.length using Nat.strongRecOn generalizing x off with
  | ind n ih =>
  intro a ha
  have hs : ∀ o y, InnerFlags f (Spec.subtree k f o y).flags := by
    intro o y
    rcases subtree_flags k f o y with ⟨s, h⟩ | h
    · exact ⟨s, Or.inr (Or.inl h)⟩
    · exact ⟨false, Or.inr (Or.inr h)⟩
  rw [Spec.below] at ha
  split at ha
  · exact chunkBefore_flags f off x k true a ha
  · rename_i h
    have h1 := Spec.leftLen_lt (Nat.lt_of_not_le h)
    have h2 := Spec.leftLen_pos x.length
    simp only [List.mem_append, List.mem_singleton] at ha
    rcases ha with (ha | rfl) | (ha | rfl)
    · exact ih _ (by rw [List.length_take]; omega) _ _ rfl a ha
    · exact hs _ _
    · exact ih _ (by rw [List.length_drop]; omega) _ _ rfl a ha
    · exact hs _ _

theorem inner_flags (m : Spec.Mode) (x : Bytes) :
    ∀ a ∈ Spec.inner m x, a.flags &&& 0x30 = m.flag ∧ a.flags &&& 8 = 0 :=
  fun a ha => (below_flags _ _ _ _ a ha).mode (modeFlag m)

theorem root_flags (m : Spec.Mode) (x : Bytes) :
    (Spec.root m x).flags &&& 0x30 = m.flag ∧ (Spec.root m x).flags &&& 8 ≠ 0 := by
  show ((Spec.subtree m.key m.flag 0 x).flags ||| Spec.rootFlag) &&& 0x30 = m.flag ∧
    ((Spec.subtree m.key m.flag 0 x).flags ||| Spec.rootFlag) &&& 8 ≠ 0
  have hf := modeFlag m
  generalize m.flag = f at *
  rcases subtree_flags m.key f 0 x with ⟨s, h⟩ | h
  · rw [h]; cases s <;> rcases hf with rfl | rfl | rfl <;> decide
  · rw [h]; rcases hf with rfl | rfl | rfl <;> decide

/-! ## Numbers -/

theorem chunkBefore_length (f : Byte) (off : Nat) (c : Bytes) (cv : Vector Word 8) (x : Byte) :
    (Spec.chunkBefore f off cv x c).length = (c.length - 1) / 64 := by
  induction hn : c.length using Nat.strongRecOn generalizing c cv x with
  | ind n ih =>
  rw [Spec.chunkBefore]
  split
  · rw [List.length_nil]; omega
  · rw [List.length_cons, ih (c.drop 64).length (by rw [List.length_drop]; omega) _ _ _ rfl, List.length_drop]; omega

theorem below_length (k : Vector Word 8) (f : Byte) (off : Nat) (x : Bytes) :
    (Spec.below k f off x).length = (x.length - 1) / 64 + (x.length - 1) / 2048 := by
  induction hn : x.length using Nat.strongRecOn generalizing x off with
  | ind n ih =>
  rw [Spec.below]
  split
  · rw [chunkBefore_length]; omega
  · rename_i h
    have h1 := Spec.leftLen_lt (Nat.lt_of_not_le h)
    have h2 := Spec.leftLen_pos x.length
    have h3 : Spec.leftLen x.length = 2048 * 2 ^ Nat.log2 ((x.length - 1) / 2048) := rfl
    simp only [List.length_append, List.length_singleton]
    rw [ih _ (by rw [List.length_take]; omega) _ _ rfl, ih _ (by rw [List.length_drop]; omega) _ _ rfl,
      List.length_take, List.length_drop, Nat.min_eq_left (by omega)]
    generalize 2 ^ Nat.log2 ((x.length - 1) / 2048) = q at *
    omega

/-! ## Calls on an `Output` -/

/-- what a call on an `Output` returns if it performs the compression `n` -/
def outOf : OutCall → Spec.Input → Bytes
  | .read, n => (Spec.outBytes n).toList
  | .toHash, n => (Spec.cvBytes (Spec.compress n)).toList

theorem out_run_calls (prof : Profile) (os : List OutCall) : ∀ (o : Output),
    prof = .release ∨ o.offset.toNat + 64 * os.count .read < 2 ^ 64 →
    ∃ o' l, T.Output.run prof os o = ⟨.ok (List.zipWith outOf os l, o'), l⟩ ∧ l.length = os.length ∧
      ∀ a ∈ l, a = { toInput o with offset := a.offset } := by
  induction os with
  | nil => intro o _; exact ⟨o, [], rfl, rfl, by simp⟩
  | cons c os ih =>
    intro o ho
    cases c with
    | read =>
      have hr : ∃ o1, T.Output.read prof o = ⟨.ok (Spec.outBytes (toInput o), o1), [toInput o]⟩ ∧ (∀ x, { toInput o1 with offset := x } = { toInput o with offset := x }) ∧
          (prof = .release ∨ o1.offset.toNat + 64 * os.count .read < 2 ^ 64) := by
        unfold T.Output.read
        rw [tr_bind _ (show T.compress_xof _ _ _ _ _ _ = _ from rfl), plat_compress_xof]
        cases prof with
        | release => exact ⟨_, rfl, fun _ => rfl, Or.inl rfl⟩
        | debug =>
          have ho : o.offset.toNat + 64 * (OutCall.read :: os).count .read < 2 ^ 64 := by
            rcases ho with h | h
            · cases h
            · exact h
          rw [List.count_cons_self] at ho
          have hs : (o.offset + BitVec.ofNat 64 (2 * OUT_LEN)).toNat = o.offset.toNat + 64 := by
            rw [BitVec.toNat_add, show (BitVec.ofNat 64 (2 * OUT_LEN)).toNat = 64 from rfl]; omega
          simp only
          rw [addU64, if_pos (by rw [show (BitVec.ofNat 64 (2 * OUT_LEN)).toNat = 64 from rfl]; omega)]
          exact ⟨_, rfl, fun _ => rfl, Or.inr (by rw [hs]; omega)⟩
      obtain ⟨o1, e1, hf1, ho1⟩ := hr
      obtain ⟨o2, l, e2, hl, hfl⟩ := ih o1 ho1
      refine ⟨o2, toInput o :: l, ?_, by rw [List.length_cons, hl, List.length_cons], ?_⟩
      · rw [T.Output.run, tr_bind _ e1]
        dsimp only
        rw [tr_bind _ e2]
        dsimp only
        rw [log_pure, List.append_nil]
        rfl
      · intro a ha
        rcases List.mem_cons.1 ha with rfl | ha
        · rfl
        · exact (hfl a ha).trans (hf1 _)
    | toHash =>
      rw [List.count_cons_of_ne (by decide)] at ho
      obtain ⟨o2, l, e2, hl, hfl⟩ := ih o ho
      refine ⟨o2, toInput o :: l, ?_, by rw [List.length_cons, hl, List.length_cons], ?_⟩
      · rw [T.Output.run, tr_bind _ (tr_eq (to_hash_res o)), to_hash_log, to_hash_eq, tr_bind _ e2]
        dsimp only
        rw [log_pure, List.append_nil]
        rfl
      · intro a ha
        rcases List.mem_cons.1 ha with rfl | ha
        · rfl
        · exact hfl a ha

theorem out_run_log (prof : Profile) (os : List OutCall) (o : Output)
    (ho : prof = .release ∨ o.offset.toNat + 64 * os.count .read < 2 ^ 64) :
    ∃ o' l, T.Output.run prof os o = ⟨.ok (List.zipWith outOf os l, o'), l⟩ ∧ l.length = os.length ∧
      ∀ a ∈ l, a.flags = o.flags := by
  obtain ⟨o', l, e, hl, ha⟩ := out_run_calls prof os o ho
  exact ⟨o', l, e, hl, fun a h => by rw [ha a h]; rfl⟩

/-! ## One-shot functions -/

theorem oneShotXof_log (cfg : Config) (m : Spec.Mode) (input : Bytes) (hv : cfg.Valid) (hf : cfg.Fits input.length) :
    (T.oneShotXof cfg m input).log.Perm (Spec.inner m input) := by
  have hw : input.length < 2 ^ cfg.usizeBits :=
    Nat.lt_of_lt_of_le hf (Nat.pow_le_pow_right (by decide) (by omega))
  have h64 : input.length < 2 ^ 64 := Nat.lt_of_lt_of_le hw (Nat.pow_le_pow_right (by decide) hv.2)
  cases m with
  | hash => rw [T.oneShotXof, iv_eq]; exact hash_internal_log _ _ cfg input hw h64
  | keyedHash k => rw [T.oneShotXof, key_words_eq]; exact hash_internal_log _ _ cfg input hw h64
  | deriveKey k => rw [T.oneShotXof, key_words_eq]; exact hash_internal_log _ _ cfg input hw h64

/-! ## Hashers -/

/-- The hasher of mode `m` that has received `bytes`, performing the compressions `W`. -/
def WorkAt (cfg : Config) (m : Spec.Mode) (bytes : Bytes) (h : Hasher) (W : List Spec.Input) : Prop :=
  Work m.key m.flag (Platform.detect cfg) bytes h W ∧ HasherAt cfg m bytes h

theorem WorkAt.new (cfg : Config) (m : Spec.Mode) : WorkAt cfg m [] (newHasher cfg m) [] := by
  refine ⟨?_, HasherAt.new cfg m⟩
  cases m with
  | hash => rw [newHasher, Hasher.new, iv_eq]; exact Work.new ..
  | keyedHash k => rw [newHasher, Hasher.new_keyed, key_words_eq]; exact Work.new ..
  | deriveKey k => rw [newHasher, Hasher.new_derive_key, key_words_eq]; exact Work.new ..

theorem WorkAt.update {cfg : Config} {m : Spec.Mode} {bytes : Bytes} {h : Hasher} {W : List Spec.Input}
    (hh : WorkAt cfg m bytes h W) (s : Bytes) (hs : bytes.length + s.length < 2 ^ 64) :
    ∃ h' l, T.Hasher.update cfg h s = ⟨.ok h', l⟩ ∧ WorkAt cfg m (bytes ++ s) h' (W ++ l) := by
  obtain ⟨h', l, e, hw⟩ := update_log _ _ cfg _ bytes s h W hh.1 hs
  obtain ⟨h'', e', ha⟩ := hh.2.update s hs
  have := update_res cfg h s
  rw [e, e'] at this
  cases this
  exact ⟨h', l, e, hw, ha⟩

theorem WorkAt.updates {cfg : Config} {m : Spec.Mode} (ss : List Bytes) : ∀ {bytes : Bytes} {h : Hasher} {W : List Spec.Input},
    WorkAt cfg m bytes h W → bytes.length + ss.flatten.length < 2 ^ 64 →
    ∃ h' l, T.Hasher.updates cfg h ss = ⟨.ok h', l⟩ ∧ WorkAt cfg m (bytes ++ ss.flatten) h' (W ++ l) := by
  induction ss with
  | nil => intro bytes h W hh _; exact ⟨h, [], rfl, by rwa [List.flatten_nil, List.append_nil, List.append_nil]⟩
  | cons s ss ih =>
    intro bytes h W hh hs
    rw [List.flatten_cons, List.length_append] at hs
    obtain ⟨h1, l1, e1, ok1⟩ := hh.update s (by omega)
    obtain ⟨h2, l2, e2, ok2⟩ := ih ok1 (by rw [List.length_append]; omega)
    refine ⟨h2, l1 ++ l2, by rw [T.Hasher.updates, tr_bind _ e1, e2], ?_⟩
    rwa [List.append_assoc, ← List.flatten_cons, List.append_assoc] at ok2

theorem WorkAt.finalize_xof {cfg : Config} {m : Spec.Mode} {bytes : Bytes} {h : Hasher} {W : List Spec.Input}
    (hh : WorkAt cfg m bytes h W) :
    ∃ o l, T.Hasher.finalize_xof h = ⟨.ok o, l⟩ ∧ toInput o = Spec.root m bytes ∧
      (W ++ l).Perm (Spec.inner m bytes) := by
  obtain ⟨o, e, -, ho⟩ := hh.2.finalize_xof
  exact ⟨o, _, tr_eq ((finalize_xof_res h).trans e), ho, finalize_xof_log _ _ _ bytes h W hh.1 hh.2.2⟩

/-- A hasher only performs compressions of the tree over its input. -/
theorem WorkAt.mem {cfg : Config} {m : Spec.Mode} {bytes : Bytes} {h : Hasher} {W : List Spec.Input}
    (hh : WorkAt cfg m bytes h W) {a : Spec.Input} (ha : a ∈ W) : a ∈ Spec.inner m bytes := by
  obtain ⟨o, l, -, -, hp⟩ := hh.finalize_xof
  exact hp.mem_iff.1 (List.mem_append_left _ ha)

end Baokeshed.Proofs
