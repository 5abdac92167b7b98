import Verif.Proofs.Hasher
import Verif.Proofs.Output
import Verif.Model.World

/-! # Histories of API calls: the simulation proof used by Props/Hasher.lean -/

set_option linter.unusedVariables false

namespace Baokeshed.Proofs
open Baokeshed.Model

attribute [local irreducible] Spec.compress Spec.outBytes Spec.cvBytes Spec.pad

/-- The hasher of mode `m` that has received `bytes`. -/
def HasherAt (cfg : Config) (m : Spec.Mode) (bytes : Bytes) (h : Hasher) : Prop :=
  HasherOk m.key m.flag (Platform.detect cfg) bytes h ∧ bytes.length < 2 ^ 64

theorem HasherAt.new (cfg : Config) (m : Spec.Mode) : HasherAt cfg m [] (newHasher cfg m) := by
  refine ⟨?_, by simp⟩
  cases m with
  | hash => rw [newHasher, Hasher.new, iv_eq]; exact HasherOk.new ..
  | keyedHash k => rw [newHasher, Hasher.new_keyed, key_words_eq]; exact HasherOk.new ..
  | deriveKey k => rw [newHasher, Hasher.new_derive_key, key_words_eq]; exact HasherOk.new ..

theorem HasherAt.update {cfg : Config} {m : Spec.Mode} {bytes : Bytes} {h : Hasher} (hh : HasherAt cfg m bytes h)
    (s : Bytes) (hs : bytes.length + s.length < 2 ^ 64) :
    ∃ h', h.update cfg s = .ok h' ∧ HasherAt cfg m (bytes ++ s) h' := by
  obtain ⟨h', e, ok⟩ := update_eq _ _ cfg _ bytes s h hh.1 hs
  exact ⟨h', e, ok, by rwa [List.length_append]⟩

theorem HasherAt.write {cfg : Config} {m : Spec.Mode} {bytes : Bytes} {h : Hasher} (hh : HasherAt cfg m bytes h)
    (s : Bytes) (hs : bytes.length + s.length < 2 ^ 64) :
    ∃ h', h.write cfg s = .ok (s.length, h') ∧ h.update cfg s = .ok h' ∧ HasherAt cfg m (bytes ++ s) h' := by
  obtain ⟨h', e, ok⟩ := hh.update s hs
  exact ⟨h', by rw [Hasher.write, e]; rfl, e, ok⟩

theorem HasherAt.write_all {cfg : Config} {m : Spec.Mode} {bytes : Bytes} {h : Hasher} (hh : HasherAt cfg m bytes h)
    (s : Bytes) (hs : bytes.length + s.length < 2 ^ 64) :
    ∃ h', h.write_all cfg s = .ok (true, h') ∧ HasherAt cfg m (bytes ++ s) h' ∧
      (s ≠ [] → h.update cfg s = .ok h') := by
  rw [Hasher.write_all]
  by_cases h0 : s = []
  · rw [dif_pos h0, h0, List.append_nil]
    exact ⟨h, rfl, hh, fun h => absurd rfl h⟩
  · obtain ⟨h', e, e', ok⟩ := hh.write s hs
    have : 0 < s.length := List.length_pos_iff.2 h0
    rw [dif_neg h0, e, bind_ok]
    dsimp only
    rw [dif_neg (by omega), List.drop_length, Hasher.write_all, dif_pos rfl]
    exact ⟨h', rfl, ok, fun _ => e'⟩

theorem HasherAt.finalize_xof {cfg : Config} {m : Spec.Mode} {bytes : Bytes} {h : Hasher}
    (hh : HasherAt cfg m bytes h) :
    ∃ o, h.finalize_xof = .ok o ∧ o.platform = Platform.detect cfg ∧ toInput o = Spec.root m bytes := by
  obtain ⟨o, e, hp, ho⟩ := finalize_xof_eq _ _ _ bytes h hh.1 hh.2
  exact ⟨o, e, hp, ho⟩

theorem HasherAt.finalize {cfg : Config} {m : Spec.Mode} {bytes : Bytes} {h : Hasher}
    (hh : HasherAt cfg m bytes h) : h.finalize = .ok (Spec.hash m bytes) := by
  obtain ⟨o, e, -, ho⟩ := hh.finalize_xof
  rw [Hasher.finalize, e, bind_ok, pure_eq]
  refine congrArg Except.ok (Vector.toList_inj.1 ?_)
  rw [hash_toList, (OutAt.zero ho).to_hash]

theorem HasherAt.updates {cfg : Config} {m : Spec.Mode} (ss : List Bytes) :
    ∀ {bytes : Bytes} {h : Hasher}, HasherAt cfg m bytes h → bytes.length + ss.flatten.length < 2 ^ 64 →
    ∃ h', h.updates cfg ss = .ok h' ∧ HasherAt cfg m (bytes ++ ss.flatten) h' := by
  induction ss with
  | nil => intro bytes h hh _; exact ⟨h, rfl, by rwa [List.flatten_nil, List.append_nil]⟩
  | cons s ss ih =>
    intro bytes h hh hs
    rw [List.flatten_cons, List.length_append] at hs
    obtain ⟨h1, e1, ok1⟩ := hh.update s (by omega)
    obtain ⟨h2, e2, ok2⟩ := ih ok1 (by rw [List.length_append]; omega)
    refine ⟨h2, by rw [Hasher.updates, e1, bind_ok, e2], ?_⟩
    rwa [List.append_assoc, ← List.flatten_cons] at ok2

/-! ## Lists of values -/

/-- two lists related entry by entry -/
def Rel {α β} (P : α → β → Prop) (xs : List α) (ys : List β) : Prop :=
  xs.length = ys.length ∧ ∀ i (h1 : i < xs.length) (h2 : i < ys.length), P xs[i] ys[i]

theorem Rel.push {α β} {P : α → β → Prop} {xs : List α} {ys : List β} (h : Rel P xs ys) {x : α} {y : β} (hp : P x y) :
    Rel P (xs ++ [x]) (ys ++ [y]) := by
  refine ⟨by rw [List.length_append, List.length_append, h.1]; rfl, fun i h1 h2 => ?_⟩
  rw [List.getElem_append, List.getElem_append]
  have := h.1
  split
  · rw [dif_pos (by omega)]; exact h.2 i _ _
  · rw [dif_neg (by omega)]
    rw [List.getElem_singleton, List.getElem_singleton]; exact hp

theorem Rel.set {α β} {P : α → β → Prop} {xs : List α} {ys : List β} (h : Rel P xs ys) {x : α} {y : β} (hp : P x y)
    (i : Nat) : Rel P (xs.set i x) (ys.set i y) := by
  refine ⟨by rw [List.length_set, List.length_set, h.1], fun j h1 h2 => ?_⟩
  rw [List.getElem_set, List.getElem_set]
  split
  · exact hp
  · rw [List.length_set] at h1 h2; exact h.2 j h1 h2

end Baokeshed.Proofs
