import Verif.Proofs.Reference
import Verif.Proofs.World
import Verif.Props.Ex

/-!
# C13: the reference implementation

`RefProgram` is the way reference_impl.rs is used: construct, `update` any number of times,
`finalize` into a slice `out`.
-/

set_option linter.unusedVariables false

namespace Baokeshed.Props
open Baokeshed.Model Baokeshed.Proofs

/-- The constructor for each mode. -/
def refNew : Spec.Mode → Ref.Hasher
  | .hash => Ref.Hasher.new
  | .keyedHash k => Ref.Hasher.new_keyed k
  | .deriveKey k => Ref.Hasher.new_derive_key k

/-- A chain of updates. -/
def refUpdates : Ref.Hasher → List Bytes → R Ref.Hasher
  | h, [] => .ok h
  | h, s :: ss => do
    let h ← h.update s
    refUpdates h ss

/-- Construct, update, finalize. -/
def RefProgram (m : Spec.Mode) (ss : List Bytes) (out : Bytes) : R Bytes := do
  let h ← refUpdates (refNew m) ss
  h.finalize out

theorem refNew_ok (m : Spec.Mode) : RefOk m.key m.flag [] (refNew m) := by
  cases m with
  | hash =>
    have : Ref.IV = Vector.ofFn Spec.iv := iv_eq
    rw [refNew, Ref.Hasher.new, this]; exact RefOk.new _ 0
  | keyedHash k =>
    rw [refNew, Ref.Hasher.new_keyed, wordsArray_key]; exact RefOk.new _ Spec.keyedHashFlag
  | deriveKey k =>
    rw [refNew, Ref.Hasher.new_derive_key, wordsArray_key]; exact RefOk.new _ Spec.deriveKeyFlag

theorem refUpdates_ok (m : Spec.Mode) (ss : List Bytes) : ∀ (bytes : Bytes) (h : Ref.Hasher),
    RefOk m.key m.flag bytes h → bytes.length + ss.flatten.length ≤ 2 ^ 64 →
    ∃ h', refUpdates h ss = .ok h' ∧ RefOk m.key m.flag (bytes ++ ss.flatten) h' := by
  induction ss with
  | nil => intro bytes h hh _; exact ⟨h, rfl, by rwa [List.flatten_nil, List.append_nil]⟩
  | cons s ss ih =>
    intro bytes h hh hs
    rw [List.flatten_cons, List.length_append] at hs
    obtain ⟨h1, e1, ok1⟩ := RefOk.update_loop _ _ s.length hh s (Nat.le_refl _) (by omega)
    obtain ⟨h2, e2, ok2⟩ := ih _ h1 ok1 (by rw [List.length_append]; omega)
    refine ⟨h2, ?_, ?_⟩
    · rw [refUpdates, Ref.Hasher.update, e1, bind_ok, e2]
    · rwa [List.append_assoc, ← List.flatten_cons] at ok2

theorem refUpdates_long (m : Spec.Mode) (ss : List Bytes) : ∀ (bytes : Bytes) (h : Ref.Hasher),
    RefOk m.key m.flag bytes h → bytes.length ≤ 2 ^ 64 → 2 ^ 64 < bytes.length + ss.flatten.length →
    refUpdates h ss = .error .overflow := by
  induction ss with
  | nil => intro bytes h hh hb hs; simp at hs; omega
  | cons s ss ih =>
    intro bytes h hh hb hs
    rw [List.flatten_cons, List.length_append] at hs
    rw [refUpdates, Ref.Hasher.update]
    by_cases h1 : bytes.length + s.length ≤ 2 ^ 64
    · obtain ⟨h1, e1, ok1⟩ := RefOk.update_loop _ _ s.length hh s (Nat.le_refl _) h1
      rw [e1, bind_ok]
      exact ih _ h1 ok1 (by rw [List.length_append]; omega) (by rw [List.length_append]; omega)
    · rw [RefOk.update_loop_long _ _ s.length hh hb s (Nat.le_refl _) (by omega)]; rfl

/-- C13.  For every mode, every way of cutting the input into slices and every length of the output
slice, the reference implementation fills the output slice with the specified stream, without
panicking. -/
theorem C13_reference (m : Spec.Mode) (ss : List Bytes) (out : Bytes) (hl : ss.flatten.length ≤ 2 ^ 64)
    (ho : out.length ≤ 2 ^ 64 - 64) :
    RefProgram m ss out = .ok (Spec.output m ss.flatten out.length) := by
  obtain ⟨h, e, hok⟩ := refUpdates_ok m ss [] _ (refNew_ok m) (by simpa using hl)
  rw [List.nil_append] at hok
  rw [RefProgram, e, bind_ok, Ref.Hasher.finalize, Ref.Output.root_output_bytes]
  have := root_output_loop_eq (m := m) (input := ss.flatten) (RefOk.root _ _ hok) rfl out 0 (by omega)
  rw [output_eq_slice]
  exact this

/-- C13.  One byte more than 2^64 and it panics: the offset of the next chunk overflows. -/
theorem C13_reference_long (m : Spec.Mode) (ss : List Bytes) (out : Bytes) (hl : 2 ^ 64 < ss.flatten.length) :
    RefProgram m ss out = .error .overflow := by
  rw [RefProgram, refUpdates_long m ss [] _ (refNew_ok m) (by simp) (by simpa using hl)]; rfl

-- there are lists of updates of every length
example (n : Nat) : ∃ ss : List Bytes, ss.flatten.length = n :=
  ⟨[List.replicate n 0], by rw [List.flatten_cons, List.flatten_nil, List.append_nil, List.length_replicate]⟩

/-- C13.  With a 32-byte slice the reference implementation gives the one-shot hash of the library. -/
theorem C13_eq_one_shot (cfg : Config) (hv : cfg.Valid) (m : Spec.Mode) (ss : List Bytes) (out : Bytes)
    (hf : cfg.Fits ss.flatten.length) (ho : out.length = 32) :
    ∃ d, oneShot cfg m ss.flatten = .ok d ∧ RefProgram m ss out = .ok d.toList := by
  have h64 : ss.flatten.length < 2 ^ 64 := by
    have h1 : 2 ^ (cfg.usizeBits - 1) ≤ 2 ^ 64 := Nat.pow_le_pow_right (by decide) (by have := hv.2; omega)
    exact Nat.lt_of_lt_of_le hf h1
  obtain ⟨o, e', -, ho'⟩ := oneShotXof_eq cfg m ss.flatten hv hf
  refine ⟨_, oneShot_of_xof cfg m _ o e', ?_⟩
  rw [C13_reference m ss out (Nat.le_of_lt h64) (by omega), ho, (OutAt.zero ho').to_hash, output_eq_slice]

/-- C13.  The reference implementation and the library's `Hasher` give the same extended output,
whatever the slices each of them receives the input in. -/
theorem C13_eq_hasher (cfg : Config) (m : Spec.Mode) (ss ss' : List Bytes) (he : ss.flatten = ss'.flatten)
    (hl : ss.flatten.length < 2 ^ 64) (prof : Profile) (n : Nat) (hn : n ≤ 2 ^ 58 - 1) (out : Bytes)
    (ho : out.length = 64 * n) :
    ∃ h o bytes o', (newHasher cfg m).updates cfg ss = .ok h ∧ h.finalize_xof = .ok o ∧
      o.readMany prof n = .ok (bytes, o') ∧ RefProgram m ss' out = .ok bytes := by
  obtain ⟨h, e, hh⟩ := (HasherAt.new cfg m).updates ss (by simpa using hl)
  obtain ⟨o, e', -, ho'⟩ := hh.finalize_xof
  obtain ⟨o', e'', -⟩ := (OutAt.zero ho').readMany prof n (Or.inr (by omega))
  refine ⟨h, o, _, o', e, e', e'', ?_⟩
  rw [C13_reference m ss' out (Nat.le_of_lt (he ▸ hl)) (by omega), output_eq_slice, ho, ← he, List.nil_append]

-- three chunks and a bit, in pieces; 100 bytes of output
example : [rep 5000 7, [], rep 2000 1].flatten.length < 2 ^ 64 ∧ (rep 100 0).length ≤ 2 ^ 64 - 64 ∧
    exAvx2.Valid ∧ exAvx2.Fits [rep 5000 7, [], rep 2000 1].flatten.length := by simp

end Baokeshed.Props
