import Verif.Props.Trace
import Verif.Proofs.Oblivious

/-!
# C45: what is compressed when does not depend on keys or content

The traced functions of Model/Trace.lean return what the functions of the model return (`C39_same_results`), and record
every compression in order.
-/

namespace Baokeshed.Props
open Baokeshed.Model Baokeshed.Proofs

/-- What an observer learns of a run: block length, offset and flags of each compression, in order, but no
chaining value and no block; and the reason of a panic. -/
def observed {α : Type} (x : T.TR α) : List (Byte × U64 × Byte) × Option Panic :=
  (x.log.map fun n => (n.blockLen, n.offset, n.flags), match x.res with | .ok _ => none | .error e => some e)

theorem observed_eq {α β : Type} {x : T.TR α} {y : T.TR β} {Q : α → β → Prop} (h : Obl.Rel Q x y) : observed x = observed y := by
  obtain ⟨rx, lx⟩ := x
  obtain ⟨ry, ly⟩ := y
  obtain ⟨h1, h2⟩ := h
  refine Prod.ext h1 ?_
  cases rx <;> cases ry
  · exact congrArg some h2
  · exact h2.elim
  · exact h2.elim
  · rfl

/-- Two modes of the same kind, with any keys. -/
inductive SameKind : Spec.Mode → Spec.Mode → Prop where
  | hash : SameKind .hash .hash
  | keyedHash (k k' : Vector Byte 32) : SameKind (.keyedHash k) (.keyedHash k')
  | deriveKey (k k' : Vector Byte 32) : SameKind (.deriveKey k) (.deriveKey k')

theorem SameKind.flag {m m' : Spec.Mode} (h : SameKind m m') : m.flag = m'.flag := by cases h <;> rfl

/-- C45.  The compressions performed by a one-shot function and by reads of its output, their order, lengths, offsets
and flags, and whether there is a panic, depend on the length of the input and the calls only: not on its content and not on
the key.  On any machine, also outside the supported lengths. -/
theorem C45_one_shot (cfg : Config) (prof : Profile) (m m' : Spec.Mode) (hm : SameKind m m') (x y : Bytes)
    (h : x.length = y.length) (os : List OutCall) :
    observed (T.oneShotRun cfg prof m x os) = observed (T.oneShotRun cfg prof m' y os) :=
  observed_eq (Obl.rel_oneShotRun cfg prof m m' hm.flag h os)

/-- The same calls, one after the other, on slices of the same lengths. -/
inductive SameCalls : List HCall → List HCall → Prop where
  | nil : SameCalls [] []
  | update (s t : Bytes) {cs ds : List HCall} : s.length = t.length → SameCalls cs ds →
      SameCalls (.update s :: cs) (.update t :: ds)
  | output (os : List OutCall) {cs ds : List HCall} : SameCalls cs ds → SameCalls (.output os :: cs) (.output os :: ds)

/-- C45.  The same for every sequence of `update`s, `finalize_xof`s and reads on a hasher. -/
theorem C45_session (cfg : Config) (prof : Profile) (m m' : Spec.Mode) (hm : SameKind m m') (cs ds : List HCall)
    (h : SameCalls cs ds) :
    observed (T.Hasher.session cfg prof cs (newHasher cfg m)) = observed (T.Hasher.session cfg prof ds (newHasher cfg m')) := by
  have hc : Obl.SameCalls cs ds := by
    induction h with
    | nil => exact .nil
    | update s t e _ ih => exact .cons (.update s t e) ih
    | output os _ ih => exact .cons (.output os) ih
  have hs : Obl.SimH (newHasher cfg m) (newHasher cfg m') := by
    cases hm <;> exact ⟨rfl, rfl, rfl, rfl, rfl, rfl⟩
  exact observed_eq (Obl.rel_session cfg prof hc hs)

/-! The hypotheses can be met; by `C39_one_shot` the list observed for 5000 bytes has 81 elements. -/

example (k k' : Vector Byte 32) : SameKind (.keyedHash k) (.keyedHash k') ∧ (rep 5000 3).length = (rep 5000 4).length :=
  ⟨.keyedHash k k', by simp⟩
example : SameCalls [.update (rep 5000 3), .output [.read], .update (rep 7 1), .output [.toHash]]
    [.update (rep 5000 4), .output [.read], .update (rep 7 2), .output [.toHash]] :=
  .update _ _ (by simp) (.output _ (.update _ _ (by simp) (.output _ .nil)))

end Baokeshed.Props
