import Verif.Proofs.Hash
import Verif.Props.Ex

/-!
# C18, C19: the `Hash` type

`Spec.unhex` (SpecText.lean) says what hexadecimal text denotes.
-/

namespace Baokeshed.Props
open Baokeshed.Model Baokeshed.Proofs

/-- C18.  `to_hex` returns 64 lower-case hexadecimal digits that denote the hash; in particular it
does not panic. -/
theorem C18_to_hex (h : Vector Byte 32) :
    ∃ s, to_hex h = .ok s ∧ s.length = 64 ∧ Spec.LowerHex s ∧ Spec.unhex s = some h.toList :=
  ⟨_, to_hex_eq h, by rw [length_hexOf, Vector.length_toList], lower_hexOf _, unhex_hexOf _⟩

/-- C18.  Different hashes print differently. -/
theorem C18_injective (h h' : Vector Byte 32) (e : to_hex h = to_hex h') : h = h' := by
  obtain ⟨s, e1, -, -, u1⟩ := C18_to_hex h
  obtain ⟨s', e2, -, -, u2⟩ := C18_to_hex h'
  rw [e1, e2] at e
  rw [Except.ok.inj e, u2] at u1
  exact (Vector.toList_inj.1 (Option.some.inj u1)).symm

/-- C18.  The `Debug` form is `Hash(0x` followed by the same digits and `)`. -/
theorem C18_debug (h : Vector Byte 32) :
    ∃ s, Hash.debug h = .ok ("Hash(0x".toList ++ s ++ ")".toList) ∧ Spec.IsHexOf s h.toList :=
  ⟨_, by rw [Hash.debug, to_hex_eq]; rfl, hexOf_isHexOf _⟩

-- the text of the all-zero hash, and that of 0xa5 ... 0xa5
example : to_hex (Vector.replicate 32 0) = .ok (List.replicate 64 '0') := by decide +kernel
example : to_hex (Vector.replicate 32 0xa5) = .ok (List.replicate 32 ['a', '5']).flatten := by decide +kernel
example : Spec.unhex ['a', '5', 'F', '0'] = some [0xa5, 0xf0] := by decide
example : Spec.unhex ['a', 'g'] = none ∧ Spec.unhex ['a'] = none := by decide

/-- C19.  Comparison is equality of the 32 bytes. -/
theorem C19_eq (h h' : Vector Byte 32) : Hash.eq h h' = true ↔ ∀ i (_ : i < 32), h[i] = h'[i] := by
  rw [Hash.eq, ct_eq]
  constructor
  · intro e i hi; rw [Vector.toList_inj.1 e]
  · intro e; exact Vector.toList_inj.2 (Vector.ext fun i hi => e i hi)

/-- C19.  `Eq` is justified: the relation is reflexive, symmetric and transitive. -/
theorem C19_equivalence : Equivalence fun h h' : Vector Byte 32 => Hash.eq h h' = true where
  refl h := (C19_eq h h).2 fun _ _ => rfl
  symm h := (C19_eq _ _).2 fun i hi => ((C19_eq _ _).1 h i hi).symm
  trans h h' := (C19_eq _ _).2 fun i hi => ((C19_eq _ _).1 h i hi).trans ((C19_eq _ _).1 h' i hi)

-- hashes that differ in the last bit of the last byte only are told apart
example : Hash.eq (Vector.replicate 32 0) ((Vector.replicate 32 0).set 31 1) = false := by decide +kernel
example : Hash.eq (Vector.replicate 32 7) (Vector.replicate 32 7) = true := by decide +kernel

end Baokeshed.Props
