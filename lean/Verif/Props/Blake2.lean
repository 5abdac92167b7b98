import Verif.Proofs.Blake2
import Verif.Props.Ex

/-!
# C47: the round functions are those of BLAKE2

`Verif.SpecBlake2` is RFC 7693.  The vectors below tie it to the published hashes; the theorems tie the round functions
of the code, and those of the two specifications the rest of this development relies on, to it.
-/

set_option linter.unusedVariables false

namespace Baokeshed.Props
open Baokeshed.Model Baokeshed.Proofs

/-- C47.  What `test_round_fn_compatible_with_blake2s` tries on one message holds for every message of at most one
block: BLAKE2s built from the tables and the round function of baokeshed.py is BLAKE2s. -/
theorem C47_python (msg : Bytes) (h : msg.length ≤ 64) : Py.test_blake2s msg = .ok (Blake2.blake2s msg) :=
  test_blake2s_eq msg h

/-- C47.  The rounds of portable.rs are the first seven of BLAKE2s, those of portable64.rs the first eight of BLAKE2b. -/
theorem C47_rust_rounds :
    (∀ (r : Fin 7) (v m : Vector Word 16),
      Portable.round v m r = Blake2.round Blake2.S (Blake2.SIGMA (r.castLE (by decide))) m v) ∧
    (∀ (r : Fin 8) (v m : Vector U64 16),
      Portable64.round v m r = Blake2.round Blake2.B (Blake2.SIGMA (r.castLE (by decide))) m v) := by
  have e1 : ∀ r : Fin 7, MSG_SCHEDULE[r] = Blake2.SIGMA (r.castLE (by decide)) := by decide
  have e2 : ∀ r : Fin 8, Portable64.MSG_SCHEDULE[r] = Blake2.SIGMA (r.castLE (by decide)) := by decide
  refine ⟨fun r v m => ?_, fun r v m => ?_⟩
  · rw [← e1, b2s_round]
    rfl
  · rw [← e2]
    simp only [Blake2.round, b2b_G]
    rfl

/-- C47.  The specification of the compression function (Verif/Spec.lean) consists of rounds of BLAKE2s, in the order
and with the constants of the RFC. -/
theorem C47_spec :
    (∀ i : Fin 8, Spec.iv i = Blake2.S.IV[i]) ∧
    (∀ r : Fin 7, Spec.sigma r = Blake2.SIGMA (r.castLE (by decide))) ∧
    (∀ (p : Vector (Fin 16) 16) (m v : Vector Word 16),
      toMatrix (Blake2.round Blake2.S p m v) = Spec.round p (fun i => m[i]) (toMatrix v)) := by
  refine ⟨by decide, by decide, fun p m v => ?_⟩
  rw [b2s_round, roundP_eq]

/-- C47.  The specification of the 64-bit compression function (Verif/Spec64.lean) consists of rounds of BLAKE2b. -/
theorem C47_spec64 :
    (∀ i : Fin 8, Spec64.iv i = Blake2.B.IV[i]) ∧
    (∀ r : Fin 8, Spec64.sigma r = Blake2.SIGMA (r.castLE (by decide))) ∧
    (∀ (p : Vector (Fin 16) 16) (m v : Vector U64 16),
      W64.toMatrix (Blake2.round Blake2.B p m v) = Spec64.round p (fun i => m[i]) (W64.toMatrix v)) := by
  refine ⟨by decide, by decide, fun p m v => ?_⟩
  rw [← W64.roundP_eq]
  simp only [Blake2.round, b2b_G, W64.roundP]

/-! ## Published hashes -/

/-- the bytes of an ASCII text -/
def ascii (s : String) : Bytes := s.toList.map fun c => BitVec.ofNat 8 c.toNat

/-- the bytes written in hexadecimal, two digits each -/
def unhex : List Char → Bytes
  | a :: b :: s => BitVec.ofNat 8 (16 * digit a + digit b) :: unhex s
  | _ => []
where
  digit (c : Char) : Nat := if c.toNat < 58 then c.toNat - 48 else c.toNat - 87

-- test_baokeshed.py:88-89
example : Blake2.blake2s (ascii "hello world") =
    unhex "9aec6806794561107e594b1f6a8a6b0c92a0cba9acf5e5e93cca06f781813b0b".toList := by decide +kernel
-- RFC 7693, appendix B
example : Blake2.blake2s (ascii "abc") =
    unhex "508c5e8c327c14e2e1a72ba34eeb452f37458b209ed63a294d999b4c86675982".toList := by decide +kernel
-- RFC 7693, appendix A
example : Blake2.blake2b (ascii "abc") =
    unhex ("ba80a53f981c4d0d6a2797b69f12f6e94c212f14685ac4b74b12bb6fdbffa2d1" ++
      "7d87c5392aab792dc252d5de4533cc9518d38aa8dbf1925ab92386edd4009923").toList := by decide +kernel
-- more than one block: the bytes 0 to 199
example : Blake2.blake2b ((List.range 200).map (BitVec.ofNat 8)) =
    unhex ("fb3c1f0f56a56f8e316fdf5d853c8c872c39635d083634c3904fc3ac07d1b578" ++
      "e85ff0e480e92d44ade33b62e893ee32343e79ddf6ef292e89b582d312502314").toList := by decide +kernel

-- the test itself
example : Py.test_blake2s (ascii "hello world") =
    .ok (unhex "9aec6806794561107e594b1f6a8a6b0c92a0cba9acf5e5e93cca06f781813b0b".toList) := by
  rw [C47_python _ (by decide)]; exact congrArg _ (by decide +kernel)

end Baokeshed.Props
