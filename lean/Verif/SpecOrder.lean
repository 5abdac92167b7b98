import Verif.Basic

/-!
# Reversing groups of bytes

What a host does to bytes that are stored as numbers of `k` bytes and read as single bytes, if its
byte order is the opposite of the one expected.
-/

namespace Baokeshed.Spec

/-- The bytes with each group of `k` reversed. -/
def revGroups (k : Nat) (bs : Bytes) : Bytes :=
  if h : bs = [] ∨ k = 0 then []
  else (bs.take k).reverse ++ revGroups k (bs.drop k)
termination_by bs.length
decreasing_by
  have := List.length_pos_iff.2 fun e => h (Or.inl e)
  rw [List.length_drop]; omega

example : revGroups 4 [1, 2, 3, 4, 5, 6, 7, 8] = [4, 3, 2, 1, 8, 7, 6, 5] := by
  simp [revGroups]

end Baokeshed.Spec
