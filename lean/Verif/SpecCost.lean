import Verif.Model.Isa

/-!
# What hashing costs

Counts that do not refer to how the library proceeds.
-/

namespace Baokeshed.Spec
open Baokeshed.Model.I

/-- The compressions needed to hash `n` bytes: one per block of 64 bytes, at least one, and one per inner node of the
binary tree over the chunks of 2048 bytes. -/
def compressions (n : Nat) : Nat := max 1 ((n + 63) / 64) + (max 1 ((n + 2047) / 2048) - 1)

/-- How many bytes the event copies into a block buffer. -/
def weight : Ev → Nat
  | .copy n => n
  | _ => 0

/-- How many bytes are copied into block buffers. -/
def copied (l : List Ev) : Nat := (l.map weight).sum

end Baokeshed.Spec
