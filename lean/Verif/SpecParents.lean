import Verif.SpecLanes

/-!
# The kernel calls for parent nodes

`roots`, `parentCalls` and `topCalls` describe the calls with which the one-shot functions hash the parent nodes of a tree of `n` chunks:
subtrees of at most `max d 2` chunks have no parents hashed, where `d` is the number of lanes; in larger ones the hashes that the two sides leave are
hashed in pairs, as many pairs at a time as the kernels allow.
-/

namespace Baokeshed.Spec
open Baokeshed.Model Baokeshed.Model.I

/-- Calls of a kernel with parent nodes, which are one block long. -/
def parentKernel : Ev → Bool
  | .hash1 _ len => len == 64
  | .hash4 len => len == 64
  | .hash8 len => len == 64
  | _ => false

/-- The chunks of the left subtree. -/
def leftChunks (n : Nat) : Nat := 2 ^ Nat.log2 (n - 1)

theorem leftChunks_lt {n : Nat} (h : 2 ≤ n) : 0 < leftChunks n ∧ leftChunks n < n := by
  refine ⟨Nat.two_pow_pos _, ?_⟩
  have := Nat.log2_self_le (n := n - 1) (by omega)
  rw [leftChunks]
  omega

/-- how many hashes a subtree leaves at most -/
def wanted : Platform → Nat
  | .portable => 2
  | .sse41 => 4
  | .avx2 => 8

theorem two_le_wanted (p : Platform) : 2 ≤ wanted p := by cases p <;> decide

/-- The number of hashes left of `n` chunks. -/
def roots (p : Platform) (n : Nat) : Nat :=
  if _h : n ≤ wanted p then n
  else
    have := two_le_wanted p
    have := leftChunks_lt (n := n) (by omega)
    (roots p (leftChunks n) + roots p (n - leftChunks n) + 1) / 2
termination_by n

/-- The kernel calls until `roots` hashes are left. -/
def parentCalls (p : Platform) (n : Nat) : List Ev :=
  if _h : n ≤ wanted p then []
  else
    have := two_le_wanted p
    have := leftChunks_lt (n := n) (by omega)
    parentCalls p (leftChunks n) ++ (parentCalls p (n - leftChunks n) ++
      kernels p 64 ((roots p (leftChunks n) + roots p (n - leftChunks n)) / 2))
termination_by n

/-- The kernel calls from `c` hashes to the two below the root. -/
def topCalls (p : Platform) (c : Nat) : List Ev :=
  if _h : c ≤ 2 then [] else kernels p 64 (c / 2) ++ topCalls p ((c + 1) / 2)
termination_by c

end Baokeshed.Spec
