import Verif.Spec

/-!
# The compressions of the tree

Which calls of the compression function the specified hash consists of.  Calls are their arguments.
-/

namespace Baokeshed.Spec

/-- The compressions of a chunk before the last one. -/
def chunkBefore (flags : Byte) (offset : Nat) (cv : Vector Word 8) (fl : Byte) (c : Bytes) : List Input :=
  if _h : c.length ≤ 64 then []
  else
    let n : Input := { cv, block := pad (c.take 64), blockLen := 64, offset := BitVec.ofNat 64 offset, flags := fl }
    n :: chunkBefore flags offset (compress n) flags (c.drop 64)
termination_by c.length
decreasing_by simp; omega

/-- The compressions below the top node of the subtree over `input`, which starts at byte `offset`. -/
def below (key : Vector Word 8) (flags : Byte) (offset : Nat) (input : Bytes) : List Input :=
  if h : input.length ≤ 2048 then chunkBefore flags offset key (flags ||| chunkStart) input
  else
    let l := leftLen input.length
    below key flags offset (input.take l) ++ [subtree key flags offset (input.take l)] ++
      (below key flags (offset + l) (input.drop l) ++ [subtree key flags (offset + l) (input.drop l)])
termination_by input.length
decreasing_by
  all_goals
    have := leftLen_lt (Nat.lt_of_not_le h)
    have := leftLen_pos input.length
    simp only [List.length_take, List.length_drop]; omega

/-- The compressions that give chaining values, for a whole input. -/
def inner (m : Mode) (input : Bytes) : List Input := below m.key m.flag 0 input

/-- All compressions for the first 32 (or 64) bytes of output. -/
def calls (m : Mode) (input : Bytes) : List Input := inner m input ++ [root m input]

/-- The compression for block `k` of the output. -/
def outCall (m : Mode) (input : Bytes) (k : Nat) : Input := { root m input with offset := BitVec.ofNat 64 (64 * k) }

end Baokeshed.Spec
