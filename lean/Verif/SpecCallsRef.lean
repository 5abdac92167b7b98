import Verif.SpecCalls
import Verif.Model.TraceRef

/-!
# How a compression looks as a call of `compress` in reference_impl.rs and in baokeshed.py
-/

namespace Baokeshed.Spec
open Baokeshed.Model

/-- The call of reference_impl.rs: the block as sixteen little-endian words, the block length and the flags as words. -/
def refCall (n : Input) : RefT.Call where
  chaining_value := n.cv
  block_words := Vector.ofFn (blockWord n.block)
  offset := n.offset
  block_len := n.blockLen.setWidth 32
  flags := n.flags.setWidth 32

/-- The call of baokeshed.py.  `cv` may be followed by words that are never looked at (those of a key that is too
long), and only 64 bits of the offset count. -/
structure PyCall (c : PyT.Call) (n : Input) : Prop where
  cv : ∃ unused, c.cv = n.cv.toList.map BitVec.toNat ++ unused
  block : c.block = n.block.toList
  block_len : c.block_len = n.blockLen.toNat
  offset : BitVec.ofNat 64 c.offset = n.offset
  flags : c.flags = n.flags.toNat

/-- The compressions for `n` bytes of output: those that give chaining values, and one for each block of 64 bytes of
output, the last of which may be incomplete. -/
def outCalls (m : Mode) (input : Bytes) (n : Nat) : List Input :=
  inner m input ++ (List.range ((n + 63) / 64)).map (outCall m input)

end Baokeshed.Spec
