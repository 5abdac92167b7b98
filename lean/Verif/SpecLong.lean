import Verif.Spec

/-!
# Chunks of any length

What the chunk state of the C code computes when nobody stops feeding it after 2048 bytes: its counter has
16 bits, so that block 1024, 2048, ... look like first blocks.
-/

namespace Baokeshed.Spec

/-- The last compression over `c`, of which block `b` is the next one. -/
def longFrom (flags : Byte) (offset : U64) (isRoot : Bool) (b : Nat) (cv : Vector Word 8) (c : Bytes) : Input :=
  if _h : c.length ≤ 64 then
    { cv, block := pad c, blockLen := BitVec.ofNat 8 c.length, offset,
      flags := flags ||| (if b % 1024 = 0 then chunkStart else 0) ||| chunkEnd |||
        (if isRoot then rootFlag else 0) }
  else
    longFrom flags offset isRoot (b + 1)
      (compress { cv, block := pad (c.take 64), blockLen := 64, offset,
                  flags := flags ||| (if b % 1024 = 0 then chunkStart else 0) })
      (c.drop 64)
termination_by c.length
decreasing_by simp; omega

/-- The last compression of a chunk of any length. -/
def longChunk (key : Vector Word 8) (flags : Byte) (offset : U64) (isRoot : Bool) (c : Bytes) : Input :=
  longFrom flags offset isRoot 0 key c

end Baokeshed.Spec
