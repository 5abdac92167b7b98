import Verif.Spec

/-!
# Specification of hashing many inputs of the same number of blocks

What the C function `hash_many` (and each of its implementations) has to compute.
-/

namespace Baokeshed.Spec

/-- The chaining value after `blocks` whole blocks of `input`: block `b` is bytes `64 b` to
`64 b + 63`, all blocks carry `flags` and the same `offset`, the first one `first` and the last one
`last` in addition. -/
def blockChain (key : Vector Word 8) (offset : U64) (flags first last : Byte) (blocks : Nat)
    (input : Bytes) : Vector Word 8 :=
  (List.range blocks).foldl (fun cv b => compress
    { cv := cv, block := pad (input.drop (64 * b)), blockLen := 64, offset := offset,
      flags := flags ||| (if b = 0 then first else 0) ||| (if b + 1 = blocks then last else 0) }) key

/-- The 32-byte results for the first `num` inputs one after the other, input `i` at offset
`offset + i * step` (modulo 2^64). -/
def manyOut (key : Vector Word 8) (offset step : U64) (flags first last : Byte) (blocks num : Nat)
    (inputs : List Bytes) : Bytes :=
  (List.range num).flatMap fun i =>
    (cvBytes (blockChain key (offset + BitVec.ofNat 64 i * step) flags first last blocks
      (inputs.getD i []))).toList

/-- The same for inputs at any offsets: input `i` at `offset i`. -/
def eachOut (key : Vector Word 8) (offset : Nat → U64) (flags first last : Byte) (blocks num : Nat)
    (inputs : List Bytes) : Bytes :=
  (List.range num).flatMap fun i =>
    (cvBytes (blockChain key (offset i) flags first last blocks (inputs.getD i []))).toList

end Baokeshed.Spec
