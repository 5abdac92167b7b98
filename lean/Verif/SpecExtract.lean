import Verif.Spec

/-!
# Reading a message back from the compressions

If all calls of the compression function are recorded with their results, a hash leads back to what was hashed: the call
whose result it is, the calls whose results that call was given, and so on.  Nothing is computed here; only the record is
searched.  No call of the compression function appears.
-/

namespace Baokeshed.Spec

/-- calls of the compression function with the chaining values they returned -/
abbrev Record := List (Input × Vector Word 8)

/-- the first call that returned these 32 bytes -/
def Record.find (r : Record) (bytes : Bytes) : Option Input :=
  (r.find? fun p => decide ((cvBytes p.2).toList = bytes)).map (·.1)

/-- the message bytes of a block -/
def blockBytes (a : Input) : Bytes := a.block.toList.take a.blockLen.toNat

/-- Key and bytes of a chunk, from its last block `a` backwards to the one with `CHUNK_START`; at most `n` blocks. -/
def Record.chunk (r : Record) : (n : Nat) → (a : Input) → Option (Vector Word 8 × Bytes)
  | 0, _ => none
  | n + 1, a =>
    if a.flags &&& chunkStart ≠ 0 then some (a.cv, blockBytes a)
    else do
      let b ← r.find (cvBytes a.cv).toList
      let (key, before) ← r.chunk n b
      return (key, before ++ blockBytes a)

/-- Key and bytes of a subtree with top node `a`; at most `n` levels of parents.  A chunk has at most 32 blocks. -/
def Record.subtree (r : Record) : (n : Nat) → (a : Input) → Option (Vector Word 8 × Bytes)
  | 0, a => if a.flags &&& parentFlag ≠ 0 then none else r.chunk 32 a
  | n + 1, a =>
    if a.flags &&& parentFlag ≠ 0 then do
      let left ← r.find (a.block.toList.take 32)
      let right ← r.find (a.block.toList.drop 32)
      let (_, x) ← r.subtree n left
      let (_, y) ← r.subtree n right
      return (a.cv, x ++ y)
    else r.chunk 32 a

/-- The mode, from the flags of a node and from the key; the key bytes are those of the key words. -/
def modeOf (flags : Byte) (key : Vector Word 8) : Mode :=
  if flags &&& keyedHashFlag ≠ 0 then .keyedHash (cvBytes key)
  else if flags &&& deriveKeyFlag ≠ 0 then .deriveKey (cvBytes key)
  else .hash

/-- Mode, key and message behind 32 bytes of output: the call that returned them has to carry `ROOT`.  2^53 chunks are 2^64
bytes. -/
def Record.message (r : Record) (out : Bytes) : Option (Mode × Bytes) := do
  let a ← r.find out
  if a.flags &&& rootFlag = 0 then none
  else do
    let (key, m) ← r.subtree 53 a
    return (modeOf a.flags key, m)

end Baokeshed.Spec
