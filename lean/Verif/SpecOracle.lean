import Verif.Spec

/-!
# The mode over an arbitrary compression function

The tree, the flags, the lengths and the keys of `Spec`, as an algorithm that asks somebody else for the results of
compressions.  Whoever answers stands for the compression function; with the compression function itself the result is
`Spec.hash` (C81).
-/

namespace Baokeshed.Spec

/-- An algorithm that asks questions of type `X`, one after another, gets answers of type `Y`, and ends with a result.  What it
asks, and whether it asks at all, may depend on the answers before. -/
inductive Algo (X Y α : Type) where
  | done (a : α)
  | ask (x : X) (next : Y → Algo X Y α)

namespace Algo
variable {X Y α β : Type}

/-- one after the other -/
def bind : Algo X Y α → (α → Algo X Y β) → Algo X Y β
  | done a, f => f a
  | ask x k, f => ask x fun y => (k y).bind f

instance : Monad (Algo X Y) where
  pure := done
  bind := bind

/-- the result, if the function `F` answers -/
def result (F : X → Y) : Algo X Y α → α
  | done a => a
  | ask x k => (k (F x)).result F

/-- the questions, if the function `F` answers -/
def asked (F : X → Y) : Algo X Y α → List X
  | done _ => []
  | ask x k => x :: (k (F x)).asked F

end Algo

/-- What a compression gives: the chaining value, which is the first half of the 64 bytes, and the second half. -/
abbrev Full := Vector Word 8 × Vector Word 8

/-- algorithms that ask for compressions -/
abbrev Asking := Algo Input Full

/-- The last input of a chunk (`Spec.chunkFrom`), not asked for. -/
def chunkAsk (flags : Byte) (offset : Nat) (cv : Vector Word 8) (fl : Byte) (c : Bytes) : Asking Input :=
  if _h : c.length ≤ 64 then
    pure { cv, block := pad c, blockLen := BitVec.ofNat 8 c.length, offset := BitVec.ofNat 64 offset, flags := fl ||| chunkEnd }
  else
    .ask { cv, block := pad (c.take 64), blockLen := 64, offset := BitVec.ofNat 64 offset, flags := fl } fun y =>
      chunkAsk flags offset y.1 flags (c.drop 64)
termination_by c.length
decreasing_by simp; omega

/-- The top node over `input` (`Spec.subtree`), not asked for: left half, right half, parent. -/
def subtreeAsk (key : Vector Word 8) (flags : Byte) (offset : Nat) (input : Bytes) : Asking Input :=
  if _h : input.length ≤ 2048 then chunkAsk flags offset key (flags ||| chunkStart) input
  else do
    let left ← subtreeAsk key flags offset (input.take (leftLen input.length))
    .ask left fun l => do
      let right ← subtreeAsk key flags (offset + leftLen input.length) (input.drop (leftLen input.length))
      .ask right fun r => pure (parent key flags l.1 r.1)
termination_by input.length
decreasing_by
  all_goals
    have := leftLen_lt (Nat.lt_of_not_le _h)
    have := leftLen_pos input.length
    simp only [List.length_take, List.length_drop]; omega

/-- The root node (`Spec.root`), not asked for. -/
def rootAsk (m : Mode) (input : Bytes) : Asking Input := do
  let n ← subtreeAsk m.key m.flag 0 input
  pure { n with flags := n.flags ||| rootFlag }

/-- The hash: the chaining value of the root node. -/
def hashAsk (m : Mode) (input : Bytes) : Asking (Vector Byte 32) := do
  let n ← rootAsk m input
  .ask n fun y => pure (cvBytes y.1)

/-- Block `k` of the extended output: both halves, for the root node at byte offset `64 k`. -/
def blockAsk (m : Mode) (input : Bytes) (k : Nat) : Asking (Vector Byte 64) := do
  let n ← rootAsk m input
  .ask { n with offset := BitVec.ofNat 64 (64 * k) } fun y => pure (cvBytes y.1 ++ cvBytes y.2)

end Baokeshed.Spec
