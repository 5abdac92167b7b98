import Verif.Basic

/-!
# Which offset a `hash_many` gives to its inputs, for any table of deltas

The `hash_many` functions of the C code take an array `offset_deltas`.  A back end works through its inputs
greedily, in batches of its widths, the widest first.  In a batch of several inputs, input `j` of the batch is
at `offset + offset_deltas[j]`, an input on its own is at `offset`, and after a batch of `w` the offset moves
by `offset_deltas[w]`.  This file says that in closed form, without a loop over the inputs.
-/

namespace Baokeshed.Spec

/-- The offset of input `i` of `num`, for a back end with batches of the given widths (widest first) and a
table `δ` of deltas.  With `w` the first width, the first `num / w * w` inputs are in batches of `w`, input `i`
is number `i % w` of batch `i / w`; the remaining `num % w` inputs are left to the narrower widths. -/
def tableOffset (δ : Nat → U64) : List Nat → Nat → U64 → Nat → U64
  | [], _, off, _ => off
  | w :: ws, num, off, i =>
    if i < num / w * w then off + BitVec.ofNat 64 (i / w) * δ w + (if w = 1 then 0 else δ (i % w))
    else tableOffset δ ws (num % w) (off + BitVec.ofNat 64 (num / w) * δ w) (i - num / w * w)

end Baokeshed.Spec
