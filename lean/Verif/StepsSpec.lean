import Verif.Model.Steps
import Verif.Spec

/-!
# What portable.rs is expected to execute

Lists of steps, from the description of BLAKE2s in RFC 7693 and the lengths of the inputs alone.
-/

namespace Baokeshed.Spec.Expected
open Baokeshed.Model.Steps (Step)

/-- `v[a] = v[a] + v[b] + m`, where `m` has been read before -/
def addTwo (a b : Nat) : List Step := [⟨"state", [a]⟩, ⟨"state", [b]⟩, ⟨"wrapping_add", []⟩, ⟨"wrapping_add", []⟩, ⟨"state", [a]⟩]
/-- `v[a] = v[a] + v[b]` -/
def addOne (a b : Nat) : List Step := [⟨"state", [a]⟩, ⟨"state", [b]⟩, ⟨"wrapping_add", []⟩, ⟨"state", [a]⟩]
/-- `v[a] = (v[a] ^ v[b]) >>> n` -/
def xorRotate (a b n : Nat) : List Step := [⟨"state", [a]⟩, ⟨"state", [b]⟩, ⟨"^", []⟩, ⟨"rotate_right", [n]⟩, ⟨"state", [a]⟩]

/-- the mixing function G (RFC 7693, section 3.1) with the message words number `2 * k` and `2 * k + 1` of round `r` -/
def mix (r : Fin 7) (k : Fin 8) (a b c d : Nat) : List Step :=
  [⟨"MSG_SCHEDULE", [r.val, 2 * k.val]⟩, ⟨"msg", [((Spec.sigma r)[2 * k.val]).val]⟩,
   ⟨"MSG_SCHEDULE", [r.val, 2 * k.val + 1]⟩, ⟨"msg", [((Spec.sigma r)[2 * k.val + 1]).val]⟩] ++
  addTwo a b ++ xorRotate d a 16 ++ addOne c d ++ xorRotate b c 12 ++ addTwo a b ++ xorRotate d a 8 ++ addOne c d ++ xorRotate b c 7

/-- a round: four columns and four diagonals (RFC 7693, section 3.2) -/
def round (r : Fin 7) : List Step :=
  mix r 0 0 4 8 12 ++ mix r 1 1 5 9 13 ++ mix r 2 2 6 10 14 ++ mix r 3 3 7 11 15 ++
  mix r 4 0 5 10 15 ++ mix r 5 1 6 11 12 ++ mix r 6 2 7 8 13 ++ mix r 7 3 4 9 14

/-- load the message, set up the state, seven rounds -/
def inner : List Step :=
  ((List.range 16).map fun i => ⟨"from_le_bytes", [4 * i]⟩) ++ ((List.range 8).map fun i => ⟨"cv", [i]⟩) ++
  ((List.range 4).map fun i => ⟨"IV", [i]⟩) ++ [⟨"offset_low", []⟩, ⟨"offset_high", []⟩, ⟨"as Word", []⟩, ⟨"as Word", []⟩] ++
  (List.finRange 7).flatMap round

/-- both halves of the state are combined into the next chaining value -/
def compress : List Step :=
  inner ++ (List.range 8).flatMap fun i => [⟨"state", [i]⟩, ⟨"state", [i + 8]⟩, ⟨"^", []⟩, ⟨"cv", [i]⟩]

/-- sixteen words of output: the first half as above, the second half combined with the chaining value of the input -/
def compress_xof : List Step :=
  inner ++ ((List.range 8).flatMap fun i => [⟨"state", [i]⟩, ⟨"state", [i + 8]⟩, ⟨"^", []⟩, ⟨"to_le_bytes", [i]⟩]) ++
  (List.range 8).flatMap fun i => [⟨"state", [i + 8]⟩, ⟨"cv", [i]⟩, ⟨"^", []⟩, ⟨"to_le_bytes", [i + 8]⟩]

/-- `n` blocks, one after the other -/
def blocks : Nat → List Step
  | 0 => [⟨"while", [0]⟩]
  | n + 1 => [⟨"while", [1]⟩, ⟨"if", [if n = 0 then 1 else 0]⟩, ⟨"array_ref", [64 * (n + 1), 0, 64]⟩] ++ compress ++ blocks n

/-- one input of `n` blocks -/
def hash1 (n : Nat) : List Step :=
  [⟨"debug_assert", []⟩] ++ blocks n ++ (List.range 8).map fun i => ⟨"to_le_bytes", [i]⟩

/-- `m` inputs of `n` blocks -/
def inputs (n : Nat) : Nat → List Step
  | 0 => [⟨"for", [0]⟩]
  | m + 1 => [⟨"for", [1]⟩] ++ hash1 n ++ [⟨"+=", []⟩] ++ inputs n m

/-- `hash_many` -/
def hash_many (n m : Nat) : List Step := [⟨"debug_assert", []⟩] ++ inputs n m

end Baokeshed.Spec.Expected
