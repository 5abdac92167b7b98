import Verif.Model.Api
import Verif.Model.Python

/-!
# The recursive functions on a call stack of limited size

lib.rs and baokeshed.py each contain one recursive function, `hash_recurse`.  Here both have room for `n` nested
calls of it only; a further call ends with `Panic.stack`.  All other functions of the two files call each other
without recursion, so they need a fixed number of further frames.
-/

namespace Baokeshed.Model.D
open Baokeshed.Model

/-- lib.rs:450-512, the body as in Model/Lib.lean -/
def hash_recurse (cfg : Config) : (n : Nat) → (input : Bytes) → (key : Vector Word 8) → (offset : U64) →
    (flags : Byte) → (p : Platform) → (out : Bytes) → R (Nat × Bytes)
  | 0, _, _, _, _, _, _ => .error .stack
  | n + 1, input, key, offset, flags, p, out =>
    if input.length ≤ p.simd_degree * CHUNK_LEN then
      hash_chunks_parallel cfg input key offset flags p out
    else do
      let l ← left_len cfg.usizeBits input.length
      let left := input.take l
      let right := input.drop l
      let right_off ← addU64 offset (BitVec.ofNat 64 left.length)
      assertR (popcount p.simd_degree = 1)
      let children_array : Bytes := List.replicate (2 * MAX_SIMD_DEGREE_OR_2 cfg * OUT_LEN) 0
      let degree := if left.length = CHUNK_LEN then 1 else max p.simd_degree 2
      let (left_out, right_out) ← splitAtR children_array (degree * OUT_LEN)
      let (left_n, left_out) ← hash_recurse cfg n left key offset flags p left_out
      let (right_n, right_out) ← hash_recurse cfg n right key right_off flags p right_out
      let children_array := left_out ++ right_out
      assertR (left_n = degree)
      assertR (1 ≤ right_n ∧ right_n ≤ left_n)
      if left_n = 1 then
        let c ← sliceTo children_array (2 * OUT_LEN)
        let out ← writeAt out 0 c
        return (2, out)
      else
        let num_children := left_n + right_n
        let c ← sliceTo children_array (num_children * OUT_LEN)
        hash_parents_parallel cfg c key flags p out

/-- lib.rs:538-552 -/
def hash_internal (cfg : Config) (n : Nat) (input : Bytes) (key_words : Vector Word 8) (flags : Byte) :
    R Output := do
  let p := Platform.detect cfg
  if input.length ≤ CHUNK_LEN then
    hash_one_chunk input key_words 0 .root flags p
  else
    let children_array : Bytes := List.replicate (MAX_SIMD_DEGREE_OR_2 cfg * OUT_LEN) 0
    let (num_children, children_array) ← hash_recurse cfg n input key_words 0 flags p children_array
    let c ← sliceTo children_array (num_children * OUT_LEN)
    condense_root cfg c key_words flags p

/-- `hash_xof` / `keyed_hash_xof` / `derive_key_xof`, lib.rs:560-562, 574-577, 593-596 -/
def oneShotXof (cfg : Config) (n : Nat) : Spec.Mode → Bytes → R Output
  | .hash, input => hash_internal cfg n input IV 0
  | .keyedHash k, input => hash_internal cfg n input (words_from_key_bytes k) Flags.KEYED_HASH
  | .deriveKey k, input => hash_internal cfg n input (words_from_key_bytes k) Flags.DERIVE_KEY

/-- `hash` / `keyed_hash` / `derive_key`, lib.rs:555-557, 567-569, 584-586 -/
def oneShot (cfg : Config) (n : Nat) (m : Spec.Mode) (input : Bytes) : R (Vector Byte 32) := do
  let o ← oneShotXof cfg n m input
  return o.to_hash

/-- baokeshed.py:191-193 -/
def py_hash_internal (n : Nat) (input_bytes : Bytes) (key_words : List Nat) (flags out_len : Nat) : R Bytes := do
  let output ← Py.hash_recurse n input_bytes key_words 0 flags
  output.root_output_bytes out_len

/-- baokeshed.py:199-210 -/
def pyHash (n : Nat) : Spec.Mode → Bytes → Nat → R Bytes
  | .hash, input, out_len => py_hash_internal n input Py.IV 0 out_len
  | .keyedHash k, input, out_len => py_hash_internal n input (Py.words_from_bytes k.toList) Py.KEYED_HASH out_len
  | .deriveKey k, input, out_len => py_hash_internal n input (Py.words_from_bytes k.toList) Py.DERIVE_KEY out_len

end Baokeshed.Model.D
