import Verif.Model.StepsLib
import Verif.Model.Hash

/-!
# The methods of `Hash` once more, recording what they execute

As in Model/Steps.lean and Model/StepsLib.lean.
-/

namespace Baokeshed.Model.Steps
open Baokeshed.Model

/-- an element of a slice, with the check of the index -/
def byteAt (what : String) (a : Bytes) (i : Nat) : Try Byte := tryOp what [i] (if h : i < a.length then .ok a[i] else .error .bounds)

/-- `constant_time_ne` of the crate constant_time_eq, its loop: `for i in 0..len { tmp |= a[i] ^ b[i]; }` -/
def ne_loop (a b : Bytes) : Nat → Nat → Byte → Try Byte
  | 0, _, tmp => return tmp
  | n + 1, i, tmp => do
    let x ← byteAt "a" a i
    let y ← byteAt "b" b i
    let d ← op "^" [] (x ^^^ y)
    let tmp ← op "|=" [] (tmp ||| d)
    ne_loop a b n (i + 1) tmp

/-- `constant_time_eq` of the crate constant_time_eq: `a.len() == b.len() && constant_time_ne(a, b) == 0` -/
def constant_time_eq (a b : Bytes) : Try Bool := do
  test "a.len() == b.len()" (a.length == b.length)
  if a.length = b.length then do
    let tmp ← ne_loop a b a.length 0 0
    op "== 0" [] (tmp == 0)
  else return false

/-- `impl PartialEq for Hash`, lib.rs:195-199, and `impl PartialEq<[u8; OUT_LEN]> for Hash`, lib.rs:202-206 -/
def Hash.eq (h other : Vector Byte 32) : Try Bool := constant_time_eq h.toList other.toList

/-- lib.rs:174-177, the loop over the bytes; `push` (crate arrayvec) writes behind the present end -/
def to_hex_loop (s : List Char) : Bytes → Try (List Char)
  | [] => return s
  | b :: bs => do
    let i ← op ">> 4" [] (b >>> 4).toNat
    let c ← tryOp "table" [i] (tableAt i)
    let s ← tryOp "push" [s.length] (pushChar (2 * 32) s c)
    let i ← op "& 0xf" [] (b &&& 0xf).toNat
    let c ← tryOp "table" [i] (tableAt i)
    let s ← tryOp "push" [s.length] (pushChar (2 * 32) s c)
    to_hex_loop s bs

/-- `Hash::to_hex`, lib.rs:171-179 -/
def to_hex (h : Vector Byte 32) : Try (List Char) := to_hex_loop [] h.toList

/-- `hash`, `keyed_hash`, `derive_key`, lib.rs:555-557, 567-569, 584-586, compared with 32 bytes by `==`, lib.rs:202-206 -/
def checked (cfg : Config) (m : Spec.Mode) (input : Bytes) (expected : Vector Byte 32) : Try Bool := do
  let o ← oneShotXof cfg m input
  let h ← Output.to_hash o
  Hash.eq h expected

/-- a hasher, `update`s, `finalize`, lib.rs:926-928, and the comparison -/
def checkedParts (cfg : Config) (m : Spec.Mode) (parts : List Bytes) (expected : Vector Byte 32) : Try Bool := do
  let h ← newHasher cfg m
  let h ← updates parts h
  let o ← Hasher.finalize_xof h
  let h ← Output.to_hash o
  Hash.eq h expected
where
  /-- one `update` after the other -/
  updates : List Bytes → Hasher → Try Hasher
    | [], h => return h
    | x :: xs, h => do
      let h ← Hasher.update cfg h x
      updates xs h

end Baokeshed.Model.Steps
