import Verif.Basic

/-!
# Model of the `Hash` type: hexadecimal form, comparison, `Debug`

/repo/src/lib.rs:161-214.  Text is a list of characters.
-/

namespace Baokeshed.Model

/-- `b"0123456789abcdef"`, lib.rs:173 -/
def hexTable : List Char := "0123456789abcdef".toList

/-- `table[i] as char`, lib.rs:175-176 -/
def tableAt (i : Nat) : R Char := if h : i < hexTable.length then .ok hexTable[i] else .error .bounds

/-- `ArrayString::push` (crate arrayvec: panics when the character does not fit).  All characters
pushed here are one byte long. -/
def pushChar (cap : Nat) (s : List Char) (c : Char) : R (List Char) :=
  if s.length < cap then .ok (s ++ [c]) else .error .capacity

/-- lib.rs:174-177, the loop over the bytes -/
def to_hex_loop (s : List Char) : Bytes → R (List Char)
  | [] => .ok s
  | b :: bs => do
    let c ← tableAt (b >>> 4).toNat
    let s ← pushChar (2 * 32) s c
    let c ← tableAt (b &&& 0xf).toNat
    let s ← pushChar (2 * 32) s c
    to_hex_loop s bs

/-- `Hash::to_hex`, lib.rs:171-179 -/
def to_hex (h : Vector Byte 32) : R (List Char) := to_hex_loop [] h.toList

/-- `constant_time_eq::constant_time_eq` (crate constant_time_eq: false on different lengths,
otherwise the bitwise or of the xors of the bytes is compared with 0) -/
def constant_time_eq (a b : Bytes) : Bool :=
  if a.length ≠ b.length then false
  else (a.zip b).foldl (fun acc (xy : Byte × Byte) => acc ||| (xy.1 ^^^ xy.2)) 0 == 0

/-- `impl PartialEq for Hash`, lib.rs:195-199, and `impl PartialEq<[u8; OUT_LEN]> for Hash`,
lib.rs:202-206; both pass the two arrays as slices -/
def Hash.eq (h other : Vector Byte 32) : Bool := constant_time_eq h.toList other.toList

/-- `impl fmt::Debug for Hash`, lib.rs:210-214 -/
def Hash.debug (h : Vector Byte 32) : R (List Char) := do
  let s ← to_hex h
  return "Hash(0x".toList ++ s ++ ")".toList

end Baokeshed.Model
