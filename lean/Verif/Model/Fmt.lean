import Verif.Model.Hash
import Verif.Model.Hasher

/-!
# `Debug` and conversions of the public types

/repo/src/lib.rs:182-192, 210-214, 257-262, 987-992.  Text is a list of characters.
-/

namespace Baokeshed.Model

/-- `write!(f, fmt, args..)`, std::fmt: `{{` and `}}` stand for the braces themselves, `{}` for the next argument.  Other forms do not
occur here; they, and a wrong number of arguments, do not compile. -/
def writeFmt : (fmt : List Char) → (args : List (List Char)) → Option (List Char)
  | [], [] => some []
  | [], _ :: _ => none
  | '{' :: '{' :: fmt, args => (writeFmt fmt args).map ('{' :: ·)
  | '}' :: '}' :: fmt, args => (writeFmt fmt args).map ('}' :: ·)
  | '{' :: '}' :: fmt, a :: args => (writeFmt fmt args).map (a ++ ·)
  | '{' :: _, _ => none
  | '}' :: _, _ => none
  | c :: fmt, args => (writeFmt fmt args).map (c :: ·)

/-- `impl fmt::Debug for Hash`, lib.rs:210-214.  (`Hash.debug` in Model/Hash.lean has the text already taken apart.) -/
def Hash.fmt (h : Vector Byte 32) : R (Option (List Char)) := do
  let s ← to_hex h
  return writeFmt "Hash(0x{})".toList [s]

/-- `impl fmt::Debug for Output`, lib.rs:258-262.  `self` is not used. -/
def Output.fmt (_self : Output) : Option (List Char) := writeFmt "Output {{ ... }}".toList []

/-- `impl fmt::Debug for Hasher`, lib.rs:988-992.  `self` is not used. -/
def Hasher.fmt (_self : Hasher) : Option (List Char) := writeFmt "Hasher {{ ... }}".toList []

/-- `impl From<[u8; OUT_LEN]> for Hash`, lib.rs:182-186.  A `Hash` is its 32 bytes. -/
def Hash.from (bytes : Vector Byte 32) : Vector Byte 32 := bytes

/-- `impl From<Hash> for [u8; OUT_LEN]`, lib.rs:188-192, and `Hash::as_bytes`, lib.rs:166-168 -/
def Hash.into (hash : Vector Byte 32) : Vector Byte 32 := hash

end Baokeshed.Model
