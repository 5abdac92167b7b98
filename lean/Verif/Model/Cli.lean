import Verif.Model.Api
import Verif.Model.Copy
import Verif.Model.Hash

/-!
# Model of the command line program

/repo/baokeshed_bin/src/main.rs.  Not modelled: the parsing of the command line by docopt (the
model starts from `Args`; docopt's usage string excludes giving both `--key` and `--derive-key`).
Failing writes to standard output are modelled in Verif/Model/CliIo.lean.  The file
system is a function from paths to what opening them gives; it does not change while the program runs.  Standard input is shared by all uses of it.
-/

namespace Baokeshed.Model.Cli

/-- `Args`, main.rs:17-24, without `flag_help` and `flag_version`.  Paths are their lossy strings. -/
structure Args where
  inputs : List (List Char)
  key : Option Bytes
  deriveKey : Option Bytes
  length : Option U64

/-- `fs::Metadata` as far as it is used, main.rs:183-190 -/
structure Metadata where
  isFile : Bool
  len : U64

/-- An open file: its metadata, its mapping of the given length, its reads -/
structure File where
  metadata : Except IoError Metadata
  map : Nat → Except IoError Bytes
  reads : List ReadEvent

/-- The environment -/
structure Env where
  openFile : List Char → Except IoError File

/-- The errors a command can end with (`anyhow::Error`) -/
inductive Error where
  | io (e : IoError)
  | badHex
  | keyLen (found : Nat)
  deriving DecidableEq

/-- `enum Input`, main.rs:152-155 -/
inductive Input where
  | stdin
  | file (f : File)

/-- `impl Read for Input`, main.rs:157-164: where the reads go -/
def Input.reads (stdin : List ReadEvent) : Input → List ReadEvent
  | .stdin => stdin
  | .file f => f.reads

/-- what is left of standard input when `rest` is left of the input -/
def Input.stdinAfter (stdin rest : List ReadEvent) : Input → List ReadEvent
  | .stdin => rest
  | .file _ => stdin

/-- `path_if_some_and_not_dash`, main.rs:166-176 -/
def path_if_some_and_not_dash : Option (List Char) → Option (List Char)
  | some path => if path = ['-'] then none else some path
  | none => none

/-- `open_input`, main.rs:142-150 -/
def open_input (env : Env) (path : Option (List Char)) : Except Error Input :=
  match path_if_some_and_not_dash path with
  | some path =>
    match env.openFile path with
    | .ok f => .ok (.file f)
    | .error e => .error (.io e)
  | none => .ok .stdin

/-- `maybe_memmap_input`, main.rs:178-203.  `isize::max_value()` is `2 ^ (usizeBits - 1) - 1`. -/
def maybe_memmap_input (cfg : Config) : Input → Except Error (Option Bytes)
  | .stdin => .ok none
  | .file f =>
    match f.metadata with
    | .error e => .error (.io e)
    | .ok md =>
      if !md.isFile then .ok none
      else if md.len.toNat > 2 ^ (cfg.usizeBits - 1) - 1 then .ok none
      else if md.len = 0 then .ok none
      else
        match f.map md.len.toNat with
        | .error e => .error (.io e)
        | .ok bytes => .ok (some bytes)

/-- the one-shot functions `hash_one` chooses from, main.rs:48-56 -/
def mapped (cfg : Config) (key : Option (Vector Byte 32)) (derive_key : Bool) (map : Bytes) : R Output :=
  match key with
  | some key => if derive_key then derive_key_xof cfg key map else keyed_hash_xof cfg key map
  | none => hash_xof cfg map

/-- the constructors `hash_one` chooses from, main.rs:59-67 -/
def streamed (cfg : Config) (key : Option (Vector Byte 32)) (derive_key : Bool) : Hasher :=
  match key with
  | some key => if derive_key then Hasher.new_derive_key cfg key else Hasher.new_keyed cfg key
  | none => Hasher.new cfg

/-- `hash_one`, main.rs:41-71.  Also returns what is left of standard input. -/
def hash_one (cfg : Config) (env : Env) (path : Option (List Char)) (key : Option (Vector Byte 32))
    (derive_key : Bool) (stdin : List ReadEvent) : R (Except Error Output × List ReadEvent) :=
  match open_input env path with
  | .error e => .ok (.error e, stdin)
  | .ok input =>
    match maybe_memmap_input cfg input with
    | .error e => .ok (.error e, stdin)
    | .ok (some map) => do
      let o ← mapped cfg key derive_key map
      return (.ok o, stdin)
    | .ok none => do
      let h := streamed cfg key derive_key
      let (r, h, rest) ← copy_wide cfg (hasherWriter cfg) (input.reads stdin) h
      let stdin := input.stdinAfter stdin rest
      match r with
      | .error e => return (.error (.io e), stdin)
      | .ok _ =>
        let o ← h.finalize_xof
        return (.ok o, stdin)

/-- The loop of `print_hex`, main.rs:75-86.  Returns the text printed. -/
def print_hex_loop (prof : Profile) (o : Output) (out : List Char) (remaining : Nat) : R (List Char × Output) :=
  if _h : remaining = 0 then .ok (out, o)
  else
    match o.read prof with
    | .error e => .error e
    | .ok (bytes, o) =>
      let hash1 := bytes.take 32
      let hash2 := bytes.drop 32
      match to_hex hash1 with
      | .error e => .error e
      | .ok hex1 =>
        match to_hex hash2 with
        | .error e => .error e
        | .ok hex2 =>
          -- `hex1.len()` is positive; this test only makes the termination of the loop evident
          if _h1 : hex1.length = 0 then .error .bounds
          else
            let take1 := min remaining hex1.length
            let take2 := min (remaining - take1) hex2.length
            print_hex_loop prof o (out ++ hex1.take take1 ++ hex2.take take2) (remaining - take1 - take2)
termination_by remaining
decreasing_by omega

/-- `print_hex`, main.rs:73-87.  `2 * byte_length` panics on overflow in a debug build and wraps in a
release build. -/
def print_hex (prof : Profile) (o : Output) (byte_length : U64) : R (List Char × Output) := do
  let remaining ← (match prof with
    | .debug => mulU64 2 byte_length
    | .release => .ok (2 * byte_length) : R U64)
  print_hex_loop prof o [] remaining.toNat

/-- crate hex, `val`: the value of a hexadecimal digit -/
def hexVal (c : Byte) : Option Byte :=
  if 0x41 ≤ c.toNat ∧ c.toNat ≤ 0x46 then some (c - 0x41 + 10)
  else if 0x61 ≤ c.toNat ∧ c.toNat ≤ 0x66 then some (c - 0x61 + 10)
  else if 0x30 ≤ c.toNat ∧ c.toNat ≤ 0x39 then some (c - 0x30)
  else none

/-- crate hex, `decode` after the length check: `chunks(2)` -/
def hexPairs : Bytes → Option Bytes
  | hi :: lo :: cs => do
    let h ← hexVal hi
    let l ← hexVal lo
    let bs ← hexPairs cs
    return ((h <<< 4 ||| l) :: bs)
  | _ => some []

/-- crate hex 0.4, `hex::decode` -/
def hexDecode (s : Bytes) : Option Bytes := if s.length % 2 ≠ 0 then none else hexPairs s

/-- the key argument, main.rs:92-106 -/
def parseKey (args : Args) : Except Error (Option (Vector Byte 32)) :=
  match args.key.or args.deriveKey with
  | some key_str =>
    match hexDecode key_str with
    | none => .error .badHex
    | some key_bytes =>
      if h : key_bytes.length ≠ 32 then .error (.keyLen key_bytes.length)
      else .ok (some ⟨key_bytes.toArray, by simpa using h⟩)
  | none => .ok none

/-- `Display` of the errors that `hash_one` can return; all are I/O errors -/
def Error.display : Error → List Char
  | .io .interrupted => "interrupted".toList
  | .io (.other m) => m
  | .badHex => "bad hex".toList
  | .keyLen n => ("keys must be 32 bytes, found " ++ toString n).toList

/-- How a run ends: everything printed on standard output, and the exit status.  (`Err` from `main`
prints on standard error and exits with status 1.) -/
structure Outcome where
  stdout : List Char
  status : Nat
  deriving DecidableEq

/-- The loop over the arguments, main.rs:109-129.  `many` is `args.arg_inputs.len() > 1`. -/
def hash_loop (cfg : Config) (prof : Profile) (env : Env) (key : Option (Vector Byte 32)) (derive_key : Bool)
    (byte_length : U64) (many : Bool) :
    List (List Char) → List ReadEvent → List Char → Bool → R (List Char × Bool)
  | [], _, out, did_error => .ok (out, did_error)
  | input :: inputs, stdin, out, did_error => do
    let (r, stdin) ← hash_one cfg env (some input) key derive_key stdin
    match r with
    | .ok o =>
      let (hex, _) ← print_hex prof o byte_length
      let line := if many then hex ++ "  ".toList ++ input ++ ['\n'] else hex ++ ['\n']
      hash_loop cfg prof env key derive_key byte_length many inputs stdin (out ++ line) did_error
    | .error e =>
      let line := "bao: ".toList ++ input ++ ": ".toList ++ e.display ++ ['\n']
      hash_loop cfg prof env key derive_key byte_length many inputs stdin (out ++ line) true

/-- `hash`, main.rs:89-140, and `main`, main.rs:26-39 -/
def main (cfg : Config) (prof : Profile) (env : Env) (args : Args) (stdin : List ReadEvent) : R Outcome :=
  let byte_length := args.length.getD 32
  let derive_key := args.deriveKey.isSome
  match parseKey args with
  | .error _ => .ok ⟨[], 1⟩
  | .ok key =>
    if args.inputs ≠ [] then do
      let (out, did_error) ←
        hash_loop cfg prof env key derive_key byte_length (decide (args.inputs.length > 1)) args.inputs stdin [] false
      return ⟨out, if did_error then 1 else 0⟩
    else do
      let (r, _) ← hash_one cfg env none key derive_key stdin
      match r with
      | .error _ => return ⟨[], 1⟩
      | .ok o =>
        let (hex, _) ← print_hex prof o byte_length
        return ⟨hex ++ ['\n'], 0⟩

end Baokeshed.Model.Cli
