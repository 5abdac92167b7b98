import Verif.Model.Cli
import Verif.Model.Stdout

/-!
# Model of the command line program with its standard output

/repo/baokeshed_bin/src/main.rs once more, from `print!` down to the device (Verif/Model/Stdout.lean).  In
Verif/Model/Cli.lean printing cannot fail.  `hash_one` prints nothing and is taken from there.
-/

namespace Baokeshed.Model.CliIo
open Baokeshed.Model.Cli

/-- why the program stops early -/
inductive Stop where
  /-- a panic of the library or of the program's arithmetic -/
  | panic (p : Panic)
  /-- `print!`: "failed printing to stdout" -/
  | print
  /-- `Err` from `main` -/
  | err
  /-- `std::process::exit` -/
  | exit (status : Nat)
  deriving DecidableEq

/-- a part of the program: it may stop early, and changes standard output either way -/
def Io (α : Type) := Stdout.State → Except Stop α × Stdout.State

instance : Monad Io where
  pure a s := (.ok a, s)
  bind x f s :=
    match x s with
    | (.ok a, s) => f a s
    | (.error e, s) => (.error e, s)

/-- a part that prints nothing -/
def lift {α : Type} (x : R α) : Io α := fun s =>
  match x with
  | .ok a => (.ok a, s)
  | .error p => (.error (.panic p), s)

/-- stop early -/
def stop {α : Type} (e : Stop) : Io α := fun s => (.error e, s)

/-- the encoding of a `str` -/
def utf8 (s : List Char) : Bytes := s.flatMap fun c => (String.utf8EncodeChar c).map UInt8.toBitVec

/-- One call of `write_str` by the formatting machinery.  An error makes `print!` panic. -/
def write_str (text : List Char) : Io Unit := fun s =>
  match s.write_all (utf8 text) with
  | (true, s) => (.ok (), s)
  | (false, s) => (.error .print, s)

/-- `print!` with the given pieces of text -/
def print : List (List Char) → Io Unit
  | [] => pure ()
  | p :: ps => do
    write_str p
    print ps

/-- The loop of `print_hex`, main.rs:75-86 -/
def print_hex_loop (prof : Profile) (o : Output) (remaining : Nat) : Io Output :=
  if _h : remaining = 0 then pure o
  else
    match o.read prof with
    | .error e => stop (.panic e)
    | .ok (bytes, o) =>
      let hash1 := bytes.take 32
      let hash2 := bytes.drop 32
      match to_hex hash1 with
      | .error e => stop (.panic e)
      | .ok hex1 =>
        -- `hex1.len()` is positive; this test only makes the termination of the loop evident
        if _h1 : hex1.length = 0 then stop (.panic .bounds)
        else do
          let take1 := min remaining hex1.length
          print [hex1.take take1]
          match to_hex hash2 with
          | .error e => stop (.panic e)
          | .ok hex2 =>
            let take2 := min (remaining - take1) hex2.length
            print [hex2.take take2]
            print_hex_loop prof o (remaining - take1 - take2)
termination_by remaining
decreasing_by omega

/-- `print_hex`, main.rs:73-87 -/
def print_hex (prof : Profile) (o : Output) (byte_length : U64) : Io Output := do
  let remaining ← lift (match prof with
    | .debug => mulU64 2 byte_length
    | .release => .ok (2 * byte_length) : R U64)
  print_hex_loop prof o remaining.toNat

/-- The loop over the arguments, main.rs:109-129.  `seg` says in which pieces the `Display` of an error writes its
text. -/
def hash_loop (cfg : Config) (prof : Profile) (seg : Error → List (List Char)) (env : Env)
    (key : Option (Vector Byte 32)) (derive_key : Bool) (byte_length : U64) (many : Bool) :
    List (List Char) → List ReadEvent → Bool → Io Bool
  | [], _, did_error => pure did_error
  | input :: inputs, stdin, did_error => do
    let (r, stdin) ← lift (hash_one cfg env (some input) key derive_key stdin)
    match r with
    | .ok o =>
      let _ ← print_hex prof o byte_length
      if many then print ["  ".toList, input, ['\n']]
      else print [['\n']]
      hash_loop cfg prof seg env key derive_key byte_length many inputs stdin did_error
    | .error e =>
      print (["bao: ".toList, input, ": ".toList] ++ seg e ++ [['\n']])
      hash_loop cfg prof seg env key derive_key byte_length many inputs stdin true

/-- `hash`, main.rs:89-140 -/
def hash (cfg : Config) (prof : Profile) (seg : Error → List (List Char)) (env : Env) (args : Args)
    (stdin : List ReadEvent) : Io Unit :=
  let byte_length := args.length.getD 32
  let derive_key := args.deriveKey.isSome
  match parseKey args with
  | .error _ => stop .err
  | .ok key =>
    if args.inputs ≠ [] then do
      let did_error ←
        hash_loop cfg prof seg env key derive_key byte_length (decide (args.inputs.length > 1)) args.inputs stdin false
      if did_error then stop (.exit 1)
      else pure ()
    else do
      let (r, _) ← lift (hash_one cfg env none key derive_key stdin)
      match r with
      | .error _ => stop .err
      | .ok o =>
        let _ ← print_hex prof o byte_length
        print [['\n']]

/-- what docopt makes of the command line: `flag_help`, `flag_version` or neither, main.rs:30-36 -/
inductive Cmd where
  | help
  | version
  | hash (args : Args)

/-- main.rs:11-14 -/
def USAGE : String := "
Usage: baokeshed [<inputs>...] [--length=<bytes>] [--key=<hex> | --derive-key=<hex>]
       baokeshed (--help | --version)
"

/-- `main`, main.rs:26-39.  `VERSION` (main.rs:9) is "0.1.0", baokeshed_bin/Cargo.toml:3. -/
def main (cfg : Config) (prof : Profile) (seg : Error → List (List Char)) (env : Env) (stdin : List ReadEvent) :
    Cmd → Io Unit
  | .help => print [USAGE.toList]
  | .version => print ["0.1.0".toList, ['\n']]
  | .hash args => hash cfg prof seg env args stdin

/-- how the process ends: what standard output received, and the exit status -/
structure Ended where
  delivered : Bytes
  status : Nat
  deriving DecidableEq

/-- The whole process.  A panic in `main` gives status 101, an `Err` from `main` status 1. -/
def run (cfg : Config) (prof : Profile) (seg : Error → List (List Char)) (env : Env) (stdin : List ReadEvent)
    (version : Stdout.Version) (cap : Nat) (dev : List Stdout.WriteEvent) (cmd : Cmd) : Ended :=
  match main cfg prof seg env stdin cmd ⟨version, cap, false, [], [], dev⟩ with
  | (.ok (), s) => ⟨s.cleanup.delivered, 0⟩
  | (.error .err, s) => ⟨s.cleanup.delivered, 1⟩
  | (.error (.exit n), s) => ⟨s.cleanup.delivered, n⟩
  | (.error .print, s) => ⟨s.cleanup.delivered, 101⟩
  | (.error (.panic _), s) => ⟨s.cleanup.delivered, 101⟩

end Baokeshed.Model.CliIo
