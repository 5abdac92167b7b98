import Verif.Model.Python
import Verif.Model.Cli

/-!
# `test_compare_to_rust` of /repo/python/test_baokeshed.py

The test runs the program of baokeshed_bin and compares what it prints with what baokeshed.py returns.  Building the
program (`baokeshed_path`, test_baokeshed.py:29-36) and the parsing of its command line by docopt are not modelled:
`--length`, `--key` and `--derive-key` are fields of `Args`.  How the pipe to the program divides its standard input is a
parameter.  The loop of the test has the cases as a parameter, and its body the key, the input and the length.
-/

namespace Baokeshed.Model.Py

/-- The loop of `make_test_input`, test_baokeshed.py:43-47.  The bound `n` on the number of iterations is not in the
source: each adds at least one byte. -/
def make_test_input_loop (length : Nat) : (n : Nat) → (counter : Nat) → (buf : Bytes) → R Bytes
  | 0, _, buf => .ok buf
  | n + 1, counter, buf =>
    if buf.length < length then do
      let counter_bytes ← to_bytes 4 counter
      let take := min 4 (length - buf.length)
      make_test_input_loop length n (counter + 1) (buf ++ slice counter_bytes 0 take)
    else .ok buf

/-- `make_test_input`, test_baokeshed.py:40-48 -/
def make_test_input (length : Nat) : R Bytes := make_test_input_loop length length 1 []

/-- `to_hex`, test_baokeshed.py:51-52: two lower-case digits for each byte, the more significant one first -/
def to_hex (b : Bytes) : List Char :=
  b.flatMap fun x => [("0123456789abcdef".toList).getD (x.toNat >>> 4) ' ', ("0123456789abcdef".toList).getD (x.toNat &&& 15) ' ']

/-- the text as an argument of a command -/
def arg (s : List Char) : Bytes := s.map fun c => BitVec.ofNat 8 c.toNat

/-- package duct, `read`: an exit status other than 0 raises an exception; newlines at the end are removed -/
def read (r : R Cli.Outcome) : R (List Char) := do
  let o ← r
  if o.status ≠ 0 then .error .assert
  return (o.stdout.reverse.dropWhile (· == '\n')).reverse

/-- `assert a == b` -/
def assertEq (a b : List Char) : R Unit := if a = b then .ok () else .error .assert

/-- The body of the loop of `test_compare_to_rust`, test_baokeshed.py:62-83; `pipe` is what the reads of standard input
return. -/
def compare_case (cfg : Config) (prof : Profile) (env : Cli.Env) (pipe : Bytes → List ReadEvent) (key_bytes : Bytes)
    (output_len : Nat) (input_bytes : Bytes) : R Unit := do
  let key_hex := to_hex key_bytes
  let len := some (BitVec.ofNat 64 output_len)
  -- The default hash function.
  let rust_output ← read (Cli.main cfg prof env ⟨[], none, none, len⟩ (pipe input_bytes))
  let python_output ← hash input_bytes output_len
  assertEq rust_output (to_hex python_output)
  -- The keyed hash function.
  let rust_output ← read (Cli.main cfg prof env ⟨[], some (arg key_hex), none, len⟩ (pipe input_bytes))
  let python_output ← keyed_hash key_bytes input_bytes output_len
  assertEq rust_output (to_hex python_output)
  -- The KDF.
  let rust_output ← read (Cli.main cfg prof env ⟨[], none, some (arg key_hex), len⟩ (pipe input_bytes))
  let python_output ← derive_key key_bytes input_bytes output_len
  assertEq rust_output (to_hex python_output)

/-- The loop of `test_compare_to_rust`, test_baokeshed.py:60-83 -/
def compare_cases (cfg : Config) (prof : Profile) (env : Cli.Env) (pipe : Bytes → List ReadEvent) (key_bytes : Bytes)
    (output_len : Nat) : List Nat → R Unit
  | [] => .ok ()
  | case :: cases => do
    let input_bytes ← make_test_input case
    compare_case cfg prof env pipe key_bytes output_len input_bytes
    compare_cases cfg prof env pipe key_bytes output_len cases

/-- `test_compare_to_rust`, test_baokeshed.py:55-83, with other cases than `CASES`.  `KEY_LEN` is 32, baokeshed.py:26. -/
def test_compare_to_rust (cfg : Config) (prof : Profile) (env : Cli.Env) (pipe : Bytes → List ReadEvent)
    (cases : List Nat) : R Unit := do
  let key_bytes ← make_test_input 32
  compare_cases cfg prof env pipe key_bytes 303 cases

end Baokeshed.Model.Py
