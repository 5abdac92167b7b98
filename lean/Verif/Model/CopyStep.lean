import Verif.Model.Copy

/-!
# `copy_wide` with any reader, call by call

/repo/src/copy.rs:47-65 once more.  Here the reader is any object: it has a state, sees the buffer it is given, may change
it in any way, also if it fails, and need not ever end.  `copy_run n` stops after `n` turns of the loop, that is, after `n` calls
of `read`.
-/

namespace Baokeshed.Model

/-- `Read::read`: the result, the buffer afterwards and the state of the reader afterwards. -/
abbrev Reader (B : Nat) (S : Type) := S → Vector Byte B → Except IoError Nat × Vector Byte B × S

/-- Where a call of `copy_wide` is: before a turn of the loop, or after `return`. -/
inductive Copying (B : Nat) (W S : Type) where
  | running (buffer : Vector Byte B) (total : U64) (writer : W) (reader : S)
  | returned (result : Except IoError U64) (writer : W) (reader : S)

/-- `total += n as u64`, copy.rs:59: checked or wrapping -/
def addTotal (prof : Profile) (total : U64) (n : Nat) : R U64 :=
  match prof with
  | .debug => addU64 total (BitVec.ofNat 64 n)
  | .release => .ok (total + BitVec.ofNat 64 n)

/-- One turn of the loop, copy.rs:55-63. -/
def copy_turn {B : Nat} {W S : Type} (prof : Profile) (write_all : W → Bytes → R (Except IoError Unit × W)) (read : Reader B S) :
    Copying B W S → R (Copying B W S)
  | .returned r w s => .ok (.returned r w s)
  | .running buffer total w s =>
    let (r, buffer, s) := read s buffer
    match r with
    | .ok n =>
      if n = 0 then .ok (.returned (.ok total) w s)
      else do
        let slice ← sliceTo buffer.toList n
        let (r, w) ← write_all w slice
        match r with
        | .error e => return .returned (.error e) w s
        | .ok () =>
          let total ← addTotal prof total n
          return .running buffer total w s
    | .error .interrupted => .ok (.running buffer total w s)
    | .error e => .ok (.returned (.error e) w s)

/-- `n` turns of the loop, copy.rs:54-64 -/
def copy_run {B : Nat} {W S : Type} (prof : Profile) (write_all : W → Bytes → R (Except IoError Unit × W)) (read : Reader B S) :
    Nat → Copying B W S → R (Copying B W S)
  | 0, c => .ok c
  | n + 1, c => do
    let c ← copy_turn prof write_all read c
    copy_run prof write_all read n c

/-- The beginning of `copy_wide`, copy.rs:52-53. -/
def copy_start (cfg : Config) {W S : Type} (w : W) (s : S) : Copying (COPY_BUF_LEN cfg) W S :=
  .running (Vector.replicate _ 0) 0 w s

end Baokeshed.Model
