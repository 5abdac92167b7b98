import Verif.Model.World

/-!
# Model of `copy_wide`

/repo/src/copy.rs.  The reader is an arbitrary list of results of `read`; once the list is used up
it returns `Ok(0)`.  (Readers that never stop are in Model/CopyStep.lean.)  The writer is an arbitrary implementation of `write_all`.
-/

namespace Baokeshed.Model

/-- `io::Error`: only whether it is `ErrorKind::Interrupted` matters to the code -/
inductive IoError where
  | interrupted
  | other (message : List Char)
  deriving DecidableEq

/-- One result of `reader.read(&mut buffer)`: either `Ok(n)` after the reader has overwritten the
beginning of the buffer with `data` (a correct reader has `n = data.length`), or an error. -/
inductive ReadEvent where
  | ok (n : Nat) (data : Bytes)
  | err (e : IoError)
  deriving DecidableEq

/-- copy.rs:24 -/
def WIDE_BUF_LEN (cfg : Config) : Nat := MAX_SIMD_DEGREE cfg * CHUNK_LEN

/-- copy.rs:29 -/
def STD_DEFAULT_BUF_LEN : Nat := 8192

/-- copy.rs:35-38 -/
def COPY_BUF_LEN (cfg : Config) : Nat := if cfg.x86 then WIDE_BUF_LEN cfg else STD_DEFAULT_BUF_LEN

/-- what a reader does to the buffer: it cannot write past its end -/
def overwrite (buffer data : Bytes) : Bytes := (data ++ buffer.drop data.length).take buffer.length

/-- The loop of `copy_wide`, copy.rs:54-64.  Returns the result, the state of the writer and what is
left of the reader. -/
def copy_loop {W : Type} (write_all : W → Bytes → R (Except IoError Unit × W)) (buffer : Bytes) (total : U64)
    (w : W) : List ReadEvent → R (Except IoError U64 × W × List ReadEvent)
  | [] => .ok (.ok total, w, [])
  | .ok n data :: es =>
    let buffer := overwrite buffer data
    if n = 0 then .ok (.ok total, w, es)
    else do
      let s ← sliceTo buffer n
      let (r, w) ← write_all w s
      match r with
      | .error e => return (.error e, w, es)
      | .ok () =>
        let total ← addU64 total (BitVec.ofNat 64 n)
        copy_loop write_all buffer total w es
  | .err .interrupted :: es => copy_loop write_all buffer total w es
  | .err e :: es => .ok (.error e, w, es)

/-- `copy_wide`, copy.rs:47-65 -/
def copy_wide (cfg : Config) {W : Type} (write_all : W → Bytes → R (Except IoError Unit × W))
    (reader : List ReadEvent) (w : W) : R (Except IoError U64 × W × List ReadEvent) :=
  copy_loop write_all (List.replicate (COPY_BUF_LEN cfg) 0) 0 w reader

/-- `write_all` of a `Hasher` as a writer.  (Its only possible error is `WriteZero`.) -/
def hasherWriter (cfg : Config) (h : Hasher) (buf : Bytes) : R (Except IoError Unit × Hasher) := do
  let (b, h) ← h.write_all cfg buf
  return (if b then .ok () else .error (.other "failed to write whole buffer".toList), h)

end Baokeshed.Model
