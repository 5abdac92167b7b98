import Verif.Basic

/-!
# Model of `std::io::Stdout`

The program prints with `print!` and `println!`, which panic when writing fails.  What reaches the file that standard
output is connected to depends on the buffering in the Rust standard library, which is modelled here: `LineWriter` and
`BufWriter` over a device whose writes may be short, interrupted or fail.  Two versions of `LineWriter` are modelled: the
one of the time of the commit (`old`; library/std as of Rust 1.40) and the one that has replaced it since Rust 1.46
(`new`).  The capacity of the buffer (1024 in both) is a parameter.  A device that reports that it is not open at all
(`EBADF`), which std takes for success, counts as one that accepts everything.
-/

namespace Baokeshed.Model.Stdout

/-- what a `write` to the device does -/
inductive WriteEvent where
  /-- accepts at most `n` bytes -/
  | accept (n : Nat)
  /-- `ErrorKind::Interrupted` -/
  | interrupted
  /-- any other error -/
  | fail
  deriving DecidableEq

/-- the versions of `LineWriter` -/
inductive Version where
  | old
  | new
  deriving DecidableEq

/-- Standard output.  `dev` is what the next writes to the device will do (after that it accepts everything),
`delivered` what it has accepted so far, `buf` the buffer, `need_flush` a field of the old `LineWriter`. -/
structure State where
  version : Version
  cap : Nat
  need_flush : Bool
  buf : Bytes
  delivered : Bytes
  dev : List WriteEvent

/-- the result of a `write` -/
inductive Written where
  | ok (n : Nat)
  | interrupted
  | error
  deriving DecidableEq

/-- `write` of the device -/
def State.rawWrite (s : State) (bytes : Bytes) : Written × State :=
  match s.dev with
  | [] => (.ok bytes.length, { s with delivered := s.delivered ++ bytes })
  | .accept n :: dev => (.ok (min n bytes.length), { s with delivered := s.delivered ++ bytes.take n, dev := dev })
  | .interrupted :: dev => (.interrupted, { s with dev := dev })
  | .fail :: dev => (.error, { s with dev := dev })

/-- The loop of `Write::write_all` on the device, which is also that of `BufWriter::flush_buf`.  Returns whether it
succeeded and what was not written. -/
def drain (dev : List WriteEvent) (delivered bytes : Bytes) : Bool × Bytes × Bytes × List WriteEvent :=
  if bytes = [] then (true, bytes, delivered, dev)
  else
    match dev with
    | [] => (true, [], delivered ++ bytes, [])
    | .accept n :: dev =>
      if n = 0 then (false, bytes, delivered, dev)     -- `Ok(0)`: `ErrorKind::WriteZero`
      else drain dev (delivered ++ bytes.take n) (bytes.drop n)
    | .interrupted :: dev => drain dev delivered bytes
    | .fail :: dev => (false, bytes, delivered, dev)

/-- `write_all` on the device -/
def State.rawWriteAll (s : State) (bytes : Bytes) : Bool × State :=
  let (ok, _, delivered, dev) := drain s.dev s.delivered bytes
  (ok, { s with delivered, dev })

/-- `BufWriter::flush_buf`: what could not be written stays in the buffer -/
def State.flush_buf (s : State) : Bool × State :=
  let (ok, buf, delivered, dev) := drain s.dev s.delivered s.buf
  (ok, { s with buf, delivered, dev })

/-- `BufWriter::write_all` -/
def State.bufWriteAll (s : State) (bytes : Bytes) : Bool × State :=
  if bytes.length < s.cap - s.buf.length then (true, { s with buf := s.buf ++ bytes })
  else
    let (ok, s) := if bytes.length > s.cap - s.buf.length then s.flush_buf else (true, s)
    if !ok then (false, s)
    else if bytes.length ≥ s.cap then s.rawWriteAll bytes
    else (true, { s with buf := s.buf ++ bytes })

/-- `memrchr(b'\n', bytes)`, as the parts before and after the end of the last line -/
def splitLines (bytes : Bytes) : Option (Bytes × Bytes) :=
  match bytes with
  | [] => none
  | b :: bs =>
    match splitLines bs with
    | some (l, t) => some (b :: l, t)
    | none => if b = 0x0a then some ([b], bs) else none

/-- `LineWriterShim::flush_if_completed_line` -/
def State.flush_if_completed_line (s : State) : Bool × State :=
  if s.buf.getLast? = some 0x0a then s.flush_buf else (true, s)

/-- `LineWriterShim::write_all` -/
def State.newWriteAll (s : State) (bytes : Bytes) : Bool × State :=
  match splitLines bytes with
  | none =>
    let (ok, s) := s.flush_if_completed_line
    if !ok then (false, s) else s.bufWriteAll bytes
  | some (lines, tail) =>
    if s.buf = [] then
      let (ok, s) := s.rawWriteAll lines
      if !ok then (false, s) else s.bufWriteAll tail
    else
      let (ok, s) := s.bufWriteAll lines
      if !ok then (false, s)
      else
        let (ok, s) := s.flush_buf
        if !ok then (false, s) else s.bufWriteAll tail

/-- Rust 1.40, `BufWriter::write` -/
def State.bufWrite (s : State) (bytes : Bytes) : Written × State :=
  let (ok, s) := if s.buf.length + bytes.length > s.cap then s.flush_buf else (true, s)
  if !ok then (.error, s)
  else if bytes.length ≥ s.cap then s.rawWrite bytes
  else (.ok bytes.length, { s with buf := s.buf ++ bytes })

/-- Rust 1.40, `LineWriter::flush` -/
def State.flush (s : State) : Bool × State :=
  let (ok, s) := s.flush_buf
  if !ok then (false, s) else (true, { s with need_flush := false })

/-- Rust 1.40, `LineWriter::write`.  Once it has written something it reports no errors. -/
def State.oldWrite (s : State) (bytes : Bytes) : Written × State :=
  let (ok, s) := if s.need_flush then s.flush else (true, s)
  if !ok then (.error, s)
  else
    match splitLines bytes with
    | none => s.bufWrite bytes
    | some (lines, tail) =>
      match s.bufWrite lines with
      | (.ok n, s) =>
        let s := { s with need_flush := true }
        let (ok, s) := s.flush
        if !ok || n ≠ lines.length then (.ok n, s)
        else
          match s.bufWrite tail with
          | (.ok i, s) => (.ok (n + i), s)
          | (_, s) => (.ok n, s)
      | r => r

/-- Rust 1.40, `Write::write_all` on the `LineWriter`.  Every round either writes something or uses up a write of the
device; the last test only makes the termination of the loop evident. -/
def State.oldWriteAll (s : State) (bytes : Bytes) : Bool × State :=
  if bytes = [] then (true, s)
  else
    match s.oldWrite bytes with
    | (.error, s') => (false, s')
    | (.interrupted, s') => if _h : s'.dev.length < s.dev.length then s'.oldWriteAll bytes else (false, s')
    | (.ok n, s') =>
      if n = 0 then (false, s')                        -- `ErrorKind::WriteZero`
      else
        if _h : s'.dev.length + (bytes.drop n).length < s.dev.length + bytes.length then s'.oldWriteAll (bytes.drop n)
        else (false, s')
termination_by s.dev.length + bytes.length
decreasing_by
  · omega
  · exact _h

/-- `write_all` of standard output -/
def State.write_all (s : State) (bytes : Bytes) : Bool × State :=
  match s.version with
  | .old => s.oldWriteAll bytes
  | .new => s.newWriteAll bytes

/-- What happens at the end of the program, however it ends: the `BufWriter` is dropped, which flushes it and ignores
errors. -/
def State.cleanup (s : State) : State := s.flush_buf.2

end Baokeshed.Model.Stdout
