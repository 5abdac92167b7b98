import Verif.Model.Hasher
import Verif.Model.Api

/-!
# Histories of API calls

Programs that use any number of `Hasher` and `Output` values.  A program is a list of calls; values
are named by the order in which they were created.  Ownership makes Rust values independent of each
other, `#[derive(Clone)]` copies all fields (lib.rs:227, 601, 755), so the state is a list of values.
-/

namespace Baokeshed.Model

/-- `Hasher::new` / `new_keyed` / `new_derive_key`, lib.rs:770, 775, 785 -/
def newHasher (cfg : Config) : Spec.Mode → Hasher
  | .hash => Hasher.new cfg
  | .keyedHash k => Hasher.new_keyed cfg k
  | .deriveKey k => Hasher.new_derive_key cfg k

/-- `hasher.update(s1).update(s2)...` -/
def Hasher.updates (cfg : Config) : Hasher → List Bytes → R Hasher
  | h, [] => .ok h
  | h, s :: ss => do
    let h ← h.update cfg s
    updates cfg h ss

/-- `std::io::Write::write_all` (provided method: write until the slice is used up; a write of 0
bytes is an error), for `Hasher`.  `false` stands for `Err`. -/
def Hasher.write_all (cfg : Config) (h : Hasher) (buf : Bytes) : R (Bool × Hasher) :=
  if hb : buf = [] then .ok (true, h)
  else do
    let (n, h) ← h.write cfg buf
    if _hn : n = 0 then return (false, h)
    else write_all cfg h (buf.drop n)
termination_by buf.length
decreasing_by
  have : 0 < buf.length := List.length_pos_iff.2 hb
  simp only [List.length_drop]; omega

/-- A call. -/
inductive Call where
  /-- `Hasher::new()` etc. -/
  | new (m : Spec.Mode)
  /-- `hashers[i].update(s)` -/
  | update (i : Nat) (s : Bytes)
  /-- `hashers[i].write(s)` -/
  | write (i : Nat) (s : Bytes)
  /-- `hashers[i].write_all(s)` -/
  | writeAll (i : Nat) (s : Bytes)
  /-- `hashers[i].flush()` -/
  | flush (i : Nat)
  /-- `hashers[i].clone()` -/
  | clone (i : Nat)
  /-- `hashers[i].finalize()` -/
  | finalize (i : Nat)
  /-- `hashers[i].finalize_xof()` -/
  | finalizeXof (i : Nat)
  /-- `outputs[j].read()` -/
  | read (j : Nat)
  /-- `outputs[j].clone().to_hash()` -/
  | toHash (j : Nat)
  /-- `outputs[j].clone()` -/
  | cloneOut (j : Nat)

/-- What the program sees of a call. -/
inductive Obs where
  | none
  | count (n : Nat)
  | success (b : Bool)
  | bytes (b : Bytes)
  deriving DecidableEq

structure World where
  hashers : List Hasher
  outputs : List Output

namespace World

def hasher (w : World) (i : Nat) : R Hasher :=
  if h : i < w.hashers.length then .ok w.hashers[i] else .error .bounds

def output (w : World) (j : Nat) : R Output :=
  if h : j < w.outputs.length then .ok w.outputs[j] else .error .bounds

/-- One call. -/
def step (cfg : Config) (prof : Profile) (w : World) : Call → R (Obs × World)
  | .new m => .ok (.none, { w with hashers := w.hashers ++ [newHasher cfg m] })
  | .update i s => do
    let h ← w.hasher i
    let h ← h.update cfg s
    return (.none, { w with hashers := w.hashers.set i h })
  | .write i s => do
    let h ← w.hasher i
    let (n, h) ← h.write cfg s
    return (.count n, { w with hashers := w.hashers.set i h })
  | .writeAll i s => do
    let h ← w.hasher i
    let (b, h) ← h.write_all cfg s
    return (.success b, { w with hashers := w.hashers.set i h })
  | .flush i => do
    let h ← w.hasher i
    let h ← h.flush
    return (.success true, { w with hashers := w.hashers.set i h })
  | .clone i => do
    let h ← w.hasher i
    return (.none, { w with hashers := w.hashers ++ [h] })
  | .finalize i => do
    let h ← w.hasher i
    let hash ← h.finalize
    return (.bytes hash.toList, w)
  | .finalizeXof i => do
    let h ← w.hasher i
    let o ← h.finalize_xof
    return (.none, { w with outputs := w.outputs ++ [o] })
  | .read j => do
    let o ← w.output j
    let (b, o) ← o.read prof
    return (.bytes b.toList, { w with outputs := w.outputs.set j o })
  | .toHash j => do
    let o ← w.output j
    return (.bytes o.to_hash.toList, w)
  | .cloneOut j => do
    let o ← w.output j
    return (.none, { w with outputs := w.outputs ++ [o] })

/-- A program: what each call returned. -/
def run (cfg : Config) (prof : Profile) : World → List Call → R (List Obs)
  | _, [] => .ok []
  | w, c :: cs => do
    let (o, w) ← w.step cfg prof c
    let os ← run cfg prof w cs
    return o :: os

end World
end Baokeshed.Model
