import Verif.Model.Api

/-!
# The one-shot functions with the `rayon` feature

`join` (/repo/src/lib.rs:436-447) then is `rayon::join`, which may run its two closures on different threads.
Here `hash_recurse` is a process over a shared memory: it reads and writes single bytes, allocates its array of
children, and forks at `join`.  `Step` is the semantics: the two sides of a `join` interleave arbitrarily, at
every level of the recursion.

Buffers: every call of `hash_recurse` has its own `children_array`, named by the path from the root of the recursion
(a list of left/right turns); `hash_internal`'s array is the buffer `[]`.  The key, flags and the input are only read
and are parameters.  The leaf functions `hash_chunks_parallel` and `hash_parents_parallel` are the sequential ones of
Model/Lib.lean; a call first reads the whole slice it may write to, byte by byte, and then writes it back, byte by byte
(the code itself never reads that slice, and writes only a part of it).
-/

namespace Baokeshed.Model.Par
open Baokeshed.Model

/-- the name of a buffer -/
abbrev Buf := List Bool

/-- Memory: which bytes are allocated, and their values. -/
abbrev Mem := Buf → Nat → Option Byte

/-- A process.  `done` has returned a `usize` or panicked. -/
inductive Proc where
  | done (r : R Nat)
  | read (b : Buf) (i : Nat) (k : Byte → Proc)
  | write (b : Buf) (i : Nat) (v : Byte) (k : Proc)
  | alloc (b : Buf) (init : Bytes) (k : Proc)
  | join (l r : Proc) (k : Nat → Nat → Proc)

/-- write one byte -/
def Mem.set (m : Mem) (b : Buf) (i : Nat) (v : Byte) : Mem :=
  fun c j => if c = b ∧ j = i then some v else m c j

/-- allocate a buffer -/
def Mem.alloc (m : Mem) (b : Buf) (init : Bytes) : Mem :=
  fun c j => if c = b then init[j]? else m c j

/-- One step of one thread.  Reading or writing unallocated memory is an error.  A panic on one side of a `join`
reaches the caller of `join`; the other side may have been run or not (rayon waits for a side that has
been started, and drops one that has not). -/
inductive Step : Proc → Mem → Proc → Mem → Prop where
  | read {b i k m v} : m b i = some v → Step (.read b i k) m (k v) m
  | readBad {b i k m} : m b i = none → Step (.read b i k) m (.done (.error .ub)) m
  | write {b i v k m w} : m b i = some w → Step (.write b i v k) m k (m.set b i v)
  | writeBad {b i v k m} : m b i = none → Step (.write b i v k) m (.done (.error .ub)) m
  | alloc {b init k m} : Step (.alloc b init k) m k (m.alloc b init)
  | left {l l' r k m m'} : Step l m l' m' → Step (.join l r k) m (.join l' r k) m'
  | right {l r r' k m m'} : Step r m r' m' → Step (.join l r k) m (.join l r' k) m'
  | join {a b k m} : Step (.join (.done (.ok a)) (.done (.ok b)) k) m (k a b) m
  | panicLeft {e r k m} : Step (.join (.done (.error e)) r k) m (.done (.error e)) m
  | panicRight {e l k m} : Step (.join l (.done (.error e)) k) m (.done (.error e)) m

/-- `n` steps -/
inductive Steps : Nat → Proc → Mem → Proc → Mem → Prop where
  | refl {P m} : Steps 0 P m P m
  | step {n P m P' m' P'' m''} : Step P m P' m' → Steps n P' m' P'' m'' → Steps (n + 1) P m P'' m''

/-- `&buf[start..start + len]` or `&mut buf[start..start + len]` -/
structure Slice where
  buf : Buf
  start : Nat
  len : Nat

/-- read `n` bytes from index `i` on -/
def readFrom (b : Buf) (i : Nat) : Nat → (Bytes → Proc) → Proc
  | 0, k => k []
  | n + 1, k => .read b i fun v => readFrom b (i + 1) n fun vs => k (v :: vs)

/-- write bytes from index `i` on -/
def writeFrom (b : Buf) (i : Nat) : Bytes → Proc → Proc
  | [], k => k
  | v :: vs, k => .write b i v (writeFrom b (i + 1) vs k)

/-- a function that changes a slice and returns a `usize` -/
def onSlice (s : Slice) (f : Bytes → R (Nat × Bytes)) : Proc :=
  readFrom s.buf s.start s.len fun old =>
    match f old with
    | .error e => .done (.error e)
    | .ok (n, new) => writeFrom s.buf s.start new (.done (.ok n))

/-- run a check -/
def guardP {α} (r : R α) (k : α → Proc) : Proc :=
  match r with
  | .error e => .done (.error e)
  | .ok a => k a

/-- lib.rs:450-512.  `frame` names the call's `children_array`. -/
def hash_recurse (cfg : Config) (input : Bytes) (key : Vector Word 8) (offset : U64) (flags : Byte)
    (p : Platform) (out : Slice) (frame : Buf) : Proc :=
  if input.length ≤ p.simd_degree * CHUNK_LEN then
    onSlice out fun o => hash_chunks_parallel cfg input key offset flags p o
  else
    match _hl : left_len cfg.usizeBits input.length with
    | .error e => .done (.error e)
    | .ok l =>
      let left := input.take l
      let right := input.drop l
      guardP (addU64 offset (BitVec.ofNat 64 left.length)) fun right_off =>
      guardP (assertR (popcount p.simd_degree = 1)) fun _ =>
      let size := 2 * MAX_SIMD_DEGREE_OR_2 cfg * OUT_LEN
      let degree := if left.length = CHUNK_LEN then 1 else max p.simd_degree 2
      .alloc frame (List.replicate size 0) <|
      -- split_at_mut
      guardP (if degree * OUT_LEN ≤ size then .ok () else .error .bounds) fun _ =>
      .join
        (hash_recurse cfg left key offset flags p ⟨frame, 0, degree * OUT_LEN⟩ (frame ++ [false]))
        (hash_recurse cfg right key right_off flags p ⟨frame, degree * OUT_LEN, size - degree * OUT_LEN⟩ (frame ++ [true]))
        fun left_n right_n =>
      guardP (assertR (left_n = degree)) fun _ =>
      guardP (assertR (1 ≤ right_n ∧ right_n ≤ left_n)) fun _ =>
      if left_n = 1 then
        guardP (if 2 * OUT_LEN ≤ size then .ok () else .error .bounds) fun _ =>
        readFrom frame 0 (2 * OUT_LEN) fun c =>
        onSlice out fun o => do
          let o ← writeAt o 0 c
          return (2, o)
      else
        let num_children := left_n + right_n
        guardP (if num_children * OUT_LEN ≤ size then .ok () else .error .bounds) fun _ =>
        readFrom frame 0 (num_children * OUT_LEN) fun c =>
        onSlice out fun o => hash_parents_parallel cfg c key flags p o
termination_by input.length
decreasing_by
  · have := left_len_lt _hl
    simp only [List.length_take]; omega
  · have := left_len_pos _hl
    have := left_len_lt _hl
    simp only [List.length_drop]; omega

/-- lib.rs:547-548: the call of `hash_recurse` from `hash_internal`, whose `children_array` is buffer `[]` -/
def root (cfg : Config) (input : Bytes) (key : Vector Word 8) (flags : Byte) : Proc :=
  .alloc [] (List.replicate (MAX_SIMD_DEGREE_OR_2 cfg * OUT_LEN) 0) <|
  hash_recurse cfg input key 0 flags (Platform.detect cfg) ⟨[], 0, MAX_SIMD_DEGREE_OR_2 cfg * OUT_LEN⟩ [false]

/-- the bytes of a buffer of `n` bytes -/
def contents (m : Mem) (b : Buf) (n : Nat) : Bytes := (List.range n).map fun i => (m b i).getD 0

/-- lib.rs:549-551: what `hash_internal` does with the result -/
def finish (cfg : Config) (key : Vector Word 8) (flags : Byte) (num_children : Nat) (m : Mem) : R Output := do
  let c ← sliceTo (contents m [] (MAX_SIMD_DEGREE_OR_2 cfg * OUT_LEN)) (num_children * OUT_LEN)
  condense_root cfg c key flags (Platform.detect cfg)

/-- lib.rs:538-552 with threads: `o` is a possible result of `hash_internal`. -/
inductive HashInternal (cfg : Config) (input : Bytes) (key : Vector Word 8) (flags : Byte) : R Output → Prop where
  | small : input.length ≤ CHUNK_LEN →
      HashInternal cfg input key flags (hash_one_chunk input key 0 .root flags (Platform.detect cfg))
  | large {n m m' r} : CHUNK_LEN < input.length → Steps n (root cfg input key flags) m (.done (.ok r)) m' →
      HashInternal cfg input key flags (finish cfg key flags r m')
  | panic {n m m' e} : CHUNK_LEN < input.length → Steps n (root cfg input key flags) m (.done (.error e)) m' →
      HashInternal cfg input key flags (.error e)

/-- lib.rs:560, 574, 593 with threads: a possible result. -/
def OneShotXof (cfg : Config) : Spec.Mode → Bytes → R Output → Prop
  | .hash, input => HashInternal cfg input IV 0
  | .keyedHash k, input => HashInternal cfg input (words_from_key_bytes k) Flags.KEYED_HASH
  | .deriveKey k, input => HashInternal cfg input (words_from_key_bytes k) Flags.DERIVE_KEY

/-- lib.rs:555, 567, 584 with threads: a possible result. -/
def OneShot (cfg : Config) (m : Spec.Mode) (input : Bytes) (r : R (Vector Byte 32)) : Prop :=
  ∃ x, OneShotXof cfg m input x ∧ r = (do let o ← x; return o.to_hash)

/-- A thread of the process is about to read (`w = false`) or to change (`w = true`) byte `i` of buffer `b`. -/
inductive Next : Proc → Bool → Buf → Nat → Prop where
  | read {b i k} : Next (.read b i k) false b i
  | write {b i v k} : Next (.write b i v k) true b i
  | alloc {b init k i} : Next (.alloc b init k) true b i
  | left {l r k w b i} : Next l w b i → Next (.join l r k) w b i
  | right {l r k w b i} : Next r w b i → Next (.join l r k) w b i

/-- A data race: two threads are about to access the same byte, at least one of them to change it. -/
inductive Race : Proc → Prop where
  | here {l r k w w' b i} : Next l w b i → Next r w' b i → (w = true ∨ w' = true) → Race (.join l r k)
  | left {l r k} : Race l → Race (.join l r k)
  | right {l r k} : Race r → Race (.join l r k)

end Baokeshed.Model.Par
