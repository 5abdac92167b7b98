import Verif.Model.C.Hasher

/-!
# Null pointers and /repo/c/baokeshed.c

In `Verif.Model.C.Hasher` the input of `hasher_update` is an object: the bytes from the pointer to the end of what may be
read.  A C program may also have a null pointer, typically together with the length 0.  Here is the part of baokeshed.c
through which the pointer `input` passes once more, with pointers that may be null.  Everything else is taken from there.

Up to C17 neither `memcpy(dest, NULL, 0)` (7.24.1 paragraph 2 with 7.1.4 paragraph 1) nor `NULL + 0` (6.5.6 paragraph 8) is
defined; the draft after C23 allows both.  Which rule applies is the parameter `zeroOk`.
-/

namespace Baokeshed.Model.C.P

/-- A pointer to bytes: null, or into an object, of which this is the part from there to its end. -/
abbrev Ptr := Option Bytes

/-- what can be read through a pointer -/
def Ptr.avail : Ptr → Nat
  | none => 0
  | some b => b.length

/-- a pointer from which a fixed positive number of bytes is read -/
def deref : Ptr → R Bytes
  | none => .error .ub
  | some b => .ok b

/-- `p + n` -/
def advance (zeroOk : Bool) : Ptr → Nat → R Ptr
  | none, n => if zeroOk = true ∧ n = 0 then .ok none else .error .ub
  | some b, n => do return some (← cAdvance b n)

/-- `memcpy(dst + off, src, n)` -/
def memcpy (zeroOk : Bool) (dst : Bytes) (off : Nat) : (src : Ptr) → (n : Nat) → R Bytes
  | none, n => if zeroOk = true ∧ n = 0 then cStore dst off [] else .error .ub
  | some b, n => C.memcpy dst off b n

section
variable (zeroOk : Bool) (cfg : Config)

/-- baokeshed.c:43-53 -/
def chunk_state_fill_buf (self : chunk_state) (input : Ptr) (input_len : Nat) : R (chunk_state × Nat) := do
  let take := subSz cfg.bits BLOCK_LEN self.buf_len.toNat
  let take := if take > input_len then input_len else take
  let buf ← memcpy zeroOk self.buf self.buf_len.toNat input take
  return ({ self with buf, buf_len := self.buf_len + BitVec.ofNat 8 take }, take)

/-- The first part of `chunk_state_update`, baokeshed.c:77-88 -/
def chunk_state_update_first (self : chunk_state) (input : Ptr) (input_len : Nat) : R (chunk_state × Ptr × Nat) :=
  if self.buf_len > 0 then do
    let (self, take) ← chunk_state_fill_buf zeroOk cfg self input input_len
    let input ← advance zeroOk input take
    let input_len := input_len - take
    if input_len > 0 then
      let state ← compress cfg self.state self.buf (BitVec.ofNat 8 BLOCK_LEN) self.offset
        (self.flags ||| chunk_state_maybe_start_flag self)
      return ({ self with state, count := self.count + BitVec.ofNat 16 BLOCK_LEN, buf_len := 0,
                          buf := List.replicate BLOCK_LEN 0 }, input, input_len)
    else return (self, input, input_len)
  else .ok (self, input, input_len)

/-- The loop of `chunk_state_update`, baokeshed.c:90-96 -/
def chunk_state_update_blocks (self : chunk_state) (input : Ptr) (input_len : Nat) : R (chunk_state × Ptr × Nat) :=
  if input_len > BLOCK_LEN then do
    let state ← compress cfg self.state (← deref input) (BitVec.ofNat 8 BLOCK_LEN) self.offset
      (self.flags ||| chunk_state_maybe_start_flag self)
    let input ← advance zeroOk input BLOCK_LEN
    chunk_state_update_blocks { self with state, count := self.count + BitVec.ofNat 16 BLOCK_LEN } input
      (input_len - BLOCK_LEN)
  else .ok (self, input, input_len)
termination_by input_len
decreasing_by simp [BLOCK_LEN] at *; omega

/-- baokeshed.c:75-101 -/
def chunk_state_update (self : chunk_state) (input : Ptr) (input_len : Nat) : R chunk_state := do
  let (self, input, input_len) ← chunk_state_update_first zeroOk cfg self input input_len
  let (self, input, input_len) ← chunk_state_update_blocks zeroOk cfg self input input_len
  let (self, take) ← chunk_state_fill_buf zeroOk cfg self input input_len
  let _input ← advance zeroOk input take
  return self

/-- The inner loop of `hasher_update`, baokeshed.c:224-229.  Storing a null pointer in `chunks` is defined, but the next
statement adds 2048 to it, which is not under either rule; so the two can be taken together. -/
def collect_chunks (chunks : List Bytes) (input_bytes : Ptr) (input_len num_chunks : Nat) :
    R (List Bytes × Ptr × Nat × Nat) :=
  if input_len ≥ CHUNK_LEN ∧ num_chunks < MAX_SIMD_DEGREE then do
    let chunks ← cStore chunks num_chunks [← deref input_bytes]
    let input_bytes ← advance zeroOk input_bytes CHUNK_LEN
    collect_chunks chunks input_bytes (input_len - CHUNK_LEN) (num_chunks + 1)
  else .ok (chunks, input_bytes, input_len, num_chunks)
termination_by MAX_SIMD_DEGREE - num_chunks
decreasing_by simp only [MAX_SIMD_DEGREE] at *; omega

theorem collect_le {chunks c : List Bytes} {input b : Ptr} {input_len num_chunks l n : Nat}
    (e : collect_chunks zeroOk chunks input input_len num_chunks = .ok (c, b, l, n)) : l ≤ input_len := by
  induction hk : MAX_SIMD_DEGREE - num_chunks generalizing chunks input input_len num_chunks with
  | zero =>
    rw [collect_chunks, if_neg (by simp only [MAX_SIMD_DEGREE] at *; omega)] at e
    cases e; exact Nat.le_refl _
  | succ k ih =>
    rw [collect_chunks] at e
    split at e
    next h =>
      simp only [bind, Except.bind] at e
      repeat' split at e
      all_goals try cases e
      have := ih e (by simp only [MAX_SIMD_DEGREE] at *; omega)
      omega
    next => cases e; exact Nat.le_refl _

theorem collect_lt {chunks c : List Bytes} {input b : Ptr} {input_len l n : Nat} (h : input_len ≥ CHUNK_LEN)
    (e : collect_chunks zeroOk chunks input input_len 0 = .ok (c, b, l, n)) : l < input_len := by
  rw [collect_chunks, if_pos ⟨h, by decide⟩] at e
  simp only [bind, Except.bind] at e
  repeat' split at e
  all_goals try cases e
  have := collect_le _ e
  simp only [CHUNK_LEN] at *
  omega

/-- The outer loop of `hasher_update`, baokeshed.c:223-241 -/
def update_loop (self : hasher) (out : Bytes) (chunks : List Bytes) (input_bytes : Ptr) (input_len : Nat) :
    R (hasher × Ptr × Nat) :=
  if _h : input_len ≥ CHUNK_LEN then
    match _e : collect_chunks zeroOk chunks input_bytes input_len 0 with
    | .error e => .error e
    | .ok (chunks, input_bytes, input_len, num_chunks) => do
      let out ← hash_many cfg chunks num_chunks (CHUNK_LEN / BLOCK_LEN) self.chunk.key self.chunk.offset
        CHUNK_OFFSET_DELTAS self.chunk.flags CHUNK_START CHUNK_END out
      let self ← push_chunks cfg self out 0 num_chunks
      update_loop self out chunks input_bytes input_len
  else .ok (self, input_bytes, input_len)
termination_by input_len
decreasing_by exact collect_lt _ _h _e

/-- The second part of `hasher_update`, baokeshed.c:218-255 -/
def hasher_update_rest (self : hasher) (input_bytes : Ptr) (input_len : Nat) : R hasher := do
  let out := cfg.uninit (OUT_LEN * MAX_SIMD_DEGREE)
  let chunks : List Bytes := List.replicate MAX_SIMD_DEGREE []
  let (self, input_bytes, input_len) ← update_loop zeroOk cfg self out chunks input_bytes input_len
  if input_len > 0 then
    let self ← merge_loop cfg self self.chunk.offset
    let chunk ← chunk_state_update zeroOk cfg self.chunk input_bytes input_len
    return { self with chunk }
  else return self

/-- baokeshed.c:192-256 -/
def hasher_update (self : hasher) (input : Ptr) (input_len : Nat) : R hasher := do
  let input_bytes := input
  let is_first_chunk := self.chunk.offset = 0
  let maybe_root := is_first_chunk ∧ input_len = CHUNK_LEN
  if maybe_root ∨ chunk_state_len cfg self.chunk > 0 then
    let take := subSz cfg.bits CHUNK_LEN (chunk_state_len cfg self.chunk)
    let take := if take > input_len then input_len else take
    let chunk ← chunk_state_update zeroOk cfg self.chunk input_bytes take
    let self := { self with chunk }
    let input_bytes ← advance zeroOk input_bytes take
    let input_len := input_len - take
    if input_len > 0 then
      let out := cfg.uninit OUT_LEN
      let out ← chunk_state_finalize cfg self.chunk false out
      let self ← hasher_push_chunk_hash cfg self out self.chunk.offset
      let self := { self with chunk := chunk_state_reset self.chunk (self.chunk.offset + BitVec.ofNat 64 CHUNK_LEN) }
      hasher_update_rest zeroOk cfg self input_bytes input_len
    else return self
  else hasher_update_rest zeroOk cfg self input_bytes input_len

end

end Baokeshed.Model.C.P
