import Verif.Model.C.Hasher
import Verif.Model.Trace

/-!
# /repo/c/baokeshed.c once more, recording the calls of the compression function

The definitions repeat those of Model/C/Hasher.lean in the monad of Model/Trace.lean, which also keeps the list
of the arguments of all compressions performed so far.  `Proofs/C/Erase.lean` proves that dropping that list
gives back the original definitions.

The SIMD versions of `hash_many` perform the compressions of several inputs at the same time, one per lane.
They are recorded in the order in which the portable version performs them.
-/

namespace Baokeshed.Model.CT
open Baokeshed.Model Baokeshed.Model.C Baokeshed.Model.T

/-- baokeshed.c:63-72.  The block consists of the first 64 bytes behind the pointer. -/
def compress (cfg : C.Config) (state : Vector Word 8) (block : Bytes) (block_len : Byte) (offset : U64)
    (flags : Byte) : TR (Vector Word 8) :=
  ⟨C.compress cfg state block block_len offset flags, [⟨state, Spec.pad block, block_len, offset, flags⟩]⟩

/-- baokeshed_portable.c:33-73 -/
def compress_portable (state : Vector Word 8) (block : Bytes) (block_len : Byte) (offset : U64)
    (flags : Byte) : TR (Vector Word 8) :=
  ⟨C.Portable.compress_portable state block block_len offset flags, [⟨state, Spec.pad block, block_len, offset, flags⟩]⟩

/-- The loop of `hash_one_portable`, baokeshed_portable.c:82-90 -/
def hash_one_portable_loop (flags flags_end : Byte) (offset : U64) : (blocks : Nat) → (state : Vector Word 8) →
    (input : Bytes) → (block_flags : Byte) → TR (Vector Word 8)
  | 0, state, _, _ => pure state
  | blocks + 1, state, input, block_flags => do
    let block_flags := if blocks + 1 = 1 then block_flags ||| flags_end else block_flags
    let state ← compress_portable state input (BitVec.ofNat 8 C.BLOCK_LEN) offset block_flags
    let input ← cAdvance input C.BLOCK_LEN
    hash_one_portable_loop flags flags_end offset blocks state input flags

/-- baokeshed_portable.c:75-92 -/
def hash_one_portable (input : Bytes) (blocks : Nat) (key_words : Vector Word 8) (offset : U64)
    (flags flags_start flags_end : Byte) (out : Bytes) : TR Bytes := do
  let state ← hash_one_portable_loop flags flags_end offset blocks key_words input (flags ||| flags_start)
  write_state_bytes state out

/-- The loop of `hash_many_portable`, baokeshed_portable.c:99-106 -/
def hash_many_portable_loop (blocks : Nat) (key_words : Vector Word 8) (offset_deltas : List U64)
    (flags flags_start flags_end : Byte) :
    (num_inputs : Nat) → (inputs : List Bytes) → (offset : U64) → (out : Bytes) → TR Bytes
  | 0, _, _, out => pure out
  | num_inputs + 1, inputs, offset, out => do
    let input ← cIndex inputs 0
    let out ← hash_one_portable input blocks key_words offset flags flags_start flags_end out
    let inputs ← cAdvance inputs 1
    let delta ← cIndex offset_deltas 1
    let offset := offset + delta
    let rest ← cAdvance out C.OUT_LEN
    let rest ← hash_many_portable_loop blocks key_words offset_deltas flags flags_start flags_end num_inputs inputs offset rest
    return out.take C.OUT_LEN ++ rest

/-- baokeshed.c:169-190.  The result is that of the build; the compressions are recorded in the order of the
portable version, baokeshed_portable.c:94-107. -/
def hash_many (cfg : C.Config) (inputs : List Bytes) (num_inputs blocks : Nat) (key_words : Vector Word 8)
    (offset : U64) (offset_deltas : List U64) (flags flags_start flags_end : Byte) (out : Bytes) : TR Bytes :=
  ⟨C.hash_many cfg inputs num_inputs blocks key_words offset offset_deltas flags flags_start flags_end out,
    (hash_many_portable_loop blocks key_words offset_deltas flags flags_start flags_end num_inputs inputs offset
      out).log⟩

/-! ## Chunk state -/

/-- The first part of `chunk_state_update`, baokeshed.c:77-88 -/
def chunk_state_update_first (cfg : C.Config) (self : chunk_state) (input : Bytes) (input_len : Nat) :
    TR (chunk_state × Bytes × Nat) :=
  if self.buf_len > 0 then do
    let (self, take) ← chunk_state_fill_buf cfg self input input_len
    let input ← cAdvance input take
    let input_len := input_len - take
    if input_len > 0 then
      let state ← compress cfg self.state self.buf (BitVec.ofNat 8 C.BLOCK_LEN) self.offset
        (self.flags ||| chunk_state_maybe_start_flag self)
      return ({ self with state, count := self.count + BitVec.ofNat 16 C.BLOCK_LEN, buf_len := 0,
                          buf := List.replicate C.BLOCK_LEN 0 }, input, input_len)
    else return (self, input, input_len)
  else pure (self, input, input_len)

/-- The loop of `chunk_state_update`, baokeshed.c:90-96 -/
def chunk_state_update_blocks (cfg : C.Config) (self : chunk_state) (input : Bytes) (input_len : Nat) :
    TR (chunk_state × Bytes × Nat) :=
  if input_len > C.BLOCK_LEN then do
    let state ← compress cfg self.state input (BitVec.ofNat 8 C.BLOCK_LEN) self.offset
      (self.flags ||| chunk_state_maybe_start_flag self)
    let input ← cAdvance input C.BLOCK_LEN
    chunk_state_update_blocks cfg { self with state, count := self.count + BitVec.ofNat 16 C.BLOCK_LEN } input
      (input_len - C.BLOCK_LEN)
  else pure (self, input, input_len)
termination_by input_len
decreasing_by simp [C.BLOCK_LEN] at *; omega

/-- baokeshed.c:75-101 -/
def chunk_state_update (cfg : C.Config) (self : chunk_state) (input : Bytes) (input_len : Nat) : TR chunk_state := do
  let (self, input, input_len) ← chunk_state_update_first cfg self input input_len
  let (self, input, input_len) ← chunk_state_update_blocks cfg self input input_len
  let (self, take) ← chunk_state_fill_buf cfg self input input_len
  let _input ← cAdvance input take
  return self

/-- baokeshed.c:104-115 -/
def chunk_state_finalize (cfg : C.Config) (self : chunk_state) (is_root : Bool) (out : Bytes) : TR Bytes := do
  let block_flags := self.flags ||| chunk_state_maybe_start_flag self ||| C.CHUNK_END
  let block_flags := if is_root then block_flags ||| C.ROOT else block_flags
  let state_copy ← compress cfg self.state self.buf self.buf_len self.offset block_flags
  write_state_bytes state_copy out

/-- baokeshed.c:117-128 -/
def hash_one_parent (cfg : C.Config) (block : Bytes) (key : Vector Word 8) (is_root : Bool) (flags : Byte)
    (out : Bytes) : TR Bytes := do
  let block_flags := flags ||| C.PARENT
  let block_flags := if is_root then block_flags ||| C.ROOT else block_flags
  let state ← compress cfg key block (BitVec.ofNat 8 C.BLOCK_LEN) 0 block_flags
  write_state_bytes state out

/-! ## Hasher -/

/-- baokeshed.c:148-156 -/
def hasher_merge_parent (cfg : C.Config) (self : hasher) : TR hasher := do
  let parent_block_start := mulSz cfg.bits (subSz cfg.bits self.subtree_hashes_len.toNat 2) C.OUT_LEN
  let out := cfg.uninit C.OUT_LEN
  let block ← cAdvance self.subtree_hashes parent_block_start
  let out ← hash_one_parent cfg block self.chunk.key false self.chunk.flags out
  let subtree_hashes ← memcpy self.subtree_hashes parent_block_start out C.OUT_LEN
  return { self with subtree_hashes, subtree_hashes_len := self.subtree_hashes_len - 1 }

/-- `while (hasher_needs_merge(self, offset)) { hasher_merge_parent(self); }`, baokeshed.c:161-163 and
249-251.  (The result of the iteration, which the recursion needs, is taken from Model/C/Hasher.lean;
`merge_parent_res` says that it is that of `hasher_merge_parent`.) -/
def merge_loop (cfg : C.Config) (self : hasher) (offset : U64) : TR hasher :=
  if _h : hasher_needs_merge cfg self offset then
    match _e : C.hasher_merge_parent cfg self with
    | .error e => ⟨.error e, (hasher_merge_parent cfg self).log⟩
    | .ok self' =>
      let rest := merge_loop cfg self' offset
      ⟨rest.res, (hasher_merge_parent cfg self).log ++ rest.log⟩
  else pure self
termination_by self.subtree_hashes_len.toNat
decreasing_by
  rw [hasher_merge_parent_len _e, BitVec.toNat_sub]
  simp only [hasher_needs_merge, gt_iff_lt, decide_eq_true_eq, BitVec.lt_def] at _h
  have := self.subtree_hashes_len.isLt
  have h1 : (1 : Byte).toNat = 1 := rfl
  omega

/-- baokeshed.c:158-167 -/
def hasher_push_chunk_hash (cfg : C.Config) (self : hasher) (hash : Bytes) (offset : U64) : TR hasher := do
  assertR (cfg.asserts = true → self.subtree_hashes_len.toNat < C.MAX_DEPTH)
  let self ← merge_loop cfg self offset
  let subtree_hashes ← memcpy self.subtree_hashes (self.subtree_hashes_len.toNat * C.OUT_LEN) hash C.OUT_LEN
  return { self with subtree_hashes, subtree_hashes_len := self.subtree_hashes_len + 1 }

/-- The `for` loop of `hasher_update`, baokeshed.c:233-239; `left` more iterations. -/
def push_chunks (cfg : C.Config) (self : hasher) (out : Bytes) (chunk_index : Nat) : (left : Nat) → TR hasher
  | 0 => pure self
  | left + 1 => do
    let hash ← cAdvance out (chunk_index * C.OUT_LEN)
    let self ← hasher_push_chunk_hash cfg self hash self.chunk.offset
    push_chunks cfg { self with chunk := { self.chunk with offset := self.chunk.offset + BitVec.ofNat 64 C.CHUNK_LEN } }
      out (chunk_index + 1) left

/-- The outer loop of `hasher_update`, baokeshed.c:223-241 -/
def update_loop (cfg : C.Config) (self : hasher) (out : Bytes) (chunks : List Bytes) (input_bytes : Bytes)
    (input_len : Nat) : TR (hasher × Bytes × Nat) :=
  if _h : input_len ≥ C.CHUNK_LEN then
    match _e : collect_chunks chunks input_bytes input_len 0 with
    | .error e => ⟨.error e, []⟩
    | .ok (chunks, input_bytes, input_len, num_chunks) => do
      let out ← hash_many cfg chunks num_chunks (C.CHUNK_LEN / C.BLOCK_LEN) self.chunk.key self.chunk.offset
        CHUNK_OFFSET_DELTAS self.chunk.flags C.CHUNK_START C.CHUNK_END out
      let self ← push_chunks cfg self out 0 num_chunks
      update_loop cfg self out chunks input_bytes input_len
  else pure (self, input_bytes, input_len)
termination_by input_len
decreasing_by exact collect_lt _h _e

/-- The second part of `hasher_update`, baokeshed.c:218-255 -/
def hasher_update_rest (cfg : C.Config) (self : hasher) (input_bytes : Bytes) (input_len : Nat) : TR hasher := do
  let out := cfg.uninit (C.OUT_LEN * C.MAX_SIMD_DEGREE)
  let chunks : List Bytes := List.replicate C.MAX_SIMD_DEGREE []
  let (self, input_bytes, input_len) ← update_loop cfg self out chunks input_bytes input_len
  if input_len > 0 then
    let self ← merge_loop cfg self self.chunk.offset
    let chunk ← chunk_state_update cfg self.chunk input_bytes input_len
    return { self with chunk }
  else return self

/-- baokeshed.c:192-256 -/
def hasher_update (cfg : C.Config) (self : hasher) (input : Bytes) (input_len : Nat) : TR hasher := do
  let input_bytes := input
  let is_first_chunk := self.chunk.offset = 0
  let maybe_root := is_first_chunk ∧ input_len = C.CHUNK_LEN
  if maybe_root ∨ chunk_state_len cfg self.chunk > 0 then
    let take := subSz cfg.bits C.CHUNK_LEN (chunk_state_len cfg self.chunk)
    let take := if take > input_len then input_len else take
    let chunk ← chunk_state_update cfg self.chunk input_bytes take
    let self := { self with chunk }
    let input_bytes ← cAdvance input_bytes take
    let input_len := input_len - take
    if input_len > 0 then
      let out := cfg.uninit C.OUT_LEN
      let out ← chunk_state_finalize cfg self.chunk false out
      let self ← hasher_push_chunk_hash cfg self out self.chunk.offset
      let self := { self with chunk := chunk_state_reset self.chunk (self.chunk.offset + BitVec.ofNat 64 C.CHUNK_LEN) }
      hasher_update_rest cfg self input_bytes input_len
    else return self
  else hasher_update_rest cfg self input_bytes input_len

/-- The loop of `hasher_finalize`, baokeshed.c:279-292 -/
def finalize_loop (cfg : C.Config) (self : hasher) (out : Bytes) : (fuel : Nat) → (working_hash : Bytes) →
    (next_subtree_start : Nat) → TR Bytes
  | 0, _, _ => ⟨.error .ub, []⟩
  | fuel + 1, working_hash, next_subtree_start => do
    let is_root := decide (next_subtree_start = 0)
    let block := cfg.uninit C.BLOCK_LEN
    let src ← cAdvance self.subtree_hashes next_subtree_start
    let block ← memcpy block 0 src C.OUT_LEN
    let block ← memcpy block C.OUT_LEN working_hash C.OUT_LEN
    let working_hash ← hash_one_parent cfg block self.chunk.key is_root self.chunk.flags working_hash
    if is_root then memcpy out 0 working_hash C.OUT_LEN
    else finalize_loop cfg self out fuel working_hash (subSz cfg.bits next_subtree_start C.OUT_LEN)

/-- baokeshed.c:258-293 -/
def hasher_finalize (cfg : C.Config) (self : hasher) (out : Bytes) : TR Bytes := do
  if self.subtree_hashes_len = 0 then chunk_state_finalize cfg self.chunk true out
  else
    let working_hash := cfg.uninit C.OUT_LEN
    if chunk_state_len cfg self.chunk > 0 then
      let working_hash ← chunk_state_finalize cfg self.chunk false working_hash
      let next_subtree_start := intSz cfg.bits (((self.subtree_hashes_len.toNat : Int) - 1) * C.OUT_LEN)
      finalize_loop cfg self out 256 working_hash next_subtree_start
    else
      let last_hash_start := intSz cfg.bits (((self.subtree_hashes_len.toNat : Int) - 1) * C.OUT_LEN)
      let src ← cAdvance self.subtree_hashes last_hash_start
      let working_hash ← memcpy working_hash 0 src C.OUT_LEN
      let next_subtree_start := intSz cfg.bits (((self.subtree_hashes_len.toNat : Int) - 2) * C.OUT_LEN)
      finalize_loop cfg self out 256 working_hash next_subtree_start

end Baokeshed.Model.CT
