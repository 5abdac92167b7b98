import Verif.Model.C.Hasher

/-!
# /repo/c/baokeshed.c once more, recording the calls of compression functions

The definitions repeat those of Model/C/Hasher.lean and of the `hash_many` loops, in a monad that also keeps the list of
the compression functions entered so far, and of the bytes copied into the block buffer of a chunk state.
`Proofs/C/EraseIsa.lean` proves that dropping that list gives back the original definitions.
-/

namespace Baokeshed.Model.CI
open Baokeshed.Model Baokeshed.Model.C

/-- The files that build.rs:79-129 compiles for certain processors only: baokeshed_sse41.c, baokeshed_avx2.c,
baokeshed_avx512.c and baokeshed_neon.c. -/
inductive Isa where
  | sse41
  | avx2
  | avx512
  | neon
  deriving DecidableEq, Repr

/-- What is recorded.  Without an `isa` the function is that of baokeshed_portable.c.  The calls that these functions make
in turn (such as that of `compress_sse41` in `hash_one_sse41`, baokeshed_sse41.c:496) are not recorded separately. -/
inductive Ev where
  /-- `compress_…` with these flags: baokeshed_portable.c:33, baokeshed_sse41.c:79, baokeshed_avx512.c:112 -/
  | compress (isa : Option Isa) (flags : Byte)
  /-- `hash_one_…` of an input of so many blocks: baokeshed_portable.c:75, baokeshed_sse41.c:485, baokeshed_avx512.c:1098,
  baokeshed_neon.c:292 -/
  | hash1 (isa : Option Isa) (blocks : Nat)
  /-- `hash4_…`, `hash8_…` or `hash16_…`, of so many inputs of so many blocks: baokeshed_sse41.c:424, baokeshed_avx2.c:240,
  baokeshed_avx512.c:459, 706 and 1017, baokeshed_neon.c:225 -/
  | hash (isa : Isa) (lanes blocks : Nat)
  /-- `hash_many_…`: baokeshed_portable.c:94, baokeshed_sse41.c:504, baokeshed_avx2.c:298, baokeshed_avx512.c:1117,
  baokeshed_neon.c:312 -/
  | many (isa : Option Isa)
  /-- `chunk_state_fill_buf`, baokeshed.c:43-53, copies so many bytes -/
  | copy (n : Nat)
  deriving DecidableEq, Repr

/-- The file the function belongs to, if it is not compiled for every processor. -/
def Ev.isa : Ev → Option Isa
  | .compress isa _ => isa
  | .hash1 isa _ => isa
  | .hash isa _ _ => some isa
  | .many isa => isa
  | .copy _ => none

/-- A computation that may fail, and what it calls. -/
structure ER (α : Type) where
  res : R α
  log : List Ev

instance : Monad ER where
  pure a := ⟨.ok a, []⟩
  bind x f := match x.res with
    | .ok a => ⟨(f a).res, x.log ++ (f a).log⟩
    | .error e => ⟨.error e, x.log⟩

instance : MonadLift R ER where
  monadLift r := ⟨r, []⟩

/-- enter a function -/
def enter (c : Ev) : ER Unit := ⟨.ok (), [c]⟩

/-! ## Compression functions -/

/-- baokeshed.c:63-72 -/
def compress (cfg : C.Config) (state : Vector Word 8) (block : Bytes) (block_len : Byte) (offset : U64)
    (flags : Byte) : ER (Vector Word 8) :=
  if cfg.avx512 then do
    enter (.compress (some .avx512) flags)
    Avx512.compress_avx512 state block block_len offset flags
  else if cfg.sse41 then do
    enter (.compress (some .sse41) flags)
    C.Sse41.compress_sse41 state block block_len offset flags
  else do
    enter (.compress none flags)
    C.Portable.compress_portable state block block_len offset flags

/-- The loop of `hash_many_portable`, baokeshed_portable.c:99-106 -/
def hash_many_portable_loop (blocks : Nat) (key_words : Vector Word 8) (offset_deltas : List U64) (flags flags_start flags_end : Byte) :
    (num_inputs : Nat) → (inputs : List Bytes) → (offset : U64) → (out : Bytes) → ER Bytes
  | 0, _, _, out => pure out
  | num_inputs + 1, inputs, offset, out => do
    let input ← cIndex inputs 0
    enter (.hash1 none blocks)
    let out ← C.Portable.hash_one_portable input blocks key_words offset flags flags_start flags_end out
    let inputs ← cAdvance inputs 1
    let delta ← cIndex offset_deltas 1
    let offset := offset + delta
    let rest ← cAdvance out C.OUT_LEN
    let rest ← hash_many_portable_loop blocks key_words offset_deltas flags flags_start flags_end num_inputs inputs offset rest
    return out.take C.OUT_LEN ++ rest

/-- baokeshed_portable.c:94-107 -/
def hash_many_portable (inputs : List Bytes) (num_inputs blocks : Nat) (key_words : Vector Word 8) (offset : U64)
    (offset_deltas : List U64) (flags flags_start flags_end : Byte) (out : Bytes) : ER Bytes := do
  enter (.many none)
  hash_many_portable_loop blocks key_words offset_deltas flags flags_start flags_end num_inputs inputs offset out

/-- The last loop of `hash_many_sse41`, baokeshed_sse41.c:517-524 -/
def hash_many_sse41_loop1 (blocks : Nat) (key_words : Vector Word 8) (offset_deltas : List U64) (flags flags_start flags_end : Byte) :
    (num_inputs : Nat) → (inputs : List Bytes) → (offset : U64) → (out : Bytes) → ER Bytes
  | 0, _, _, out => pure out
  | num_inputs + 1, inputs, offset, out => do
    let input ← cIndex inputs 0
    enter (.hash1 (some .sse41) blocks)
    let out ← C.Sse41.hash_one_sse41 input blocks key_words offset flags flags_start flags_end out
    let inputs ← cAdvance inputs 1
    let delta ← cIndex offset_deltas 1
    let offset := offset + delta
    let rest ← cAdvance out C.OUT_LEN
    let rest ← hash_many_sse41_loop1 blocks key_words offset_deltas flags flags_start flags_end num_inputs inputs offset rest
    return out.take C.OUT_LEN ++ rest

/-- The loop of `hash_many_sse41` for batches of 4, baokeshed_sse41.c:509-516, and what follows it -/
def hash_many_sse41_loop4 (blocks : Nat) (key_words : Vector Word 8) (offset_deltas : List U64) (flags flags_start flags_end : Byte)
    (num_inputs : Nat) (inputs : List Bytes) (offset : U64) (out : Bytes) : ER Bytes :=
  if _h : 4 ≤ num_inputs then do
    enter (.hash .sse41 4 blocks)
    let out ← C.Sse41.hash4_sse41 inputs blocks key_words offset offset_deltas flags flags_start flags_end out
    let inputs ← cAdvance inputs 4
    let delta ← cIndex offset_deltas 4
    let offset := offset + delta
    let rest ← cAdvance out (4 * C.OUT_LEN)
    let rest ← hash_many_sse41_loop4 blocks key_words offset_deltas flags flags_start flags_end (num_inputs - 4) inputs offset rest
    return out.take (4 * C.OUT_LEN) ++ rest
  else hash_many_sse41_loop1 blocks key_words offset_deltas flags flags_start flags_end num_inputs inputs offset out
termination_by num_inputs
decreasing_by omega

/-- baokeshed_sse41.c:504-525 -/
def hash_many_sse41 (inputs : List Bytes) (num_inputs blocks : Nat) (key_words : Vector Word 8) (offset : U64)
    (offset_deltas : List U64) (flags flags_start flags_end : Byte) (out : Bytes) : ER Bytes := do
  enter (.many (some .sse41))
  hash_many_sse41_loop4 blocks key_words offset_deltas flags flags_start flags_end num_inputs inputs offset out

/-- The loop of `hash_many_avx2` for batches of 8, baokeshed_avx2.c:302-309, and what follows it -/
def hash_many_avx2_loop (blocks : Nat) (key_words : Vector Word 8) (offset_deltas : List U64) (flags flags_start flags_end : Byte)
    (num_inputs : Nat) (inputs : List Bytes) (offset : U64) (out : Bytes) : ER Bytes :=
  if _h : 8 ≤ num_inputs then do
    enter (.hash .avx2 8 blocks)
    let out ← C.Avx2.hash8_avx2 inputs blocks key_words offset offset_deltas flags flags_start flags_end out
    let inputs ← cAdvance inputs 8
    let delta ← cIndex offset_deltas 8
    let offset := offset + delta
    let rest ← cAdvance out (8 * C.OUT_LEN)
    let rest ← hash_many_avx2_loop blocks key_words offset_deltas flags flags_start flags_end (num_inputs - 8) inputs offset rest
    return out.take (8 * C.OUT_LEN) ++ rest
  else hash_many_sse41 inputs num_inputs blocks key_words offset offset_deltas flags flags_start flags_end out
termination_by num_inputs
decreasing_by omega

/-- baokeshed_avx2.c:298-312 -/
def hash_many_avx2 (inputs : List Bytes) (num_inputs blocks : Nat) (key_words : Vector Word 8) (offset : U64)
    (offset_deltas : List U64) (flags flags_start flags_end : Byte) (out : Bytes) : ER Bytes := do
  enter (.many (some .avx2))
  hash_many_avx2_loop blocks key_words offset_deltas flags flags_start flags_end num_inputs inputs offset out

/-- The last loop of `hash_many_avx512`, baokeshed_avx512.c:1146-1153 -/
def hash_many_avx512_loop1 (blocks : Nat) (key_words : Vector Word 8) (offset_deltas : List U64) (flags flags_start flags_end : Byte) :
    (num_inputs : Nat) → (inputs : List Bytes) → (offset : U64) → (out : Bytes) → ER Bytes
  | 0, _, _, out => pure out
  | num_inputs + 1, inputs, offset, out => do
    let input ← cIndex inputs 0
    enter (.hash1 (some .avx512) blocks)
    let out ← Avx512.hash_one_avx512 input blocks key_words offset flags flags_start flags_end out
    let inputs ← cAdvance inputs 1
    let delta ← cIndex offset_deltas 1
    let offset := offset + delta
    let rest ← cAdvance out C.OUT_LEN
    let rest ← hash_many_avx512_loop1 blocks key_words offset_deltas flags flags_start flags_end num_inputs inputs offset rest
    return out.take C.OUT_LEN ++ rest

/-- The loop of `hash_many_avx512` for batches of 4, baokeshed_avx512.c:1138-1145, and what follows it -/
def hash_many_avx512_loop4 (blocks : Nat) (key_words : Vector Word 8) (offset_deltas : List U64) (flags flags_start flags_end : Byte)
    (num_inputs : Nat) (inputs : List Bytes) (offset : U64) (out : Bytes) : ER Bytes :=
  if _h : 4 ≤ num_inputs then do
    enter (.hash .avx512 4 blocks)
    let out ← Avx512.hash4_avx512 inputs blocks key_words offset offset_deltas flags flags_start flags_end out
    let inputs ← cAdvance inputs 4
    let delta ← cIndex offset_deltas 4
    let offset := offset + delta
    let rest ← cAdvance out (4 * C.OUT_LEN)
    let rest ← hash_many_avx512_loop4 blocks key_words offset_deltas flags flags_start flags_end (num_inputs - 4) inputs offset rest
    return out.take (4 * C.OUT_LEN) ++ rest
  else hash_many_avx512_loop1 blocks key_words offset_deltas flags flags_start flags_end num_inputs inputs offset out
termination_by num_inputs
decreasing_by omega

/-- The loop of `hash_many_avx512` for batches of 8, baokeshed_avx512.c:1130-1137, and what follows it -/
def hash_many_avx512_loop8 (blocks : Nat) (key_words : Vector Word 8) (offset_deltas : List U64) (flags flags_start flags_end : Byte)
    (num_inputs : Nat) (inputs : List Bytes) (offset : U64) (out : Bytes) : ER Bytes :=
  if _h : 8 ≤ num_inputs then do
    enter (.hash .avx512 8 blocks)
    let out ← Avx512.hash8_avx512 inputs blocks key_words offset offset_deltas flags flags_start flags_end out
    let inputs ← cAdvance inputs 8
    let delta ← cIndex offset_deltas 8
    let offset := offset + delta
    let rest ← cAdvance out (8 * C.OUT_LEN)
    let rest ← hash_many_avx512_loop8 blocks key_words offset_deltas flags flags_start flags_end (num_inputs - 8) inputs offset rest
    return out.take (8 * C.OUT_LEN) ++ rest
  else hash_many_avx512_loop4 blocks key_words offset_deltas flags flags_start flags_end num_inputs inputs offset out
termination_by num_inputs
decreasing_by omega

/-- The loop of `hash_many_avx512` for batches of 16, baokeshed_avx512.c:1122-1129, and what follows it -/
def hash_many_avx512_loop16 (blocks : Nat) (key_words : Vector Word 8) (offset_deltas : List U64) (flags flags_start flags_end : Byte)
    (num_inputs : Nat) (inputs : List Bytes) (offset : U64) (out : Bytes) : ER Bytes :=
  if _h : 16 ≤ num_inputs then do
    enter (.hash .avx512 16 blocks)
    let out ← Avx512.hash16_avx512 inputs blocks key_words offset offset_deltas flags flags_start flags_end out
    let inputs ← cAdvance inputs 16
    let delta ← cIndex offset_deltas 16
    let offset := offset + delta
    let rest ← cAdvance out (16 * C.OUT_LEN)
    let rest ← hash_many_avx512_loop16 blocks key_words offset_deltas flags flags_start flags_end (num_inputs - 16) inputs offset rest
    return out.take (16 * C.OUT_LEN) ++ rest
  else hash_many_avx512_loop8 blocks key_words offset_deltas flags flags_start flags_end num_inputs inputs offset out
termination_by num_inputs
decreasing_by omega

/-- baokeshed_avx512.c:1117-1154 -/
def hash_many_avx512 (inputs : List Bytes) (num_inputs blocks : Nat) (key_words : Vector Word 8) (offset : U64)
    (offset_deltas : List U64) (flags flags_start flags_end : Byte) (out : Bytes) : ER Bytes := do
  enter (.many (some .avx512))
  hash_many_avx512_loop16 blocks key_words offset_deltas flags flags_start flags_end num_inputs inputs offset out

/-- The last loop of `hash_many_neon`, baokeshed_neon.c:324-331 -/
def hash_many_neon_loop1 (o : ByteOrder) (blocks : Nat) (key_words : Vector Word 8) (offset_deltas : List U64) (flags flags_start flags_end : Byte) :
    (num_inputs : Nat) → (inputs : List Bytes) → (offset : U64) → (out : Bytes) → ER Bytes
  | 0, _, _, out => pure out
  | num_inputs + 1, inputs, offset, out => do
    let input ← cIndex inputs 0
    enter (.hash1 (some .neon) blocks)
    let out ← Neon.hash_one_neon o input blocks key_words offset flags flags_start flags_end out
    let inputs ← cAdvance inputs 1
    let delta ← cIndex offset_deltas 1
    let offset := offset + delta
    let rest ← cAdvance out C.OUT_LEN
    let rest ← hash_many_neon_loop1 o blocks key_words offset_deltas flags flags_start flags_end num_inputs inputs offset rest
    return out.take C.OUT_LEN ++ rest

/-- The loop of `hash_many_neon` for batches of 4, baokeshed_neon.c:316-323, and what follows it -/
def hash_many_neon_loop4 (o : ByteOrder) (blocks : Nat) (key_words : Vector Word 8) (offset_deltas : List U64) (flags flags_start flags_end : Byte)
    (num_inputs : Nat) (inputs : List Bytes) (offset : U64) (out : Bytes) : ER Bytes :=
  if _h : 4 ≤ num_inputs then do
    enter (.hash .neon 4 blocks)
    let out ← Neon.hash4_neon o inputs blocks key_words offset offset_deltas flags flags_start flags_end out
    let inputs ← cAdvance inputs 4
    let delta ← cIndex offset_deltas 4
    let offset := offset + delta
    let rest ← cAdvance out (4 * C.OUT_LEN)
    let rest ← hash_many_neon_loop4 o blocks key_words offset_deltas flags flags_start flags_end (num_inputs - 4) inputs offset rest
    return out.take (4 * C.OUT_LEN) ++ rest
  else hash_many_neon_loop1 o blocks key_words offset_deltas flags flags_start flags_end num_inputs inputs offset out
termination_by num_inputs
decreasing_by omega

/-- baokeshed_neon.c:312-332 -/
def hash_many_neon (o : ByteOrder) (inputs : List Bytes) (num_inputs blocks : Nat) (key_words : Vector Word 8) (offset : U64)
    (offset_deltas : List U64) (flags flags_start flags_end : Byte) (out : Bytes) : ER Bytes := do
  enter (.many (some .neon))
  hash_many_neon_loop4 o blocks key_words offset_deltas flags flags_start flags_end num_inputs inputs offset out

/-- baokeshed.c:169-190 -/
def hash_many (cfg : C.Config) (inputs : List Bytes) (num_inputs blocks : Nat) (key_words : Vector Word 8)
    (offset : U64) (offset_deltas : List U64) (flags flags_start flags_end : Byte) (out : Bytes) : ER Bytes :=
  if cfg.avx512 then
    hash_many_avx512 inputs num_inputs blocks key_words offset offset_deltas flags flags_start flags_end out
  else if cfg.avx2 then
    hash_many_avx2 inputs num_inputs blocks key_words offset offset_deltas flags flags_start flags_end out
  else if cfg.sse41 then
    hash_many_sse41 inputs num_inputs blocks key_words offset offset_deltas flags flags_start flags_end out
  else if cfg.neon then
    hash_many_neon cfg.order inputs num_inputs blocks key_words offset offset_deltas flags flags_start flags_end out
  else
    hash_many_portable inputs num_inputs blocks key_words offset offset_deltas flags flags_start flags_end out

/-! ## Chunk state -/

/-- baokeshed.c:43-53 -/
def chunk_state_fill_buf (cfg : C.Config) (self : chunk_state) (input : Bytes) (input_len : Nat) :
    ER (chunk_state × Nat) := do
  let take := subSz cfg.bits C.BLOCK_LEN self.buf_len.toNat
  let take := if take > input_len then input_len else take
  enter (.copy take)
  let buf ← memcpy self.buf self.buf_len.toNat input take
  return ({ self with buf, buf_len := self.buf_len + BitVec.ofNat 8 take }, take)

/-- The first part of `chunk_state_update`, baokeshed.c:77-88 -/
def chunk_state_update_first (cfg : C.Config) (self : chunk_state) (input : Bytes) (input_len : Nat) :
    ER (chunk_state × Bytes × Nat) :=
  if self.buf_len > 0 then do
    let (self, take) ← chunk_state_fill_buf cfg self input input_len
    let input ← cAdvance input take
    let input_len := input_len - take
    if input_len > 0 then
      let state ← compress cfg self.state self.buf (BitVec.ofNat 8 C.BLOCK_LEN) self.offset
        (self.flags ||| chunk_state_maybe_start_flag self)
      return ({ self with state, count := self.count + BitVec.ofNat 16 C.BLOCK_LEN, buf_len := 0,
                          buf := List.replicate C.BLOCK_LEN 0 }, input, input_len)
    else return (self, input, input_len)
  else pure (self, input, input_len)

/-- The loop of `chunk_state_update`, baokeshed.c:90-96 -/
def chunk_state_update_blocks (cfg : C.Config) (self : chunk_state) (input : Bytes) (input_len : Nat) :
    ER (chunk_state × Bytes × Nat) :=
  if input_len > C.BLOCK_LEN then do
    let state ← compress cfg self.state input (BitVec.ofNat 8 C.BLOCK_LEN) self.offset
      (self.flags ||| chunk_state_maybe_start_flag self)
    let input ← cAdvance input C.BLOCK_LEN
    chunk_state_update_blocks cfg { self with state, count := self.count + BitVec.ofNat 16 C.BLOCK_LEN } input
      (input_len - C.BLOCK_LEN)
  else pure (self, input, input_len)
termination_by input_len
decreasing_by simp [C.BLOCK_LEN] at *; omega

/-- baokeshed.c:75-101 -/
def chunk_state_update (cfg : C.Config) (self : chunk_state) (input : Bytes) (input_len : Nat) : ER chunk_state := do
  let (self, input, input_len) ← chunk_state_update_first cfg self input input_len
  let (self, input, input_len) ← chunk_state_update_blocks cfg self input input_len
  let (self, take) ← chunk_state_fill_buf cfg self input input_len
  let _input ← cAdvance input take
  return self

/-- baokeshed.c:104-115 -/
def chunk_state_finalize (cfg : C.Config) (self : chunk_state) (is_root : Bool) (out : Bytes) : ER Bytes := do
  let block_flags := self.flags ||| chunk_state_maybe_start_flag self ||| C.CHUNK_END
  let block_flags := if is_root then block_flags ||| C.ROOT else block_flags
  let state_copy ← compress cfg self.state self.buf self.buf_len self.offset block_flags
  write_state_bytes state_copy out

/-- baokeshed.c:117-128 -/
def hash_one_parent (cfg : C.Config) (block : Bytes) (key : Vector Word 8) (is_root : Bool) (flags : Byte)
    (out : Bytes) : ER Bytes := do
  let block_flags := flags ||| C.PARENT
  let block_flags := if is_root then block_flags ||| C.ROOT else block_flags
  let state ← compress cfg key block (BitVec.ofNat 8 C.BLOCK_LEN) 0 block_flags
  write_state_bytes state out

/-! ## Hasher -/

/-- baokeshed.c:148-156 -/
def hasher_merge_parent (cfg : C.Config) (self : hasher) : ER hasher := do
  let parent_block_start := mulSz cfg.bits (subSz cfg.bits self.subtree_hashes_len.toNat 2) C.OUT_LEN
  let out := cfg.uninit C.OUT_LEN
  let block ← cAdvance self.subtree_hashes parent_block_start
  let out ← hash_one_parent cfg block self.chunk.key false self.chunk.flags out
  let subtree_hashes ← memcpy self.subtree_hashes parent_block_start out C.OUT_LEN
  return { self with subtree_hashes, subtree_hashes_len := self.subtree_hashes_len - 1 }

/-- `while (hasher_needs_merge(self, offset)) { hasher_merge_parent(self); }`, baokeshed.c:161-163 and
249-251.  (The result of the iteration, which the recursion needs, is taken from Model/C/Hasher.lean;
`merge_parent_res` says that it is that of `hasher_merge_parent`.) -/
def merge_loop (cfg : C.Config) (self : hasher) (offset : U64) : ER hasher :=
  if _h : hasher_needs_merge cfg self offset then
    match _e : C.hasher_merge_parent cfg self with
    | .error e => ⟨.error e, (hasher_merge_parent cfg self).log⟩
    | .ok self' =>
      let rest := merge_loop cfg self' offset
      ⟨rest.res, (hasher_merge_parent cfg self).log ++ rest.log⟩
  else pure self
termination_by self.subtree_hashes_len.toNat
decreasing_by
  rw [hasher_merge_parent_len _e, BitVec.toNat_sub]
  simp only [hasher_needs_merge, gt_iff_lt, decide_eq_true_eq, BitVec.lt_def] at _h
  have := self.subtree_hashes_len.isLt
  have h1 : (1 : Byte).toNat = 1 := rfl
  omega

/-- baokeshed.c:158-167 -/
def hasher_push_chunk_hash (cfg : C.Config) (self : hasher) (hash : Bytes) (offset : U64) : ER hasher := do
  assertR (cfg.asserts = true → self.subtree_hashes_len.toNat < C.MAX_DEPTH)
  let self ← merge_loop cfg self offset
  let subtree_hashes ← memcpy self.subtree_hashes (self.subtree_hashes_len.toNat * C.OUT_LEN) hash C.OUT_LEN
  return { self with subtree_hashes, subtree_hashes_len := self.subtree_hashes_len + 1 }

/-- The `for` loop of `hasher_update`, baokeshed.c:233-239; `left` more iterations. -/
def push_chunks (cfg : C.Config) (self : hasher) (out : Bytes) (chunk_index : Nat) : (left : Nat) → ER hasher
  | 0 => pure self
  | left + 1 => do
    let hash ← cAdvance out (chunk_index * C.OUT_LEN)
    let self ← hasher_push_chunk_hash cfg self hash self.chunk.offset
    push_chunks cfg { self with chunk := { self.chunk with offset := self.chunk.offset + BitVec.ofNat 64 C.CHUNK_LEN } }
      out (chunk_index + 1) left

/-- The outer loop of `hasher_update`, baokeshed.c:223-241 -/
def update_loop (cfg : C.Config) (self : hasher) (out : Bytes) (chunks : List Bytes) (input_bytes : Bytes)
    (input_len : Nat) : ER (hasher × Bytes × Nat) :=
  if _h : input_len ≥ C.CHUNK_LEN then
    match _e : collect_chunks chunks input_bytes input_len 0 with
    | .error e => ⟨.error e, []⟩
    | .ok (chunks, input_bytes, input_len, num_chunks) => do
      let out ← hash_many cfg chunks num_chunks (C.CHUNK_LEN / C.BLOCK_LEN) self.chunk.key self.chunk.offset
        CHUNK_OFFSET_DELTAS self.chunk.flags C.CHUNK_START C.CHUNK_END out
      let self ← push_chunks cfg self out 0 num_chunks
      update_loop cfg self out chunks input_bytes input_len
  else pure (self, input_bytes, input_len)
termination_by input_len
decreasing_by exact collect_lt _h _e

/-- The second part of `hasher_update`, baokeshed.c:218-255 -/
def hasher_update_rest (cfg : C.Config) (self : hasher) (input_bytes : Bytes) (input_len : Nat) : ER hasher := do
  let out := cfg.uninit (C.OUT_LEN * C.MAX_SIMD_DEGREE)
  let chunks : List Bytes := List.replicate C.MAX_SIMD_DEGREE []
  let (self, input_bytes, input_len) ← update_loop cfg self out chunks input_bytes input_len
  if input_len > 0 then
    let self ← merge_loop cfg self self.chunk.offset
    let chunk ← chunk_state_update cfg self.chunk input_bytes input_len
    return { self with chunk }
  else return self

/-- baokeshed.c:192-256 -/
def hasher_update (cfg : C.Config) (self : hasher) (input : Bytes) (input_len : Nat) : ER hasher := do
  let input_bytes := input
  let is_first_chunk := self.chunk.offset = 0
  let maybe_root := is_first_chunk ∧ input_len = C.CHUNK_LEN
  if maybe_root ∨ chunk_state_len cfg self.chunk > 0 then
    let take := subSz cfg.bits C.CHUNK_LEN (chunk_state_len cfg self.chunk)
    let take := if take > input_len then input_len else take
    let chunk ← chunk_state_update cfg self.chunk input_bytes take
    let self := { self with chunk }
    let input_bytes ← cAdvance input_bytes take
    let input_len := input_len - take
    if input_len > 0 then
      let out := cfg.uninit C.OUT_LEN
      let out ← chunk_state_finalize cfg self.chunk false out
      let self ← hasher_push_chunk_hash cfg self out self.chunk.offset
      let self := { self with chunk := chunk_state_reset self.chunk (self.chunk.offset + BitVec.ofNat 64 C.CHUNK_LEN) }
      hasher_update_rest cfg self input_bytes input_len
    else return self
  else hasher_update_rest cfg self input_bytes input_len

/-- The loop of `hasher_finalize`, baokeshed.c:279-292 -/
def finalize_loop (cfg : C.Config) (self : hasher) (out : Bytes) : (fuel : Nat) → (working_hash : Bytes) →
    (next_subtree_start : Nat) → ER Bytes
  | 0, _, _ => ⟨.error .ub, []⟩
  | fuel + 1, working_hash, next_subtree_start => do
    let is_root := decide (next_subtree_start = 0)
    let block := cfg.uninit C.BLOCK_LEN
    let src ← cAdvance self.subtree_hashes next_subtree_start
    let block ← memcpy block 0 src C.OUT_LEN
    let block ← memcpy block C.OUT_LEN working_hash C.OUT_LEN
    let working_hash ← hash_one_parent cfg block self.chunk.key is_root self.chunk.flags working_hash
    if is_root then memcpy out 0 working_hash C.OUT_LEN
    else finalize_loop cfg self out fuel working_hash (subSz cfg.bits next_subtree_start C.OUT_LEN)

/-- baokeshed.c:258-293 -/
def hasher_finalize (cfg : C.Config) (self : hasher) (out : Bytes) : ER Bytes := do
  if self.subtree_hashes_len = 0 then chunk_state_finalize cfg self.chunk true out
  else
    let working_hash := cfg.uninit C.OUT_LEN
    if chunk_state_len cfg self.chunk > 0 then
      let working_hash ← chunk_state_finalize cfg self.chunk false working_hash
      let next_subtree_start := intSz cfg.bits (((self.subtree_hashes_len.toNat : Int) - 1) * C.OUT_LEN)
      finalize_loop cfg self out 256 working_hash next_subtree_start
    else
      let last_hash_start := intSz cfg.bits (((self.subtree_hashes_len.toNat : Int) - 1) * C.OUT_LEN)
      let src ← cAdvance self.subtree_hashes last_hash_start
      let working_hash ← memcpy working_hash 0 src C.OUT_LEN
      let next_subtree_start := intSz cfg.bits (((self.subtree_hashes_len.toNat : Int) - 2) * C.OUT_LEN)
      finalize_loop cfg self out 256 working_hash next_subtree_start

end Baokeshed.Model.CI
