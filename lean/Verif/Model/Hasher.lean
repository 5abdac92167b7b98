import Verif.Model.Lib

/-!
# Model of the incremental implementation in /repo/src/lib.rs

The stack `subtree_hashes: ArrayVec<[[u8; 32]; 53]>` is a list whose head is the *last* element of
the array (the top of the stack); its capacity is checked at every push.  `count: u16` and
`buf_len: u8` are natural numbers with overflow checks at 16 and 8 bits.
-/

namespace Baokeshed.Model

/-- lib.rs:602-612 -/
structure ChunkState where
  cv : Vector Word 8
  key : Vector Word 8
  offset : U64
  count : Nat
  buf : Vector Byte 64
  buf_len : Nat
  flags : Byte
  platform : Platform

namespace ChunkState

/-- lib.rs:615-626 -/
def new (cfg : Config) (key : Vector Word 8) (flags : Byte) : ChunkState where
  cv := key
  key := key
  offset := 0
  count := 0
  buf := Vector.replicate 64 0
  buf_len := 0
  flags := flags
  platform := Platform.detect cfg

/-- lib.rs:628-635 -/
def reset (s : ChunkState) (new_offset : U64) : R ChunkState := do
  assertR (new_offset % BitVec.ofNat 64 CHUNK_LEN = 0)
  return { s with cv := s.key, offset := new_offset, count := 0, buf := Vector.replicate 64 0, buf_len := 0 }

/-- lib.rs:638-640 -/
def len (s : ChunkState) : Nat := s.count + s.buf_len

/-- lib.rs:642-649.  Returns the new state and the rest of the input. -/
def fill_buf (s : ChunkState) (input : Bytes) : R (ChunkState × Bytes) := do
  let want ← subN BLOCK_LEN s.buf_len
  let take := min want input.length
  let buf ← writeAt s.buf.toList s.buf_len (input.take take)
  let buf ← arrayRef buf 0 BLOCK_LEN
  let buf_len ← addN 8 s.buf_len take
  return ({ s with buf, buf_len }, input.drop take)

/-- lib.rs:651-657 -/
def maybe_chunk_start_flag (s : ChunkState) : Byte :=
  if s.count = 0 then Flags.CHUNK_START else 0

/-- The loop in `update`, lib.rs:678-690. -/
def update_blocks (s : ChunkState) (input : Bytes) : R (ChunkState × Bytes) :=
  if _h : BLOCK_LEN < input.length then do
    assertR (s.buf_len = 0)
    let block_flags := s.flags ||| s.maybe_chunk_start_flag
    let block ← arrayRef input 0 BLOCK_LEN
    let cv := s.platform.compress s.cv block (BitVec.ofNat 8 BLOCK_LEN) s.offset block_flags
    let count ← addN 16 s.count BLOCK_LEN
    update_blocks { s with cv, count } (input.drop BLOCK_LEN)
  else .ok (s, input)
termination_by input.length
decreasing_by simp [BLOCK_LEN] at *; omega

/-- The first part of `update`, lib.rs:660-676: complete a block begun earlier. -/
def update_first (s : ChunkState) (input : Bytes) : R (ChunkState × Bytes) :=
  if 0 < s.buf_len then do
    let (s, input) ← s.fill_buf input
    if input ≠ [] then
      assertR (s.buf_len = BLOCK_LEN)
      let block_flags := s.flags ||| s.maybe_chunk_start_flag
      let cv := s.platform.compress s.cv s.buf (BitVec.ofNat 8 BLOCK_LEN) s.offset block_flags
      let count ← addN 16 s.count BLOCK_LEN
      return ({ s with cv, count, buf_len := 0, buf := Vector.replicate 64 0 }, input)
    else return (s, input)
  else .ok (s, input)

/-- lib.rs:659-695 -/
def update (s : ChunkState) (input : Bytes) : R ChunkState := do
  let (s, input) ← s.update_first input
  let (s, input) ← s.update_blocks input
  let (s, input) ← s.fill_buf input
  assertR (input = [])
  assertR (s.len ≤ CHUNK_LEN)
  return s

/-- lib.rs:701-717 -/
def finalize (s : ChunkState) (is_root : IsRoot) : R Output := do
  assertR (is_root = .root → s.offset = 0)
  let block_flags := s.flags ||| s.maybe_chunk_start_flag ||| Flags.CHUNK_END ||| is_root.flag
  return { cv := s.cv, block := s.buf, block_len := BitVec.ofNat 8 s.buf_len, offset := s.offset,
           flags := block_flags, platform := s.platform }

end ChunkState

/-- lib.rs:726-746 -/
def hash_one_parent (left_child right_child : Vector Byte 32) (key : Vector Word 8) (is_root : IsRoot)
    (flags : Byte) (p : Platform) : Output where
  cv := key
  block := left_child ++ right_child
  block_len := BitVec.ofNat 8 BLOCK_LEN
  offset := 0
  flags := flags ||| Flags.PARENT ||| is_root.flag
  platform := p

/-- lib.rs:755-759 -/
structure Hasher where
  /-- top of the stack first -/
  subtree_hashes : List (Vector Byte 32)
  chunk : ChunkState

namespace Hasher

/-- lib.rs:762-767 -/
def new_internal (cfg : Config) (key_words : Vector Word 8) (flags : Byte) : Hasher where
  subtree_hashes := []
  chunk := ChunkState.new cfg key_words flags

/-- lib.rs:770-772 -/
def new (cfg : Config) : Hasher := new_internal cfg IV 0

/-- lib.rs:775-778 -/
def new_keyed (cfg : Config) (key : Vector Byte 32) : Hasher :=
  new_internal cfg (words_from_key_bytes key) Flags.KEYED_HASH

/-- lib.rs:785-788 -/
def new_derive_key (cfg : Config) (key : Vector Byte 32) : Hasher :=
  new_internal cfg (words_from_key_bytes key) Flags.DERIVE_KEY

/-- lib.rs:798-801 -/
def needs_merge (h : Hasher) (total_bytes : U64) : Bool :=
  decide (popcount (total_bytes.toNat / CHUNK_LEN) < h.subtree_hashes.length)

/-- lib.rs:805-819 -/
def merge_parent (h : Hasher) : R Hasher :=
  match h.subtree_hashes with
  | right :: left :: rest =>
    let parent_hash := (hash_one_parent left right h.chunk.key .notRoot h.chunk.flags h.chunk.platform).to_hash
    .ok { h with subtree_hashes := parent_hash :: rest }
  | _ => .error .assert

theorem merge_parent_length {h h' : Hasher} (e : h.merge_parent = .ok h') :
    h'.subtree_hashes.length < h.subtree_hashes.length := by
  unfold merge_parent at e
  split at e
  next r l rest heq => cases e; rw [heq]; simp
  next => cases e

/-- `while self.needs_merge(offset) { self.merge_parent(); }`, lib.rs:824-826 and 914-916 -/
def merge_loop (h : Hasher) (offset : U64) : R Hasher :=
  if h.needs_merge offset then
    match _e : h.merge_parent with
    | .error e => .error e
    | .ok h' => merge_loop h' offset
  else .ok h
termination_by h.subtree_hashes.length
decreasing_by exact merge_parent_length _e

/-- lib.rs:821-828 -/
def push_chunk_hash (h : Hasher) (hash : Vector Byte 32) (offset : U64) : R Hasher := do
  let h ← h.merge_loop offset
  if h.subtree_hashes.length < MAX_DEPTH then
    .ok { h with subtree_hashes := hash :: h.subtree_hashes }
  else .error .capacity

/-- The inner loop of `update`, lib.rs:892-899. -/
def push_hashes : List Bytes → Hasher → R Hasher
  | [], h => .ok h
  | c :: cs, h => do
    let hash ← arrayRef c 0 OUT_LEN
    let h ← h.push_chunk_hash hash h.chunk.offset
    let offset ← addU64 h.chunk.offset (BitVec.ofNat 64 CHUNK_LEN)
    push_hashes cs { h with chunk := { h.chunk with offset } }

/-- The loop over whole chunks in `update`, lib.rs:875-901; `chunks` is what is left in
`fused_chunks`. -/
def update_loop (cfg : Config) (chunks : List Bytes) (out_array : Bytes) (h : Hasher) : R Hasher :=
  if _h : chunks.take (MAX_SIMD_DEGREE cfg) = [] then .ok h
  else do
    let chunks_array := chunks.take (MAX_SIMD_DEGREE cfg)
    let out_array ← h.chunk.platform.hash_many CHUNK_LEN chunks_array h.chunk.key h.chunk.offset
      (BitVec.ofNat 64 CHUNK_LEN) h.chunk.flags Flags.CHUNK_START Flags.CHUNK_END out_array
    let h ← push_hashes ((chunksExact OUT_LEN out_array).take chunks_array.length) h
    update_loop cfg (chunks.drop (MAX_SIMD_DEGREE cfg)) out_array h
termination_by chunks.length
decreasing_by
  have h1 : 0 < chunks.length := by
    cases chunks with
    | nil => exact absurd List.take_nil ‹_›
    | cons c cs => simp
  have h2 : 0 < MAX_SIMD_DEGREE cfg := by unfold MAX_SIMD_DEGREE; split <;> decide
  simp only [List.length_drop]; omega

/-- The second part of `update`, lib.rs:863-919: the chunk state is clear. -/
def update_rest (cfg : Config) (h : Hasher) (input : Bytes) : R Hasher := do
  assertR (h.chunk.len = 0)
  let out_array : Bytes := List.replicate (MAX_SIMD_DEGREE cfg * OUT_LEN) 0
  let h ← update_loop cfg (chunksExact CHUNK_LEN input) out_array h
  assertR (h.chunk.len = 0)
  let remainder := chunksRemainder CHUNK_LEN input
  assertR (remainder.length < CHUNK_LEN)
  if remainder ≠ [] then
    let h ← h.merge_loop h.chunk.offset
    let chunk ← h.chunk.update remainder
    return { h with chunk }
  else return h

/-- lib.rs:836-920 -/
def update (cfg : Config) (h : Hasher) (input : Bytes) : R Hasher := do
  let is_first_chunk := h.chunk.offset = 0
  let maybe_root := is_first_chunk ∧ input.length = CHUNK_LEN
  if maybe_root ∨ 0 < h.chunk.len then
    let want ← subN CHUNK_LEN h.chunk.len
    let take := min want input.length
    let chunk ← h.chunk.update (input.take take)
    let h := { h with chunk }
    let input := input.drop take
    if input ≠ [] then
      assertR (h.chunk.len = CHUNK_LEN)
      let output ← h.chunk.finalize .notRoot
      let h ← h.push_chunk_hash output.to_hash h.chunk.offset
      let offset ← addU64 h.chunk.offset (BitVec.ofNat 64 CHUNK_LEN)
      let chunk ← h.chunk.reset offset
      update_rest cfg { h with chunk } input
    else return h
  else update_rest cfg h input

/-- The loop of `finalize_xof`, lib.rs:964-984.  `subtrees` are the entries at index
`next_subtree_index` and below. -/
def finalize_loop (h : Hasher) (working_hash : Vector Byte 32) : List (Vector Byte 32) → R Output
  | [] => .error .bounds
  | [s] => .ok (hash_one_parent s working_hash h.chunk.key .root h.chunk.flags h.chunk.platform)
  | s :: rest =>
    finalize_loop h (hash_one_parent s working_hash h.chunk.key .notRoot h.chunk.flags h.chunk.platform).to_hash rest

/-- lib.rs:934-985 -/
def finalize_xof (h : Hasher) : R Output := do
  if h.subtree_hashes = [] then h.chunk.finalize .root
  else if 0 < h.chunk.len then
    assertR (h.needs_merge h.chunk.offset = false)
    let output ← h.chunk.finalize .notRoot
    h.finalize_loop output.to_hash h.subtree_hashes
  else
    assertR (2 ≤ h.subtree_hashes.length)
    match h.subtree_hashes with
    | last :: rest => h.finalize_loop last rest
    | [] => .error .bounds

/-- lib.rs:926-928 -/
def finalize (h : Hasher) : R (Vector Byte 32) := do
  let o ← h.finalize_xof
  return o.to_hash

/-- `io::Write::write`, lib.rs:995-998: always `Ok(input.len())`. -/
def write (cfg : Config) (h : Hasher) (input : Bytes) : R (Nat × Hasher) := do
  let h ← h.update cfg input
  return (input.length, h)

/-- `io::Write::flush`, lib.rs:1000-1002 -/
def flush (h : Hasher) : R Hasher := .ok h

end Hasher
end Baokeshed.Model
