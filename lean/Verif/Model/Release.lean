import Verif.Model.World
import Verif.Model.Portable64
import Verif.Model.Reference
import Verif.Model.Copy

/-!
# The Rust code without overflow checks and without `debug_assert!`

Cargo's release profile turns both off.  The models of Model/Lib.lean, Model/Hasher.lean etc. have them on; this file has
every function in which that makes a difference once more, and the functions that call them: sums, differences and products
wrap around, the assertions are gone.  (All assertions of /repo/src outside of tests are `debug_assert!`.)  What remains can
still fail: slice indices and ranges, `copy_from_slice`, the capacity of an `ArrayVec`, and accesses through raw pointers.

`usize` has `w` bits.  Functions without arithmetic of this kind are used as they are.
-/

namespace Baokeshed.Model.Rel

/-- `a + b` on an unsigned type of `w` bits, wrapping around -/
def addW (w a b : Nat) : Nat := (a + b) % 2 ^ w

/-- `a * b` on an unsigned type of `w` bits, wrapping around -/
def mulW (w a b : Nat) : Nat := a * b % 2 ^ w

/-- `a - b` on an unsigned type of `w` bits, wrapping around -/
def subW (w a b : Nat) : Nat := if b ≤ a then a - b else (a + 2 ^ w - b) % 2 ^ w

/-- `usize::next_power_of_two`: 0 if the power does not fit -/
def nextPowerOfTwo (w n : Nat) : Nat :=
  let p := if n ≤ 1 then 1 else 2 ^ (Nat.log2 (n - 1) + 1)
  if p < 2 ^ w then p else 0

/-! ## portable.rs -/

namespace Portable

/-- portable.rs:127-155 -/
def hash1 (input : Bytes) (key : Vector Word 8) (offset : U64) (flags flags_start flags_end : Byte) : R (Vector Byte 32) := do
  let cv ← Model.Portable.hash1_loop flags flags_end offset key (flags ||| flags_start) input
  return bytes_from_state_words cv

/-- portable.rs:168-179 -/
def hash_many_loop (key : Vector Word 8) (offset_delta : U64) (flags flags_start flags_end : Byte) :
    (inputs : List Bytes) → (offset : U64) → (out : Bytes) → R Bytes
  | [], _, out => .ok out
  | input :: inputs, offset, out =>
    if out.length < OUT_LEN then .ok out
    else do
      let h ← hash1 input key offset flags flags_start flags_end
      let rest ← hash_many_loop key offset_delta flags flags_start flags_end inputs (offset + offset_delta) (out.drop OUT_LEN)
      return h.toList ++ rest

/-- portable.rs:157-180 -/
def hash_many (inputs : List Bytes) (key : Vector Word 8) (offset offset_delta : U64)
    (flags flags_start flags_end : Byte) (out : Bytes) : R Bytes :=
  hash_many_loop key offset_delta flags flags_start flags_end inputs offset out

end Portable

/-! ## sse41.rs -/

namespace Sse41
open Model.Sse41 (DEGREE hash4_loop transpose_vecs set1 set4)

/-- sse41.rs:506-521 -/
def load_offsets (offset offset_delta : U64) : M128 × M128 :=
  let o0 := offset + 0 * offset_delta
  let o1 := offset + 1 * offset_delta
  let o2 := offset + 2 * offset_delta
  let o3 := offset + 3 * offset_delta
  (set4 (offset_low o0) (offset_low o1) (offset_low o2) (offset_low o3),
    set4 (offset_high o0) (offset_high o1) (offset_high o2) (offset_high o3))

/-- sse41.rs:524-610 -/
def hash4 (inputs : Vector Bytes DEGREE) (blocks : Nat) (key : Vector Word 8)
    (offset offset_delta : U64) (flags flags_start flags_end : Byte) (out : Bytes) : R Bytes := do
  let h_vecs : Vector M128 8 :=
    #v[set1 key[0], set1 key[1], set1 key[2], set1 key[3],
       set1 key[4], set1 key[5], set1 key[6], set1 key[7]]
  let (offset_low_vec, offset_high_vec) := load_offsets offset offset_delta
  let h_vecs ← hash4_loop inputs blocks offset_low_vec offset_high_vec flags flags_end blocks 0 h_vecs
    (flags ||| flags_start)
  let sq0 := transpose_vecs #v[h_vecs[0], h_vecs[1], h_vecs[2], h_vecs[3]]
  let sq1 := transpose_vecs #v[h_vecs[4], h_vecs[5], h_vecs[6], h_vecs[7]]
  let out ← writeAt out (0 * 4 * DEGREE) (regBytes 16 sq0[0])
  let out ← writeAt out (1 * 4 * DEGREE) (regBytes 16 sq1[0])
  let out ← writeAt out (2 * 4 * DEGREE) (regBytes 16 sq0[1])
  let out ← writeAt out (3 * 4 * DEGREE) (regBytes 16 sq1[1])
  let out ← writeAt out (4 * 4 * DEGREE) (regBytes 16 sq0[2])
  let out ← writeAt out (5 * 4 * DEGREE) (regBytes 16 sq1[2])
  let out ← writeAt out (6 * 4 * DEGREE) (regBytes 16 sq0[3])
  let out ← writeAt out (7 * 4 * DEGREE) (regBytes 16 sq1[3])
  return out

/-- sse41.rs:613-641 -/
def hash1 (input : Bytes) (key : Vector Word 8) (offset : U64) (flags flags_start flags_end : Byte) : R (Vector Byte 32) := do
  let cv ← Model.Sse41.hash1_loop flags flags_end offset key (flags ||| flags_start) input
  return memOfWords cv

/-- The `for` loop of `hash_many`, sse41.rs:675-686. -/
def hash_many_tail (key : Vector Word 8) (offset_delta : U64) (flags flags_start flags_end : Byte) :
    (inputs : List Bytes) → (offset : U64) → (out : Bytes) → R Bytes
  | [], _, out => .ok out
  | input :: inputs, offset, out =>
    if out.length < OUT_LEN then .ok out
    else do
      let h ← hash1 input key offset flags flags_start flags_end
      let rest ← hash_many_tail key offset_delta flags flags_start flags_end inputs (offset + offset_delta) (out.drop OUT_LEN)
      return h.toList ++ rest

/-- The `while` loop of `hash_many`, sse41.rs:655-674. -/
def hash_many_loop (capacity : Nat) (key : Vector Word 8) (offset_delta : U64)
    (flags flags_start flags_end : Byte) (inputs : List Bytes) (offset : U64) (out : Bytes) : R Bytes :=
  if _h : DEGREE ≤ inputs.length ∧ DEGREE * OUT_LEN ≤ out.length then do
    let input_ptrs ← arrayRef inputs 0 DEGREE
    let blocks := capacity / BLOCK_LEN
    let o ← hash4 input_ptrs blocks key offset offset_delta flags flags_start flags_end
      (out.take (DEGREE * OUT_LEN))
    let rest ← hash_many_loop capacity key offset_delta flags flags_start flags_end
      (inputs.drop DEGREE) (offset + BitVec.ofNat 64 DEGREE * offset_delta) (out.drop (DEGREE * OUT_LEN))
    return o ++ rest
  else hash_many_tail key offset_delta flags flags_start flags_end inputs offset out
termination_by inputs.length
decreasing_by simp [DEGREE] at *; omega

/-- sse41.rs:644-687 -/
def hash_many (capacity : Nat) (inputs : List Bytes) (key : Vector Word 8) (offset offset_delta : U64)
    (flags flags_start flags_end : Byte) (out : Bytes) : R Bytes :=
  hash_many_loop capacity key offset_delta flags flags_start flags_end inputs offset out

end Sse41

/-! ## avx2.rs -/

namespace Avx2
open Model.Avx2 (DEGREE hash8_loop transpose_vecs set1 set8)

/-- avx2.rs:273-296 -/
def load_offsets (offset offset_delta : U64) : M256 × M256 :=
  let o0 := offset + 0 * offset_delta
  let o1 := offset + 1 * offset_delta
  let o2 := offset + 2 * offset_delta
  let o3 := offset + 3 * offset_delta
  let o4 := offset + 4 * offset_delta
  let o5 := offset + 5 * offset_delta
  let o6 := offset + 6 * offset_delta
  let o7 := offset + 7 * offset_delta
  (set8 (offset_low o0) (offset_low o1) (offset_low o2) (offset_low o3)
      (offset_low o4) (offset_low o5) (offset_low o6) (offset_low o7),
    set8 (offset_high o0) (offset_high o1) (offset_high o2) (offset_high o3)
      (offset_high o4) (offset_high o5) (offset_high o6) (offset_high o7))

/-- avx2.rs:299-381 -/
def hash8 (inputs : Vector Bytes DEGREE) (blocks : Nat) (key : Vector Word 8)
    (offset offset_delta : U64) (flags flags_start flags_end : Byte) (out : Bytes) : R Bytes := do
  let h_vecs : Vector M256 8 :=
    #v[set1 key[0], set1 key[1], set1 key[2], set1 key[3],
       set1 key[4], set1 key[5], set1 key[6], set1 key[7]]
  let (offset_low_vec, offset_high_vec) := load_offsets offset offset_delta
  let h_vecs ← hash8_loop inputs blocks offset_low_vec offset_high_vec flags flags_end blocks 0 h_vecs
    (flags ||| flags_start)
  let h_vecs := transpose_vecs h_vecs
  let out ← writeAt out (0 * 4 * DEGREE) (regBytes 32 h_vecs[0])
  let out ← writeAt out (1 * 4 * DEGREE) (regBytes 32 h_vecs[1])
  let out ← writeAt out (2 * 4 * DEGREE) (regBytes 32 h_vecs[2])
  let out ← writeAt out (3 * 4 * DEGREE) (regBytes 32 h_vecs[3])
  let out ← writeAt out (4 * 4 * DEGREE) (regBytes 32 h_vecs[4])
  let out ← writeAt out (5 * 4 * DEGREE) (regBytes 32 h_vecs[5])
  let out ← writeAt out (6 * 4 * DEGREE) (regBytes 32 h_vecs[6])
  let out ← writeAt out (7 * 4 * DEGREE) (regBytes 32 h_vecs[7])
  return out

/-- avx2.rs:395-424 -/
def hash_many_loop (capacity : Nat) (key : Vector Word 8) (offset_delta : U64)
    (flags flags_start flags_end : Byte) (inputs : List Bytes) (offset : U64) (out : Bytes) : R Bytes :=
  if _h : DEGREE ≤ inputs.length ∧ DEGREE * OUT_LEN ≤ out.length then do
    let input_ptrs ← arrayRef inputs 0 DEGREE
    let blocks := capacity / BLOCK_LEN
    let o ← hash8 input_ptrs blocks key offset offset_delta flags flags_start flags_end
      (out.take (DEGREE * OUT_LEN))
    let rest ← hash_many_loop capacity key offset_delta flags flags_start flags_end
      (inputs.drop DEGREE) (offset + BitVec.ofNat 64 DEGREE * offset_delta) (out.drop (DEGREE * OUT_LEN))
    return o ++ rest
  else Sse41.hash_many capacity inputs key offset offset_delta flags flags_start flags_end out
termination_by inputs.length
decreasing_by simp [DEGREE] at *; omega

/-- avx2.rs:384-425 -/
def hash_many (capacity : Nat) (inputs : List Bytes) (key : Vector Word 8) (offset offset_delta : U64)
    (flags flags_start flags_end : Byte) (out : Bytes) : R Bytes :=
  hash_many_loop capacity key offset_delta flags flags_start flags_end inputs offset out

end Avx2

/-- platform.rs:89-140 -/
def hash_many (p : Platform) (capacity : Nat) (inputs : List Bytes) (key : Vector Word 8)
    (offset offset_delta : U64) (flags flags_start flags_end : Byte) (out : Bytes) : R Bytes :=
  match p with
  | .portable => Portable.hash_many inputs key offset offset_delta flags flags_start flags_end out
  | .sse41 => Sse41.hash_many capacity inputs key offset offset_delta flags flags_start flags_end out
  | .avx2 => Avx2.hash_many capacity inputs key offset offset_delta flags flags_start flags_end out

/-! ## The recursive implementation, lib.rs -/

/-- lib.rs:290-326 -/
def hash_one_chunk_loop (w : Nat) (p : Platform) (chunk : Bytes) (offset : U64) (is_root : IsRoot) (flags : Byte)
    (cv : Vector Word 8) (block_flags : Byte) (block_offset : Nat) : R Output :=
  if _h : block_offset + BLOCK_LEN ≤ chunk.length then do
    if block_offset + BLOCK_LEN = chunk.length then
      let block ← arrayRef chunk block_offset BLOCK_LEN
      return { cv, block, block_len := BitVec.ofNat 8 BLOCK_LEN, offset,
               flags := block_flags ||| Flags.CHUNK_END ||| is_root.flag, platform := p }
    else
      let block ← arrayRef chunk block_offset BLOCK_LEN
      hash_one_chunk_loop w p chunk offset is_root flags
        (p.compress cv block (BitVec.ofNat 8 BLOCK_LEN) offset block_flags) flags
        (block_offset + BLOCK_LEN)
  else do
    let block_len := subW w chunk.length block_offset
    let last_block ← writeAt (List.replicate BLOCK_LEN 0) 0 (chunk.drop block_offset)
    let block ← arrayRef last_block 0 BLOCK_LEN
    return { cv, block, block_len := BitVec.ofNat 8 block_len, offset,
             flags := block_flags ||| Flags.CHUNK_END ||| is_root.flag, platform := p }
termination_by chunk.length - block_offset
decreasing_by simp [BLOCK_LEN] at *; omega

/-- lib.rs:276-327 -/
def hash_one_chunk (w : Nat) (chunk : Bytes) (key : Vector Word 8) (offset : U64) (is_root : IsRoot)
    (flags : Byte) (p : Platform) : R Output :=
  hash_one_chunk_loop w p chunk offset is_root flags key (flags ||| Flags.CHUNK_START) 0

/-- lib.rs:332-377 -/
def hash_chunks_parallel (cfg : Config) (input : Bytes) (key : Vector Word 8) (offset : U64)
    (flags : Byte) (p : Platform) (out : Bytes) : R (Nat × Bytes) := do
  let chunks_array ← pushAll (MAX_SIMD_DEGREE cfg) (chunksExact CHUNK_LEN input)
  let out ← hash_many p CHUNK_LEN chunks_array key offset (BitVec.ofNat 64 CHUNK_LEN) flags
    Flags.CHUNK_START Flags.CHUNK_END out
  let chunks_so_far := chunks_array.length
  let remainder := chunksRemainder CHUNK_LEN input
  if remainder ≠ [] then
    let off := offset + BitVec.ofNat 64 chunks_so_far * BitVec.ofNat 64 CHUNK_LEN
    let output ← hash_one_chunk cfg.usizeBits remainder key off .notRoot flags p
    let out ← writeAt out (chunks_so_far * OUT_LEN) output.to_hash.toList
    return (chunks_so_far + 1, out)
  else
    return (chunks_so_far, out)

/-- lib.rs:383-419 -/
def hash_parents_parallel (cfg : Config) (child_hashes : Bytes) (key : Vector Word 8) (flags : Byte)
    (p : Platform) (out : Bytes) : R (Nat × Bytes) := do
  let parents_array ← pushAll (MAX_SIMD_DEGREE_OR_2 cfg) (chunksExact BLOCK_LEN child_hashes)
  let out ← hash_many p BLOCK_LEN parents_array key 0 0 (flags ||| Flags.PARENT) 0 0 out
  let parents_so_far := parents_array.length
  let remainder := chunksRemainder BLOCK_LEN child_hashes
  if remainder ≠ [] then
    if remainder.length = OUT_LEN then
      let out ← writeAt out (parents_so_far * OUT_LEN) remainder
      return (parents_so_far + 1, out)
    else .error .bounds
  else
    return (parents_so_far, out)

/-- lib.rs:423-425 -/
def largest_power_of_two_leq (w : Nat) (n : Nat) : Nat := nextPowerOfTwo w (addW w (n / 2) 1)

/-- lib.rs:429-434 -/
def left_len (w : Nat) (content_len : Nat) : Nat :=
  let full_chunks := subW w content_len 1 / CHUNK_LEN
  mulW w (largest_power_of_two_leq w full_chunks) CHUNK_LEN

/-- lib.rs:450-512.  `n` bounds the depth of the recursion; without the overflow checks it is not obvious that it ends. -/
def hash_recurse (cfg : Config) : (n : Nat) → (input : Bytes) → (key : Vector Word 8) → (offset : U64) → (flags : Byte) →
    (p : Platform) → (out : Bytes) → R (Nat × Bytes)
  | 0, _, _, _, _, _, _ => .error .stack
  | n + 1, input, key, offset, flags, p, out =>
    if input.length ≤ p.simd_degree * CHUNK_LEN then
      hash_chunks_parallel cfg input key offset flags p out
    else do
      let (left, right) ← splitAtR input (left_len cfg.usizeBits input.length)
      let right_off := offset + BitVec.ofNat 64 left.length
      let children_array : Bytes := List.replicate (2 * MAX_SIMD_DEGREE_OR_2 cfg * OUT_LEN) 0
      let degree := if left.length = CHUNK_LEN then 1 else max p.simd_degree 2
      let (left_out, right_out) ← splitAtR children_array (degree * OUT_LEN)
      let (left_n, left_out) ← hash_recurse cfg n left key offset flags p left_out
      let (right_n, right_out) ← hash_recurse cfg n right key right_off flags p right_out
      let children_array := left_out ++ right_out
      if left_n = 1 then
        let c ← sliceTo children_array (2 * OUT_LEN)
        let out ← writeAt out 0 c
        return (2, out)
      else
        let num_children := left_n + right_n
        let c ← sliceTo children_array (num_children * OUT_LEN)
        hash_parents_parallel cfg c key flags p out

/-- lib.rs:523-527 -/
def condense_loop (cfg : Config) (key : Vector Word 8) (flags : Byte) (p : Platform) :
    (n : Nat) → (children out_array : Bytes) → R Bytes
  | 0, _, _ => .error .ub
  | n + 1, children, out_array =>
    if BLOCK_LEN < children.length then do
      let (out_n, out_array) ← hash_parents_parallel cfg children key flags p out_array
      let o ← sliceTo out_array (out_n * OUT_LEN)
      let children ← writeAt children 0 o
      let children ← sliceTo children (out_n * OUT_LEN)
      condense_loop cfg key flags p n children out_array
    else .ok children

/-- lib.rs:514-536 -/
def condense_root (cfg : Config) (children : Bytes) (key : Vector Word 8) (flags : Byte)
    (p : Platform) : R Output := do
  let out_array : Bytes := List.replicate (MAX_SIMD_DEGREE cfg * OUT_LEN / 2) 0
  let children ← condense_loop cfg key flags p (children.length + 1) children out_array
  let block ← arrayRef children 0 BLOCK_LEN
  return { cv := key, block, block_len := BitVec.ofNat 8 BLOCK_LEN, offset := 0,
           flags := flags ||| Flags.PARENT ||| Flags.ROOT, platform := p }

/-- lib.rs:538-552 -/
def hash_internal (cfg : Config) (input : Bytes) (key_words : Vector Word 8) (flags : Byte) : R Output := do
  let p := Platform.detect cfg
  if input.length ≤ CHUNK_LEN then
    hash_one_chunk cfg.usizeBits input key_words 0 .root flags p
  else
    let children_array : Bytes := List.replicate (MAX_SIMD_DEGREE_OR_2 cfg * OUT_LEN) 0
    let (num_children, children_array) ← hash_recurse cfg (input.length + 1) input key_words 0 flags p children_array
    let c ← sliceTo children_array (num_children * OUT_LEN)
    condense_root cfg c key_words flags p

/-- `hash_xof`, `keyed_hash_xof`, `derive_key_xof`, lib.rs:560-562, 574-577, 593-596 -/
def oneShotXof (cfg : Config) : Spec.Mode → Bytes → R Output
  | .hash, input => hash_internal cfg input IV 0
  | .keyedHash k, input => hash_internal cfg input (words_from_key_bytes k) Flags.KEYED_HASH
  | .deriveKey k, input => hash_internal cfg input (words_from_key_bytes k) Flags.DERIVE_KEY

/-- `hash`, `keyed_hash`, `derive_key`, lib.rs:555-557, 567-569, 584-586 -/
def oneShot (cfg : Config) (m : Spec.Mode) (input : Bytes) : R (Vector Byte 32) := do
  let o ← oneShotXof cfg m input
  return o.to_hash

/-! ## The incremental implementation, lib.rs -/

namespace ChunkState

/-- lib.rs:628-635 -/
def reset (s : ChunkState) (new_offset : U64) : ChunkState :=
  { s with cv := s.key, offset := new_offset, count := 0, buf := Vector.replicate 64 0, buf_len := 0 }

/-- lib.rs:642-649 -/
def fill_buf (w : Nat) (s : ChunkState) (input : Bytes) : R (ChunkState × Bytes) := do
  let want := subW w BLOCK_LEN s.buf_len
  let take := min want input.length
  let buf ← writeAt s.buf.toList s.buf_len (input.take take)
  let buf ← arrayRef buf 0 BLOCK_LEN
  return ({ s with buf, buf_len := addW 8 s.buf_len take }, input.drop take)

/-- lib.rs:678-690 -/
def update_blocks (s : ChunkState) (input : Bytes) : R (ChunkState × Bytes) :=
  if _h : BLOCK_LEN < input.length then do
    let block_flags := s.flags ||| s.maybe_chunk_start_flag
    let block ← arrayRef input 0 BLOCK_LEN
    let cv := s.platform.compress s.cv block (BitVec.ofNat 8 BLOCK_LEN) s.offset block_flags
    update_blocks { s with cv, count := addW 16 s.count BLOCK_LEN } (input.drop BLOCK_LEN)
  else .ok (s, input)
termination_by input.length
decreasing_by simp [BLOCK_LEN] at *; omega

/-- lib.rs:660-676 -/
def update_first (w : Nat) (s : ChunkState) (input : Bytes) : R (ChunkState × Bytes) :=
  if 0 < s.buf_len then do
    let (s, input) ← fill_buf w s input
    if input ≠ [] then
      let block_flags := s.flags ||| s.maybe_chunk_start_flag
      let cv := s.platform.compress s.cv s.buf (BitVec.ofNat 8 BLOCK_LEN) s.offset block_flags
      return ({ s with cv, count := addW 16 s.count BLOCK_LEN, buf_len := 0, buf := Vector.replicate 64 0 }, input)
    else return (s, input)
  else .ok (s, input)

/-- lib.rs:659-695 -/
def update (w : Nat) (s : ChunkState) (input : Bytes) : R ChunkState := do
  let (s, input) ← update_first w s input
  let (s, input) ← update_blocks s input
  let (s, _) ← fill_buf w s input
  return s

/-- lib.rs:701-717 -/
def finalize (s : ChunkState) (is_root : IsRoot) : Output :=
  let block_flags := s.flags ||| s.maybe_chunk_start_flag ||| Flags.CHUNK_END ||| is_root.flag
  { cv := s.cv, block := s.buf, block_len := BitVec.ofNat 8 s.buf_len, offset := s.offset,
    flags := block_flags, platform := s.platform }

end ChunkState

namespace Hasher

/-- lib.rs:805-819.  With fewer than two subtrees `num_subtrees - 2` wraps around and the index is out of bounds. -/
def merge_parent (h : Hasher) : R Hasher :=
  match h.subtree_hashes with
  | right :: left :: rest =>
    let parent_hash := (hash_one_parent left right h.chunk.key .notRoot h.chunk.flags h.chunk.platform).to_hash
    .ok { h with subtree_hashes := parent_hash :: rest }
  | _ => .error .bounds

theorem merge_parent_length {h h' : Hasher} (e : merge_parent h = .ok h') :
    h'.subtree_hashes.length < h.subtree_hashes.length := by
  unfold merge_parent at e
  split at e
  next r l rest heq => cases e; rw [heq]; simp
  next => cases e

/-- lib.rs:824-826 and 914-916 -/
def merge_loop (h : Hasher) (offset : U64) : R Hasher :=
  if h.needs_merge offset then
    match _e : merge_parent h with
    | .error e => .error e
    | .ok h' => merge_loop h' offset
  else .ok h
termination_by h.subtree_hashes.length
decreasing_by exact merge_parent_length _e

/-- lib.rs:821-828 -/
def push_chunk_hash (h : Hasher) (hash : Vector Byte 32) (offset : U64) : R Hasher := do
  let h ← merge_loop h offset
  if h.subtree_hashes.length < MAX_DEPTH then
    .ok { h with subtree_hashes := hash :: h.subtree_hashes }
  else .error .capacity

/-- lib.rs:892-899 -/
def push_hashes : List Bytes → Hasher → R Hasher
  | [], h => .ok h
  | c :: cs, h => do
    let hash ← arrayRef c 0 OUT_LEN
    let h ← push_chunk_hash h hash h.chunk.offset
    push_hashes cs { h with chunk := { h.chunk with offset := h.chunk.offset + BitVec.ofNat 64 CHUNK_LEN } }

/-- lib.rs:875-901 -/
def update_loop (cfg : Config) (chunks : List Bytes) (out_array : Bytes) (h : Hasher) : R Hasher :=
  if _h : chunks.take (MAX_SIMD_DEGREE cfg) = [] then .ok h
  else do
    let chunks_array := chunks.take (MAX_SIMD_DEGREE cfg)
    let out_array ← hash_many h.chunk.platform CHUNK_LEN chunks_array h.chunk.key h.chunk.offset
      (BitVec.ofNat 64 CHUNK_LEN) h.chunk.flags Flags.CHUNK_START Flags.CHUNK_END out_array
    let h ← push_hashes ((chunksExact OUT_LEN out_array).take chunks_array.length) h
    update_loop cfg (chunks.drop (MAX_SIMD_DEGREE cfg)) out_array h
termination_by chunks.length
decreasing_by
  have h1 : 0 < chunks.length := by
    cases chunks with
    | nil => exact absurd List.take_nil ‹_›
    | cons c cs => simp
  have h2 : 0 < MAX_SIMD_DEGREE cfg := by unfold MAX_SIMD_DEGREE; split <;> decide
  simp only [List.length_drop]; omega

/-- lib.rs:863-919 -/
def update_rest (cfg : Config) (h : Hasher) (input : Bytes) : R Hasher := do
  let out_array : Bytes := List.replicate (MAX_SIMD_DEGREE cfg * OUT_LEN) 0
  let h ← update_loop cfg (chunksExact CHUNK_LEN input) out_array h
  let remainder := chunksRemainder CHUNK_LEN input
  if remainder ≠ [] then
    let h ← merge_loop h h.chunk.offset
    let chunk ← ChunkState.update cfg.usizeBits h.chunk remainder
    return { h with chunk }
  else return h

/-- lib.rs:836-920 -/
def update (cfg : Config) (h : Hasher) (input : Bytes) : R Hasher := do
  let is_first_chunk := h.chunk.offset = 0
  let maybe_root := is_first_chunk ∧ input.length = CHUNK_LEN
  if maybe_root ∨ 0 < h.chunk.len then
    let want := subW cfg.usizeBits CHUNK_LEN h.chunk.len
    let take := min want input.length
    let chunk ← ChunkState.update cfg.usizeBits h.chunk (input.take take)
    let h := { h with chunk }
    let input := input.drop take
    if input ≠ [] then
      let output := ChunkState.finalize h.chunk .notRoot
      let h ← push_chunk_hash h output.to_hash h.chunk.offset
      let chunk := ChunkState.reset h.chunk (h.chunk.offset + BitVec.ofNat 64 CHUNK_LEN)
      update_rest cfg { h with chunk } input
    else return h
  else update_rest cfg h input

/-- lib.rs:934-985 -/
def finalize_xof (h : Hasher) : R Output :=
  if h.subtree_hashes = [] then .ok (ChunkState.finalize h.chunk .root)
  else if 0 < h.chunk.len then
    h.finalize_loop (ChunkState.finalize h.chunk .notRoot).to_hash h.subtree_hashes
  else
    match h.subtree_hashes with
    | last :: rest => h.finalize_loop last rest
    | [] => .error .bounds

/-- lib.rs:926-928 -/
def finalize (h : Hasher) : R (Vector Byte 32) := do
  let o ← finalize_xof h
  return o.to_hash

/-- `hasher.update(s1).update(s2)...` -/
def updates (cfg : Config) : Hasher → List Bytes → R Hasher
  | h, [] => .ok h
  | h, s :: ss => do
    let h ← update cfg h s
    updates cfg h ss

end Hasher

/-! ## copy.rs -/

/-- copy.rs:54-64 -/
def copy_loop {W : Type} (write_all : W → Bytes → R (Except IoError Unit × W)) (buffer : Bytes) (total : U64)
    (w : W) : List ReadEvent → R (Except IoError U64 × W × List ReadEvent)
  | [] => .ok (.ok total, w, [])
  | .ok n data :: es =>
    let buffer := overwrite buffer data
    if n = 0 then .ok (.ok total, w, es)
    else do
      let s ← sliceTo buffer n
      let (r, w) ← write_all w s
      match r with
      | .error e => return (.error e, w, es)
      | .ok () => copy_loop write_all buffer (total + BitVec.ofNat 64 n) w es
  | .err .interrupted :: es => copy_loop write_all buffer total w es
  | .err e :: es => .ok (.error e, w, es)

/-- copy.rs:47-65 -/
def copy_wide (cfg : Config) {W : Type} (write_all : W → Bytes → R (Except IoError Unit × W))
    (reader : List ReadEvent) (w : W) : R (Except IoError U64 × W × List ReadEvent) :=
  copy_loop write_all (List.replicate (COPY_BUF_LEN cfg) 0) 0 w reader

/-! ## portable64.rs -/

namespace Portable64

/-- portable64.rs:170-198 -/
def hash1 (input : Bytes) (key : Vector U64 4) (offset : U64) (flags flags_start flags_end : Byte) : R (Vector Byte 32) := do
  let cv ← Model.Portable64.hash1_loop flags flags_end offset key (flags ||| flags_start) input
  return Model.Portable64.bytes_from_state_words cv

/-- portable64.rs:211-222 -/
def hash_many_loop (key : Vector U64 4) (offset_delta : U64) (flags flags_start flags_end : Byte) :
    (inputs : List Bytes) → (offset : U64) → (out : Bytes) → R Bytes
  | [], _, out => .ok out
  | input :: inputs, offset, out =>
    if out.length < Model.Portable64.OUT_LEN then .ok out
    else do
      let h ← hash1 input key offset flags flags_start flags_end
      let rest ← hash_many_loop key offset_delta flags flags_start flags_end inputs (offset + offset_delta) (out.drop Model.Portable64.OUT_LEN)
      return h.toList ++ rest

/-- portable64.rs:200-223 -/
def hash_many (inputs : List Bytes) (key : Vector U64 4) (offset offset_delta : U64)
    (flags flags_start flags_end : Byte) (out : Bytes) : R Bytes :=
  hash_many_loop key offset_delta flags flags_start flags_end inputs offset out

end Portable64

/-! ## reference_impl.rs -/

namespace Ref
open Model.Ref (compress write_words first_8_words wordsArray parent_output ROOT)

/-- reference_impl.rs:125-138 -/
def root_output_loop (o : Model.Ref.Output) (offset : U64) (out_slice : Bytes) : Bytes :=
  if _h : out_slice = [] then []
  else
    let out_block := out_slice.take (2 * Model.Ref.OUT_LEN)
    let words := compress o.input_chaining_value o.block_words offset o.block_len (o.flags ||| ROOT)
    let out_block := write_words words.toList out_block
    out_block ++ root_output_loop o (offset + BitVec.ofNat 64 (2 * Model.Ref.OUT_LEN)) (out_slice.drop (2 * Model.Ref.OUT_LEN))
termination_by out_slice.length
decreasing_by
  have : 0 < out_slice.length := List.length_pos_iff.2 _h
  simp only [List.length_drop, Model.Ref.OUT_LEN]; omega

/-- reference_impl.rs:123-139 -/
def root_output_bytes (o : Model.Ref.Output) (out_slice : Bytes) : Bytes := root_output_loop o 0 out_slice

namespace ChunkState

/-- reference_impl.rs:177-190 -/
def compress_full (s : Model.Ref.ChunkState) : Model.Ref.ChunkState :=
  if s.block_len = Model.Ref.BLOCK_LEN then
    let block_words := wordsArray 16 s.block.toList
    let chaining_value := first_8_words (compress s.chaining_value block_words s.offset
      (BitVec.ofNat 32 Model.Ref.BLOCK_LEN) (s.flags ||| s.start_flag))
    { s with chaining_value, blocks_compressed := addW 8 s.blocks_compressed 1,
             block := Vector.replicate 64 0, block_len := 0 }
  else s

/-- reference_impl.rs:192-196 -/
def fill (w : Nat) (s : Model.Ref.ChunkState) (input : Bytes) : R (Model.Ref.ChunkState × Nat) := do
  let want := subW w Model.Ref.BLOCK_LEN s.block_len
  let take := min want input.length
  let block ← writeAt s.block.toList s.block_len (input.take take)
  let block ← arrayRef block 0 Model.Ref.BLOCK_LEN
  return ({ s with block, block_len := addW 8 s.block_len take }, take)

/-- reference_impl.rs:176-197; `n` as in Model/Reference.lean -/
def update_loop (w : Nat) : (n : Nat) → Model.Ref.ChunkState → Bytes → R Model.Ref.ChunkState
  | 0, s, input => if input = [] then .ok s else .error .ub
  | n + 1, s, input =>
    if input = [] then .ok s
    else do
      let (s, take) ← fill w (compress_full s) input
      update_loop w n s (input.drop take)

/-- reference_impl.rs:175-198 -/
def update (w : Nat) (s : Model.Ref.ChunkState) (input : Bytes) : R Model.Ref.ChunkState :=
  update_loop w input.length s input

end ChunkState

namespace Hasher

/-- reference_impl.rs:273-276.  On an empty stack the length wraps around and the index is out of bounds. -/
def pop_stack (h : Model.Ref.Hasher) : R (Vector Word 8 × Model.Ref.Hasher) :=
  match h.subtree_stack with
  | [] => .error .bounds
  | cv :: rest => .ok (cv, { h with subtree_stack := rest })

theorem pop_stack_length {h h' : Model.Ref.Hasher} {cv : Vector Word 8} (e : pop_stack h = .ok (cv, h')) :
    h'.subtree_stack.length < h.subtree_stack.length := by
  unfold pop_stack at e
  split at e
  next => cases e
  next heq => cases e; rw [heq]; simp

/-- reference_impl.rs:286-289 -/
def merge_loop (h : Model.Ref.Hasher) (cv : Vector Word 8) (final_stack_len : Nat) : R (Model.Ref.Hasher × Vector Word 8) :=
  if final_stack_len ≤ h.subtree_stack.length then
    match _e : pop_stack h with
    | .error e => .error e
    | .ok (left, h') =>
      merge_loop h' (parent_output left cv h'.key h'.chunk_state.flags).chaining_value final_stack_len
  else .ok (h, cv)
termination_by h.subtree_stack.length
decreasing_by exact pop_stack_length _e

/-- reference_impl.rs:278-291 -/
def push_chunk_chaining_value (h : Model.Ref.Hasher) (cv : Vector Word 8) (total_bytes : U64) : R Model.Ref.Hasher := do
  let final_stack_len := popcount total_bytes.toNat
  let (h, cv) ← merge_loop h cv final_stack_len
  h.push_stack cv

/-- reference_impl.rs:296-302 -/
def finish_chunk (h : Model.Ref.Hasher) : R Model.Ref.Hasher :=
  if h.chunk_state.len = Model.Ref.CHUNK_LEN then do
    let chunk_cv := h.chunk_state.output.chaining_value
    let new_chunk_offset := h.chunk_state.offset + BitVec.ofNat 64 Model.Ref.CHUNK_LEN
    let h ← push_chunk_chaining_value h chunk_cv new_chunk_offset
    return { h with chunk_state := Model.Ref.ChunkState.new h.key new_chunk_offset h.chunk_state.flags }
  else return h

/-- reference_impl.rs:295-308; `n` as in Model/Reference.lean -/
def update_loop (w : Nat) : (n : Nat) → Model.Ref.Hasher → Bytes → R Model.Ref.Hasher
  | 0, h, input => if input = [] then .ok h else .error .ub
  | n + 1, h, input =>
    if input = [] then .ok h
    else do
      let h ← finish_chunk h
      let want := subW w Model.Ref.CHUNK_LEN h.chunk_state.len
      let take := min want input.length
      let chunk_state ← ChunkState.update w h.chunk_state (input.take take)
      update_loop w n { h with chunk_state } (input.drop take)

/-- reference_impl.rs:294-309 -/
def update (w : Nat) (h : Model.Ref.Hasher) (input : Bytes) : R Model.Ref.Hasher := update_loop w input.length h input

/-- reference_impl.rs:312-328 -/
def finalize (h : Model.Ref.Hasher) (out_slice : Bytes) : Bytes :=
  root_output_bytes (h.finalize_loop h.chunk_state.output h.subtree_stack) out_slice

/-- `hasher.update(s1); hasher.update(s2); ...` -/
def updates (w : Nat) : Model.Ref.Hasher → List Bytes → R Model.Ref.Hasher
  | h, [] => .ok h
  | h, s :: ss => do
    let h ← update w h s
    updates w h ss

end Hasher
end Ref

end Baokeshed.Model.Rel
