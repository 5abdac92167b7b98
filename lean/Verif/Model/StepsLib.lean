import Verif.Model.Steps
import Verif.Model.Trace

/-!
# The rest of the Rust library once more, recording what it executes

The definitions repeat those of Model/Lib.lean and Model/Hasher.lean in the monad of Model/Steps.lean.  Recorded, in order, besides
the steps of the kernels: each copy and each access to a slice with its position and length, each checked addition, each
`debug_assert!` and each condition with its outcome, each push to and pop from the stack with the number of its elements.
`Proofs/StepsLib.lean` proves that dropping the list gives back the original definitions.

Not recorded: unchecked arithmetic on lengths, the evaluation of flags, copies of whole structs.
-/

namespace Baokeshed.Model.Steps
open Baokeshed.Model

/-- `debug_assert!` -/
def assertR (c : Prop) [Decidable c] : Try Unit := tryOp "debug_assert" [(decide c).toNat] (Baokeshed.assertR c)

/-- `array_ref!(s, off, n)` -/
def arrayRef {α : Type} (s : List α) (off n : Nat) : Try (Vector α n) := tryOp "array_ref" [s.length, off, n] (Baokeshed.arrayRef s off n)

/-- `s[off..][..data.len()].copy_from_slice(data)` -/
def writeAt {α : Type} (s : List α) (off : Nat) (data : List α) : Try (List α) :=
  tryOp "copy_from_slice" [s.length, off, data.length] (Baokeshed.writeAt s off data)

/-- `&s[..n]` -/
def sliceTo {α : Type} (s : List α) (n : Nat) : Try (List α) := tryOp "slice" [s.length, n] (Baokeshed.sliceTo s n)

/-- `s.split_at_mut(n)` -/
def splitAtR {α : Type} (s : List α) (n : Nat) : Try (List α × List α) := tryOp "split_at_mut" [s.length, n] (Baokeshed.splitAtR s n)

/-- `a + b` on `u64` -/
def addU64 (a b : U64) : Try U64 := tryOp "+" [a.toNat, b.toNat] (Baokeshed.addU64 a b)

/-- `a * b` on `u64` -/
def mulU64 (a b : U64) : Try U64 := tryOp "*" [a.toNat, b.toNat] (Baokeshed.mulU64 a b)

/-- `a + b` on `u8` and `u16` -/
def addN (w a b : Nat) : Try Nat := tryOp "+" [w, a, b] (Baokeshed.addN w a b)

/-- `a - b` -/
def subN (a b : Nat) : Try Nat := tryOp "-" [a, b] (Baokeshed.subN a b)

/-- lib.rs:351-353, 401-403: pushes to an `ArrayVec` -/
def pushAll {α : Type} (cap : Nat) (xs : List α) : Try (List α) := tryOp "push" [cap, xs.length] (Model.pushAll cap xs)

/-- the case distinctions of platform.rs:61-68, 79-86, 100-139 -/
def Platform.number : Platform → Nat
  | .portable => 0
  | .sse41 => 1
  | .avx2 => 2

/-- platform.rs:53-69 -/
def compress (p : Platform) (cv : Vector Word 8) (block : Vector Byte 64) (block_len : Byte)
    (offset : U64) (flags : Byte) : Try (Vector Word 8) := do
  let _ ← op "match" [Platform.number p] ()
  match p with
  | .portable => Portable.compress cv block block_len offset flags
  | .sse41 | .avx2 => Sse41.compress cv block block_len offset flags

/-- platform.rs:71-87 -/
def compress_xof (p : Platform) (cv : Vector Word 8) (block : Vector Byte 64) (block_len : Byte)
    (offset : U64) (flags : Byte) : Try (Vector Byte 64) := do
  let _ ← op "match" [Platform.number p] ()
  match p with
  | .portable => Portable.compress_xof cv block block_len offset flags
  | .sse41 | .avx2 => Sse41.compress_xof cv block block_len offset flags

/-- platform.rs:89-140 -/
def hash_many (p : Platform) (capacity : Nat) (inputs : List Bytes) (key : Vector Word 8)
    (offset offset_delta : U64) (flags flags_start flags_end : Byte) (out : Bytes) : Try Bytes := do
  let _ ← op "match" [Platform.number p] ()
  match p with
  | .portable => Portable.hash_many inputs key offset offset_delta flags flags_start flags_end out
  | .sse41 => Sse41.hash_many capacity inputs key offset offset_delta flags flags_start flags_end out
  | .avx2 => Avx2.hash_many capacity inputs key offset offset_delta flags flags_start flags_end out

/-! ## Output -/

/-- lib.rs:241: the offset of the next block of output -/
def advance (prof : Profile) (offset : U64) : Try U64 :=
  match prof with
  | .debug => addU64 offset (BitVec.ofNat 64 (2 * OUT_LEN))
  | .release => tryOp "+" [offset.toNat, 2 * OUT_LEN] (.ok (offset + BitVec.ofNat 64 (2 * OUT_LEN)))

/-- lib.rs:233-243 -/
def Output.read (prof : Profile) (o : Output) : Try (Vector Byte 64 × Output) := do
  let output ← compress_xof o.platform o.cv o.block o.block_len o.offset o.flags
  let offset ← advance prof o.offset
  return (output, { o with offset })

/-- lib.rs:245-254 -/
def Output.to_hash (o : Output) : Try (Vector Byte 32) := do
  let cv ← compress o.platform o.cv o.block o.block_len o.offset o.flags
  Portable.bytes_from_state_words cv

/-- A sequence of calls on one `Output` -/
def Output.run (prof : Profile) : List OutCall → Output → Try (List Bytes × Output)
  | [], o => pure ([], o)
  | .read :: cs, o => do
    let (b, o) ← Output.read prof o
    let (rs, o) ← Output.run prof cs o
    return (b.toList :: rs, o)
  | .toHash :: cs, o => do
    let h ← Output.to_hash o
    let (rs, o) ← Output.run prof cs o
    return (h.toList :: rs, o)

/-! ## One-shot functions -/

/-- lib.rs:290-326 -/
def hash_one_chunk_loop (p : Platform) (chunk : Bytes) (offset : U64) (is_root : IsRoot) (flags : Byte)
    (cv : Vector Word 8) (block_flags : Byte) (block_offset : Nat) : Try Output := do
  test "while" (decide (block_offset + BLOCK_LEN ≤ chunk.length))
  if _h : block_offset + BLOCK_LEN ≤ chunk.length then
    test "if" (decide (block_offset + BLOCK_LEN = chunk.length))
    if block_offset + BLOCK_LEN = chunk.length then
      let block ← arrayRef chunk block_offset BLOCK_LEN
      return { cv, block, block_len := BitVec.ofNat 8 BLOCK_LEN, offset,
               flags := block_flags ||| Flags.CHUNK_END ||| is_root.flag, platform := p }
    else
      let block ← arrayRef chunk block_offset BLOCK_LEN
      let cv ← compress p cv block (BitVec.ofNat 8 BLOCK_LEN) offset block_flags
      hash_one_chunk_loop p chunk offset is_root flags cv flags (block_offset + BLOCK_LEN)
  else
    let block_len ← subN chunk.length block_offset
    let last_block ← writeAt (List.replicate BLOCK_LEN 0) 0 (chunk.drop block_offset)
    let block ← arrayRef last_block 0 BLOCK_LEN
    return { cv, block, block_len := BitVec.ofNat 8 block_len, offset,
             flags := block_flags ||| Flags.CHUNK_END ||| is_root.flag, platform := p }
termination_by chunk.length - block_offset
decreasing_by simp [BLOCK_LEN] at *; omega

/-- lib.rs:276-327 -/
def hash_one_chunk (chunk : Bytes) (key : Vector Word 8) (offset : U64) (is_root : IsRoot)
    (flags : Byte) (p : Platform) : Try Output := do
  assertR (is_root = .root → offset = 0)
  hash_one_chunk_loop p chunk offset is_root flags key (flags ||| Flags.CHUNK_START) 0

/-- lib.rs:332-377 -/
def hash_chunks_parallel (cfg : Config) (input : Bytes) (key : Vector Word 8) (offset : U64)
    (flags : Byte) (p : Platform) (out : Bytes) : Try (Nat × Bytes) := do
  assertR (input ≠ [])
  assertR (input.length ≤ MAX_SIMD_DEGREE cfg * CHUNK_LEN)
  assertR (offset % BitVec.ofNat 64 CHUNK_LEN = 0)
  let chunks_array ← pushAll (MAX_SIMD_DEGREE cfg) (chunksExact CHUNK_LEN input)
  let out ← hash_many p CHUNK_LEN chunks_array key offset (BitVec.ofNat 64 CHUNK_LEN) flags
    Flags.CHUNK_START Flags.CHUNK_END out
  let chunks_so_far := chunks_array.length
  let remainder := chunksRemainder CHUNK_LEN input
  test "if" (decide (remainder ≠ []))
  if remainder ≠ [] then
    let d ← mulU64 (BitVec.ofNat 64 chunks_so_far) (BitVec.ofNat 64 CHUNK_LEN)
    let off ← addU64 offset d
    let output ← hash_one_chunk remainder key off .notRoot flags p
    let h ← Output.to_hash output
    let out ← writeAt out (chunks_so_far * OUT_LEN) h.toList
    return (chunks_so_far + 1, out)
  else
    return (chunks_so_far, out)

/-- lib.rs:383-419 -/
def hash_parents_parallel (cfg : Config) (child_hashes : Bytes) (key : Vector Word 8) (flags : Byte)
    (p : Platform) (out : Bytes) : Try (Nat × Bytes) := do
  assertR (child_hashes.length % OUT_LEN = 0)
  let num_children := child_hashes.length / OUT_LEN
  assertR (2 ≤ num_children)
  assertR (num_children ≤ 2 * MAX_SIMD_DEGREE_OR_2 cfg)
  let parents_array ← pushAll (MAX_SIMD_DEGREE_OR_2 cfg) (chunksExact BLOCK_LEN child_hashes)
  let out ← hash_many p BLOCK_LEN parents_array key 0 0 (flags ||| Flags.PARENT) 0 0 out
  let parents_so_far := parents_array.length
  let remainder := chunksRemainder BLOCK_LEN child_hashes
  test "if" (decide (remainder ≠ []))
  if remainder ≠ [] then
    assertR (remainder.length = OUT_LEN)
    let out ← writeAt out (parents_so_far * OUT_LEN) remainder
    return (parents_so_far + 1, out)
  else
    return (parents_so_far, out)

/-- lib.rs:450-512 -/
def hash_recurse (cfg : Config) (input : Bytes) (key : Vector Word 8) (offset : U64) (flags : Byte)
    (p : Platform) (out : Bytes) : Try (Nat × Bytes) := do
  test "if" (decide (input.length ≤ p.simd_degree * CHUNK_LEN))
  if input.length ≤ p.simd_degree * CHUNK_LEN then
    hash_chunks_parallel cfg input key offset flags p out
  else
    let _ ← op "left_len" [input.length] ()
    match _hl : left_len cfg.usizeBits input.length with
    | .error e => ⟨.error e, []⟩
    | .ok l =>
      let left := input.take l
      let right := input.drop l
      do
        let right_off ← addU64 offset (BitVec.ofNat 64 left.length)
        assertR (popcount p.simd_degree = 1)
        let children_array : Bytes := List.replicate (2 * MAX_SIMD_DEGREE_OR_2 cfg * OUT_LEN) 0
        test "if" (decide (left.length = CHUNK_LEN))
        let degree := if left.length = CHUNK_LEN then 1 else max p.simd_degree 2
        let (left_out, right_out) ← splitAtR children_array (degree * OUT_LEN)
        let (left_n, left_out) ← hash_recurse cfg left key offset flags p left_out
        let (right_n, right_out) ← hash_recurse cfg right key right_off flags p right_out
        let children_array := left_out ++ right_out
        assertR (left_n = degree)
        assertR (1 ≤ right_n ∧ right_n ≤ left_n)
        test "if" (decide (left_n = 1))
        if left_n = 1 then
          let c ← sliceTo children_array (2 * OUT_LEN)
          let out ← writeAt out 0 c
          return (2, out)
        else
          let num_children := left_n + right_n
          let c ← sliceTo children_array (num_children * OUT_LEN)
          hash_parents_parallel cfg c key flags p out
termination_by input.length
decreasing_by
  · have := left_len_lt _hl
    simp only [List.length_take]; omega
  · have := left_len_pos _hl
    have := left_len_lt _hl
    simp only [List.length_drop]; omega

/-- lib.rs:523-527 -/
def condense_loop (cfg : Config) (key : Vector Word 8) (flags : Byte) (p : Platform) :
    (n : Nat) → (children out_array : Bytes) → Try Bytes
  | 0, _, _ => ⟨.error .ub, []⟩
  | n + 1, children, out_array => do
    test "while" (decide (BLOCK_LEN < children.length))
    if BLOCK_LEN < children.length then
      let (out_n, out_array) ← hash_parents_parallel cfg children key flags p out_array
      let o ← sliceTo out_array (out_n * OUT_LEN)
      let children ← writeAt children 0 o
      let children ← sliceTo children (out_n * OUT_LEN)
      condense_loop cfg key flags p n children out_array
    else pure children

/-- lib.rs:514-536 -/
def condense_root (cfg : Config) (children : Bytes) (key : Vector Word 8) (flags : Byte)
    (p : Platform) : Try Output := do
  assertR (children.length % OUT_LEN = 0)
  assertR (BLOCK_LEN ≤ children.length)
  let out_array : Bytes := List.replicate (MAX_SIMD_DEGREE cfg * OUT_LEN / 2) 0
  let children ← condense_loop cfg key flags p (children.length + 1) children out_array
  let block ← arrayRef children 0 BLOCK_LEN
  return { cv := key, block, block_len := BitVec.ofNat 8 BLOCK_LEN, offset := 0,
           flags := flags ||| Flags.PARENT ||| Flags.ROOT, platform := p }

/-- lib.rs:538-552 -/
def hash_internal (cfg : Config) (input : Bytes) (key_words : Vector Word 8) (flags : Byte) :
    Try Output := do
  let p := Platform.detect cfg
  test "if" (decide (input.length ≤ CHUNK_LEN))
  if input.length ≤ CHUNK_LEN then
    hash_one_chunk input key_words 0 .root flags p
  else
    let children_array : Bytes := List.replicate (MAX_SIMD_DEGREE_OR_2 cfg * OUT_LEN) 0
    let (num_children, children_array) ← hash_recurse cfg input key_words 0 flags p children_array
    let c ← sliceTo children_array (num_children * OUT_LEN)
    condense_root cfg c key_words flags p

/-- lib.rs:123-136 -/
def words_from_key_bytes (k : Vector Byte 32) : Try (Vector Word 8) := do
  let w0 ← op "from_le_bytes" [0] (leWord k[0] k[1] k[2] k[3])
  let w1 ← op "from_le_bytes" [4] (leWord k[4] k[5] k[6] k[7])
  let w2 ← op "from_le_bytes" [8] (leWord k[8] k[9] k[10] k[11])
  let w3 ← op "from_le_bytes" [12] (leWord k[12] k[13] k[14] k[15])
  let w4 ← op "from_le_bytes" [16] (leWord k[16] k[17] k[18] k[19])
  let w5 ← op "from_le_bytes" [20] (leWord k[20] k[21] k[22] k[23])
  let w6 ← op "from_le_bytes" [24] (leWord k[24] k[25] k[26] k[27])
  let w7 ← op "from_le_bytes" [28] (leWord k[28] k[29] k[30] k[31])
  return #v[w0, w1, w2, w3, w4, w5, w6, w7]

/-- lib.rs:560, 574, 593 -/
def oneShotXof (cfg : Config) (m : Spec.Mode) (input : Bytes) : Try Output :=
  match m with
  | .hash => hash_internal cfg input IV 0
  | .keyedHash k => do
    let key_words ← words_from_key_bytes k
    hash_internal cfg input key_words Flags.KEYED_HASH
  | .deriveKey k => do
    let key_words ← words_from_key_bytes k
    hash_internal cfg input key_words Flags.DERIVE_KEY

/-! ## Incremental hashing -/

/-- lib.rs:628-635 -/
def ChunkState.reset (s : ChunkState) (new_offset : U64) : Try ChunkState := do
  assertR (new_offset % BitVec.ofNat 64 CHUNK_LEN = 0)
  return { s with cv := s.key, offset := new_offset, count := 0, buf := Vector.replicate 64 0, buf_len := 0 }

/-- lib.rs:642-649 -/
def ChunkState.fill_buf (s : ChunkState) (input : Bytes) : Try (ChunkState × Bytes) := do
  let want ← subN BLOCK_LEN s.buf_len
  let take := min want input.length
  let buf ← writeAt s.buf.toList s.buf_len (input.take take)
  let buf ← arrayRef buf 0 BLOCK_LEN
  let buf_len ← addN 8 s.buf_len take
  return ({ s with buf, buf_len }, input.drop take)

/-- lib.rs:651-657 -/
def ChunkState.maybe_chunk_start_flag (s : ChunkState) : Try Byte := do
  test "if" (decide (s.count = 0))
  if s.count = 0 then return Flags.CHUNK_START else return 0

/-- lib.rs:701-717 -/
def ChunkState.finalize (s : ChunkState) (is_root : IsRoot) : Try Output := do
  assertR (is_root = .root → s.offset = 0)
  let start ← ChunkState.maybe_chunk_start_flag s
  let block_flags := s.flags ||| start ||| Flags.CHUNK_END ||| is_root.flag
  return { cv := s.cv, block := s.buf, block_len := BitVec.ofNat 8 s.buf_len, offset := s.offset,
           flags := block_flags, platform := s.platform }

/-- lib.rs:726-746: two copies to the block -/
def hash_one_parent (left_child right_child : Vector Byte 32) (key : Vector Word 8) (is_root : IsRoot)
    (flags : Byte) (p : Platform) : Try Output := do
  let _ ← op "copy_from_slice" [0, 32] ()
  op "copy_from_slice" [32, 32] (Model.hash_one_parent left_child right_child key is_root flags p)

/-- lib.rs:678-690 -/
def ChunkState.update_blocks (s : ChunkState) (input : Bytes) : Try (ChunkState × Bytes) := do
  test "while" (decide (BLOCK_LEN < input.length))
  if _h : BLOCK_LEN < input.length then
    assertR (s.buf_len = 0)
    let start ← ChunkState.maybe_chunk_start_flag s
    let block_flags := s.flags ||| start
    let block ← arrayRef input 0 BLOCK_LEN
    let cv ← compress s.platform s.cv block (BitVec.ofNat 8 BLOCK_LEN) s.offset block_flags
    let count ← addN 16 s.count BLOCK_LEN
    ChunkState.update_blocks { s with cv, count } (input.drop BLOCK_LEN)
  else pure (s, input)
termination_by input.length
decreasing_by simp [BLOCK_LEN] at *; omega

/-- lib.rs:660-676 -/
def ChunkState.update_first (s : ChunkState) (input : Bytes) : Try (ChunkState × Bytes) := do
  test "if" (decide (0 < s.buf_len))
  if 0 < s.buf_len then
    let (s, input) ← ChunkState.fill_buf s input
    test "if" (decide (input ≠ []))
    if input ≠ [] then
      assertR (s.buf_len = BLOCK_LEN)
      let start ← ChunkState.maybe_chunk_start_flag s
      let block_flags := s.flags ||| start
      let cv ← compress s.platform s.cv s.buf (BitVec.ofNat 8 BLOCK_LEN) s.offset block_flags
      let count ← addN 16 s.count BLOCK_LEN
      return ({ s with cv, count, buf_len := 0, buf := Vector.replicate 64 0 }, input)
    else return (s, input)
  else pure (s, input)

/-- lib.rs:659-695 -/
def ChunkState.update (s : ChunkState) (input : Bytes) : Try ChunkState := do
  let (s, input) ← ChunkState.update_first s input
  let (s, input) ← ChunkState.update_blocks s input
  let (s, input) ← ChunkState.fill_buf s input
  assertR (input = [])
  assertR (s.len ≤ CHUNK_LEN)
  return s

/-- lib.rs:805-819 -/
def Hasher.merge_parent (h : Hasher) : Try Hasher := do
  let _ ← op "pop" [h.subtree_hashes.length] ()
  match h.subtree_hashes with
  | right :: left :: rest =>
    let parent ← hash_one_parent left right h.chunk.key .notRoot h.chunk.flags h.chunk.platform
    let parent_hash ← Output.to_hash parent
    return { h with subtree_hashes := parent_hash :: rest }
  | _ => ⟨.error .assert, []⟩

/-- lib.rs:821-828 and 914-916, the loop; `n`: more than the elements of the stack, each repetition removes one -/
def Hasher.merge_loop_n (offset : U64) : Nat → Hasher → Try Hasher
  | 0, _ => ⟨.error .ub, []⟩
  | n + 1, h => do
    test "while" (decide (h.needs_merge offset = true))
    if h.needs_merge offset then
      let h ← Hasher.merge_parent h
      Hasher.merge_loop_n offset n h
    else pure h

/-- lib.rs:824-826 and 914-916 -/
def Hasher.merge_loop (h : Hasher) (offset : U64) : Try Hasher := Hasher.merge_loop_n offset (h.subtree_hashes.length + 1) h

/-- lib.rs:821-828 -/
def Hasher.push_chunk_hash (h : Hasher) (hash : Vector Byte 32) (offset : U64) : Try Hasher := do
  let h ← Hasher.merge_loop h offset
  let _ ← op "push" [MAX_DEPTH, h.subtree_hashes.length] ()
  if h.subtree_hashes.length < MAX_DEPTH then
    pure { h with subtree_hashes := hash :: h.subtree_hashes }
  else ⟨.error .capacity, []⟩

/-- lib.rs:892-899 -/
def Hasher.push_hashes : List Bytes → Hasher → Try Hasher
  | [], h => pure h
  | c :: cs, h => do
    let hash ← arrayRef c 0 OUT_LEN
    let h ← Hasher.push_chunk_hash h hash h.chunk.offset
    let offset ← addU64 h.chunk.offset (BitVec.ofNat 64 CHUNK_LEN)
    Hasher.push_hashes cs { h with chunk := { h.chunk with offset } }

/-- lib.rs:875-901 -/
def Hasher.update_loop (cfg : Config) (chunks : List Bytes) (out_array : Bytes) (h : Hasher) : Try Hasher := do
  test "while" (decide (chunks.take (MAX_SIMD_DEGREE cfg) = []))
  if _h : chunks.take (MAX_SIMD_DEGREE cfg) = [] then pure h
  else
    let chunks_array := chunks.take (MAX_SIMD_DEGREE cfg)
    let out_array ← hash_many h.chunk.platform CHUNK_LEN chunks_array h.chunk.key h.chunk.offset
      (BitVec.ofNat 64 CHUNK_LEN) h.chunk.flags Flags.CHUNK_START Flags.CHUNK_END out_array
    let h ← Hasher.push_hashes ((chunksExact OUT_LEN out_array).take chunks_array.length) h
    Hasher.update_loop cfg (chunks.drop (MAX_SIMD_DEGREE cfg)) out_array h
termination_by chunks.length
decreasing_by
  have h1 : 0 < chunks.length := by
    cases chunks with
    | nil => exact absurd List.take_nil ‹_›
    | cons c cs => simp
  have h2 : 0 < MAX_SIMD_DEGREE cfg := by unfold MAX_SIMD_DEGREE; split <;> decide
  simp only [List.length_drop]; omega

/-- lib.rs:863-919 -/
def Hasher.update_rest (cfg : Config) (h : Hasher) (input : Bytes) : Try Hasher := do
  assertR (h.chunk.len = 0)
  let out_array : Bytes := List.replicate (MAX_SIMD_DEGREE cfg * OUT_LEN) 0
  let h ← Hasher.update_loop cfg (chunksExact CHUNK_LEN input) out_array h
  assertR (h.chunk.len = 0)
  let remainder := chunksRemainder CHUNK_LEN input
  assertR (remainder.length < CHUNK_LEN)
  test "if" (decide (remainder ≠ []))
  if remainder ≠ [] then
    let h ← Hasher.merge_loop h h.chunk.offset
    let chunk ← ChunkState.update h.chunk remainder
    return { h with chunk }
  else return h

/-- lib.rs:836-920 -/
def Hasher.update (cfg : Config) (h : Hasher) (input : Bytes) : Try Hasher := do
  let is_first_chunk := h.chunk.offset = 0
  let maybe_root := is_first_chunk ∧ input.length = CHUNK_LEN
  test "if" (decide (maybe_root ∨ 0 < h.chunk.len))
  if maybe_root ∨ 0 < h.chunk.len then
    let want ← subN CHUNK_LEN h.chunk.len
    let take := min want input.length
    let chunk ← ChunkState.update h.chunk (input.take take)
    let h := { h with chunk }
    let input := input.drop take
    test "if" (decide (input ≠ []))
    if input ≠ [] then
      assertR (h.chunk.len = CHUNK_LEN)
      let output ← ChunkState.finalize h.chunk .notRoot
      let hash ← Output.to_hash output
      let h ← Hasher.push_chunk_hash h hash h.chunk.offset
      let offset ← addU64 h.chunk.offset (BitVec.ofNat 64 CHUNK_LEN)
      let chunk ← ChunkState.reset h.chunk offset
      Hasher.update_rest cfg { h with chunk } input
    else return h
  else Hasher.update_rest cfg h input

/-- lib.rs:964-984 -/
def Hasher.finalize_loop (h : Hasher) (working_hash : Vector Byte 32) : List (Vector Byte 32) → Try Output
  | [] => ⟨.error .bounds, []⟩
  | [s] => do
    let _ ← op "while" [1] ()
    hash_one_parent s working_hash h.chunk.key .root h.chunk.flags h.chunk.platform
  | s :: rest => do
    let _ ← op "while" [rest.length + 1] ()
    let parent ← hash_one_parent s working_hash h.chunk.key .notRoot h.chunk.flags h.chunk.platform
    let working_hash ← Output.to_hash parent
    Hasher.finalize_loop h working_hash rest

/-- lib.rs:934-985 -/
def Hasher.finalize_xof (h : Hasher) : Try Output := do
  test "if" (decide (h.subtree_hashes = []))
  if h.subtree_hashes = [] then ChunkState.finalize h.chunk .root
  else
  test "if" (decide (0 < h.chunk.len))
  if 0 < h.chunk.len then
    assertR (h.needs_merge h.chunk.offset = false)
    let output ← ChunkState.finalize h.chunk .notRoot
    let working_hash ← Output.to_hash output
    Hasher.finalize_loop h working_hash h.subtree_hashes
  else
    assertR (2 ≤ h.subtree_hashes.length)
    match h.subtree_hashes with
    | last :: rest => Hasher.finalize_loop h last rest
    | [] => ⟨.error .bounds, []⟩

/-- lib.rs:761-788: `Hasher::new`, `new_keyed`, `new_derive_key` -/
def newHasher (cfg : Config) (m : Spec.Mode) : Try Hasher :=
  match m with
  | .hash => pure (Hasher.new_internal cfg IV 0)
  | .keyedHash k => do
    let key_words ← words_from_key_bytes k
    return Hasher.new_internal cfg key_words Flags.KEYED_HASH
  | .deriveKey k => do
    let key_words ← words_from_key_bytes k
    return Hasher.new_internal cfg key_words Flags.DERIVE_KEY

/-- `Model.Hasher.session` -/
def Hasher.session (cfg : Config) (prof : Profile) : List HCall → Hasher → Try (List Bytes)
  | [], _ => pure []
  | .update s :: cs, h => do
    let h ← Hasher.update cfg h s
    Hasher.session cfg prof cs h
  | .output os :: cs, h => do
    let o ← Hasher.finalize_xof h
    let (rs, _) ← Output.run prof os o
    let rs' ← Hasher.session cfg prof cs h
    return rs ++ rs'

/-- A one-shot `_xof` function followed by calls on the `Output` it returns. -/
def oneShotRun (cfg : Config) (prof : Profile) (m : Spec.Mode) (input : Bytes) (os : List OutCall) : Try (List Bytes) := do
  let o ← oneShotXof cfg m input
  let (rs, _) ← Output.run prof os o
  return rs

/-- A hasher, and calls on it. -/
def sessionRun (cfg : Config) (prof : Profile) (m : Spec.Mode) (cs : List HCall) : Try (List Bytes) := do
  let h ← newHasher cfg m
  Hasher.session cfg prof cs h

end Baokeshed.Model.Steps
