import Verif.Model.Trace

/-!
# /repo/src/lib.rs once more, recording the calls of compression functions

The definitions repeat those of Model/Lib.lean and Model/Hasher.lean, in a monad that also keeps the list of
the functions of platform.rs, portable.rs, sse41.rs and avx2.rs entered so far, and of the bytes copied into the
block buffer of a chunk state or of `hash_one_chunk`.  `Proofs/EraseIsa.lean` proves that dropping that list gives back the original
definitions.
-/

namespace Baokeshed.Model.I
open Baokeshed.Model

/-- What `#[target_feature(enable = …)]` of the crate mentions. -/
inductive Isa where
  | sse41
  | avx2
  deriving DecidableEq, Repr

/-- What is recorded.  `sse` says whether the function is that of sse41.rs or that of portable.rs.  The calls that
these functions make in turn (sse41.rs:630, portable.rs:144) are not recorded separately. -/
inductive Ev where
  /-- `compress`, sse41.rs:309-310 or portable.rs:96, with these flags -/
  | compress (sse : Bool) (flags : Byte)
  /-- `compress_xof`, sse41.rs:322-323 or portable.rs:109 -/
  | xof (sse : Bool)
  /-- `hash1`, sse41.rs:612-613 or portable.rs:127, of an input of that length -/
  | hash1 (sse : Bool) (len : Nat)
  /-- `hash4`, sse41.rs:523-524, of inputs of that length -/
  | hash4 (len : Nat)
  /-- `hash8`, avx2.rs:298-299, of inputs of that length -/
  | hash8 (len : Nat)
  /-- `hash_many`, sse41.rs:643-644 -/
  | manySse41
  /-- `hash_many`, avx2.rs:383-384 -/
  | manyAvx2
  /-- `fill_buf`, lib.rs:642-649, or the end of `hash_one_chunk`, lib.rs:314-316, copies so many bytes -/
  | copy (n : Nat)
  deriving DecidableEq, Repr

/-- The `#[target_feature]` of the function, at the lines given above. -/
def Ev.isa : Ev → Option Isa
  | .compress sse _ => if sse then some .sse41 else none
  | .xof sse => if sse then some .sse41 else none
  | .hash1 sse _ => if sse then some .sse41 else none
  | .hash4 _ => some .sse41
  | .hash8 _ => some .avx2
  | .manySse41 => some .sse41
  | .manyAvx2 => some .avx2
  | .copy _ => none

/-- A computation that may panic, and what it calls. -/
structure IR (α : Type) where
  res : R α
  log : List Ev

instance : Monad IR where
  pure a := ⟨.ok a, []⟩
  bind x f := match x.res with
    | .ok a => ⟨(f a).res, x.log ++ (f a).log⟩
    | .error e => ⟨.error e, x.log⟩

instance : MonadLift R IR where
  monadLift r := ⟨r, []⟩

/-- enter a function -/
def enter (c : Ev) : IR Unit := ⟨.ok (), [c]⟩

/-- platform.rs:53-69 -/
def compress (p : Platform) (cv : Vector Word 8) (block : Vector Byte 64) (block_len : Byte)
    (offset : U64) (flags : Byte) : IR (Vector Word 8) :=
  ⟨.ok (p.compress cv block block_len offset flags),
    match p with
    | .portable => [.compress false flags]
    | .sse41 | .avx2 => [.compress true flags]⟩

/-- platform.rs:71-87 -/
def compress_xof (p : Platform) (cv : Vector Word 8) (block : Vector Byte 64) (block_len : Byte)
    (offset : U64) (flags : Byte) : IR (Vector Byte 64) :=
  ⟨.ok (p.compress_xof cv block block_len offset flags),
    match p with
    | .portable => [.xof false]
    | .sse41 | .avx2 => [.xof true]⟩

/-- portable.rs:168-179 -/
def Portable.hash_many_loop (key : Vector Word 8) (offset_delta : U64) (flags flags_start flags_end : Byte) :
    (inputs : List Bytes) → (offset : U64) → (out : Bytes) → IR Bytes
  | [], _, out => pure out
  | input :: inputs, offset, out =>
    if out.length < OUT_LEN then pure out
    else do
      enter (.hash1 false input.length)
      let h ← Portable.hash1 input key offset flags flags_start flags_end
      let offset ← addU64 offset offset_delta
      let rest ← Portable.hash_many_loop key offset_delta flags flags_start flags_end inputs offset
        (out.drop OUT_LEN)
      return h.toList ++ rest

/-- portable.rs:157-180 -/
def Portable.hash_many (inputs : List Bytes) (key : Vector Word 8) (offset offset_delta : U64)
    (flags flags_start flags_end : Byte) (out : Bytes) : IR Bytes := do
  assertR (inputs.length * OUT_LEN ≤ out.length)
  Portable.hash_many_loop key offset_delta flags flags_start flags_end inputs offset out

/-- sse41.rs:675-686 -/
def Sse41.hash_many_tail (key : Vector Word 8) (offset_delta : U64) (flags flags_start flags_end : Byte) :
    (inputs : List Bytes) → (offset : U64) → (out : Bytes) → IR Bytes
  | [], _, out => pure out
  | input :: inputs, offset, out =>
    if out.length < OUT_LEN then pure out
    else do
      enter (.hash1 true input.length)
      let h ← Sse41.hash1 input key offset flags flags_start flags_end
      let offset ← addU64 offset offset_delta
      let rest ← Sse41.hash_many_tail key offset_delta flags flags_start flags_end inputs offset
        (out.drop OUT_LEN)
      return h.toList ++ rest

/-- sse41.rs:655-674 -/
def Sse41.hash_many_loop (capacity : Nat) (key : Vector Word 8) (offset_delta : U64)
    (flags flags_start flags_end : Byte) (inputs : List Bytes) (offset : U64) (out : Bytes) :
    IR Bytes :=
  if _h : Sse41.DEGREE ≤ inputs.length ∧ Sse41.DEGREE * OUT_LEN ≤ out.length then do
    let input_ptrs ← arrayRef inputs 0 Sse41.DEGREE
    let blocks := capacity / BLOCK_LEN
    enter (.hash4 capacity)
    let o ← Sse41.hash4 input_ptrs blocks key offset offset_delta flags flags_start flags_end
      (out.take (Sse41.DEGREE * OUT_LEN))
    let offset ← Sse41.offset_plus offset (BitVec.ofNat 64 Sse41.DEGREE) offset_delta
    let rest ← Sse41.hash_many_loop capacity key offset_delta flags flags_start flags_end
      (inputs.drop Sse41.DEGREE) offset (out.drop (Sse41.DEGREE * OUT_LEN))
    return o ++ rest
  else Sse41.hash_many_tail key offset_delta flags flags_start flags_end inputs offset out
termination_by inputs.length
decreasing_by simp [Sse41.DEGREE] at *; omega

/-- sse41.rs:644-687 -/
def Sse41.hash_many (capacity : Nat) (inputs : List Bytes) (key : Vector Word 8) (offset offset_delta : U64)
    (flags flags_start flags_end : Byte) (out : Bytes) : IR Bytes := do
  enter .manySse41
  assertR (inputs.length * OUT_LEN ≤ out.length)
  Sse41.hash_many_loop capacity key offset_delta flags flags_start flags_end inputs offset out

/-- avx2.rs:395-424 -/
def Avx2.hash_many_loop (capacity : Nat) (key : Vector Word 8) (offset_delta : U64)
    (flags flags_start flags_end : Byte) (inputs : List Bytes) (offset : U64) (out : Bytes) :
    IR Bytes :=
  if _h : Avx2.DEGREE ≤ inputs.length ∧ Avx2.DEGREE * OUT_LEN ≤ out.length then do
    let input_ptrs ← arrayRef inputs 0 Avx2.DEGREE
    let blocks := capacity / BLOCK_LEN
    enter (.hash8 capacity)
    let o ← Avx2.hash8 input_ptrs blocks key offset offset_delta flags flags_start flags_end
      (out.take (Avx2.DEGREE * OUT_LEN))
    let offset ← Sse41.offset_plus offset (BitVec.ofNat 64 Avx2.DEGREE) offset_delta
    let rest ← Avx2.hash_many_loop capacity key offset_delta flags flags_start flags_end
      (inputs.drop Avx2.DEGREE) offset (out.drop (Avx2.DEGREE * OUT_LEN))
    return o ++ rest
  else Sse41.hash_many capacity inputs key offset offset_delta flags flags_start flags_end out
termination_by inputs.length
decreasing_by simp [Avx2.DEGREE] at *; omega

/-- avx2.rs:384-425 -/
def Avx2.hash_many (capacity : Nat) (inputs : List Bytes) (key : Vector Word 8) (offset offset_delta : U64)
    (flags flags_start flags_end : Byte) (out : Bytes) : IR Bytes := do
  enter .manyAvx2
  assertR (inputs.length * OUT_LEN ≤ out.length)
  Avx2.hash_many_loop capacity key offset_delta flags flags_start flags_end inputs offset out

/-- platform.rs:89-140 -/
def hash_many (p : Platform) (capacity : Nat) (inputs : List Bytes) (key : Vector Word 8)
    (offset offset_delta : U64) (flags flags_start flags_end : Byte) (out : Bytes) : IR Bytes :=
  match p with
  | .portable => Portable.hash_many inputs key offset offset_delta flags flags_start flags_end out
  | .sse41 => Sse41.hash_many capacity inputs key offset offset_delta flags flags_start flags_end out
  | .avx2 => Avx2.hash_many capacity inputs key offset offset_delta flags flags_start flags_end out

/-! ## Output -/

/-- lib.rs:233-243 -/
def Output.read (prof : Profile) (o : Output) : IR (Vector Byte 64 × Output) := do
  let output ← compress_xof o.platform o.cv o.block o.block_len o.offset o.flags
  let offset ← (match prof with
    | .debug => addU64 o.offset (BitVec.ofNat 64 (2 * OUT_LEN))
    | .release => .ok (o.offset + BitVec.ofNat 64 (2 * OUT_LEN)) : R U64)
  return (output, { o with offset })

/-- lib.rs:245-254 -/
def Output.to_hash (o : Output) : IR (Vector Byte 32) := do
  let cv ← compress o.platform o.cv o.block o.block_len o.offset o.flags
  return bytes_from_state_words cv

/-- A sequence of calls on one `Output` -/
def Output.run (prof : Profile) : List OutCall → Output → IR (List Bytes × Output)
  | [], o => pure ([], o)
  | .read :: cs, o => do
    let (b, o) ← Output.read prof o
    let (rs, o) ← Output.run prof cs o
    return (b.toList :: rs, o)
  | .toHash :: cs, o => do
    let h ← Output.to_hash o
    let (rs, o) ← Output.run prof cs o
    return (h.toList :: rs, o)

/-! ## One-shot functions -/

/-- lib.rs:290-326 -/
def hash_one_chunk_loop (p : Platform) (chunk : Bytes) (offset : U64) (is_root : IsRoot) (flags : Byte)
    (cv : Vector Word 8) (block_flags : Byte) (block_offset : Nat) : IR Output :=
  if _h : block_offset + BLOCK_LEN ≤ chunk.length then do
    if block_offset + BLOCK_LEN = chunk.length then
      let block ← arrayRef chunk block_offset BLOCK_LEN
      return { cv, block, block_len := BitVec.ofNat 8 BLOCK_LEN, offset,
               flags := block_flags ||| Flags.CHUNK_END ||| is_root.flag, platform := p }
    else
      let block ← arrayRef chunk block_offset BLOCK_LEN
      let cv ← compress p cv block (BitVec.ofNat 8 BLOCK_LEN) offset block_flags
      hash_one_chunk_loop p chunk offset is_root flags cv flags (block_offset + BLOCK_LEN)
  else do
    let block_len ← subN chunk.length block_offset
    enter (.copy block_len)
    let last_block ← writeAt (List.replicate BLOCK_LEN 0) 0 (chunk.drop block_offset)
    let block ← arrayRef last_block 0 BLOCK_LEN
    return { cv, block, block_len := BitVec.ofNat 8 block_len, offset,
             flags := block_flags ||| Flags.CHUNK_END ||| is_root.flag, platform := p }
termination_by chunk.length - block_offset
decreasing_by simp [BLOCK_LEN] at *; omega

/-- lib.rs:276-327 -/
def hash_one_chunk (chunk : Bytes) (key : Vector Word 8) (offset : U64) (is_root : IsRoot)
    (flags : Byte) (p : Platform) : IR Output := do
  assertR (is_root = .root → offset = 0)
  hash_one_chunk_loop p chunk offset is_root flags key (flags ||| Flags.CHUNK_START) 0

/-- lib.rs:332-377 -/
def hash_chunks_parallel (cfg : Config) (input : Bytes) (key : Vector Word 8) (offset : U64)
    (flags : Byte) (p : Platform) (out : Bytes) : IR (Nat × Bytes) := do
  assertR (input ≠ [])
  assertR (input.length ≤ MAX_SIMD_DEGREE cfg * CHUNK_LEN)
  assertR (offset % BitVec.ofNat 64 CHUNK_LEN = 0)
  let chunks_array ← pushAll (MAX_SIMD_DEGREE cfg) (chunksExact CHUNK_LEN input)
  let out ← hash_many p CHUNK_LEN chunks_array key offset (BitVec.ofNat 64 CHUNK_LEN) flags
    Flags.CHUNK_START Flags.CHUNK_END out
  let chunks_so_far := chunks_array.length
  let remainder := chunksRemainder CHUNK_LEN input
  if remainder ≠ [] then
    let d ← mulU64 (BitVec.ofNat 64 chunks_so_far) (BitVec.ofNat 64 CHUNK_LEN)
    let off ← addU64 offset d
    let output ← hash_one_chunk remainder key off .notRoot flags p
    let h ← Output.to_hash output
    let out ← writeAt out (chunks_so_far * OUT_LEN) h.toList
    return (chunks_so_far + 1, out)
  else
    return (chunks_so_far, out)

/-- lib.rs:383-419 -/
def hash_parents_parallel (cfg : Config) (child_hashes : Bytes) (key : Vector Word 8) (flags : Byte)
    (p : Platform) (out : Bytes) : IR (Nat × Bytes) := do
  assertR (child_hashes.length % OUT_LEN = 0)
  let num_children := child_hashes.length / OUT_LEN
  assertR (2 ≤ num_children)
  assertR (num_children ≤ 2 * MAX_SIMD_DEGREE_OR_2 cfg)
  let parents_array ← pushAll (MAX_SIMD_DEGREE_OR_2 cfg) (chunksExact BLOCK_LEN child_hashes)
  let out ← hash_many p BLOCK_LEN parents_array key 0 0 (flags ||| Flags.PARENT) 0 0 out
  let parents_so_far := parents_array.length
  let remainder := chunksRemainder BLOCK_LEN child_hashes
  if remainder ≠ [] then
    assertR (remainder.length = OUT_LEN)
    let out ← writeAt out (parents_so_far * OUT_LEN) remainder
    return (parents_so_far + 1, out)
  else
    return (parents_so_far, out)

/-- lib.rs:450-512 -/
def hash_recurse (cfg : Config) (input : Bytes) (key : Vector Word 8) (offset : U64) (flags : Byte)
    (p : Platform) (out : Bytes) : IR (Nat × Bytes) :=
  if input.length ≤ p.simd_degree * CHUNK_LEN then
    hash_chunks_parallel cfg input key offset flags p out
  else
    match _hl : left_len cfg.usizeBits input.length with
    | .error e => ⟨.error e, []⟩
    | .ok l =>
      let left := input.take l
      let right := input.drop l
      do
        let right_off ← addU64 offset (BitVec.ofNat 64 left.length)
        assertR (popcount p.simd_degree = 1)
        let children_array : Bytes := List.replicate (2 * MAX_SIMD_DEGREE_OR_2 cfg * OUT_LEN) 0
        let degree := if left.length = CHUNK_LEN then 1 else max p.simd_degree 2
        let (left_out, right_out) ← splitAtR children_array (degree * OUT_LEN)
        let (left_n, left_out) ← hash_recurse cfg left key offset flags p left_out
        let (right_n, right_out) ← hash_recurse cfg right key right_off flags p right_out
        let children_array := left_out ++ right_out
        assertR (left_n = degree)
        assertR (1 ≤ right_n ∧ right_n ≤ left_n)
        if left_n = 1 then
          let c ← sliceTo children_array (2 * OUT_LEN)
          let out ← writeAt out 0 c
          return (2, out)
        else
          let num_children := left_n + right_n
          let c ← sliceTo children_array (num_children * OUT_LEN)
          hash_parents_parallel cfg c key flags p out
termination_by input.length
decreasing_by
  · have := left_len_lt _hl
    simp only [List.length_take]; omega
  · have := left_len_pos _hl
    have := left_len_lt _hl
    simp only [List.length_drop]; omega

/-- lib.rs:523-527 -/
def condense_loop (cfg : Config) (key : Vector Word 8) (flags : Byte) (p : Platform) :
    (n : Nat) → (children out_array : Bytes) → IR Bytes
  | 0, _, _ => ⟨.error .ub, []⟩
  | n + 1, children, out_array =>
    if BLOCK_LEN < children.length then do
      let (out_n, out_array) ← hash_parents_parallel cfg children key flags p out_array
      let o ← sliceTo out_array (out_n * OUT_LEN)
      let children ← writeAt children 0 o
      let children ← sliceTo children (out_n * OUT_LEN)
      condense_loop cfg key flags p n children out_array
    else pure children

/-- lib.rs:514-536 -/
def condense_root (cfg : Config) (children : Bytes) (key : Vector Word 8) (flags : Byte)
    (p : Platform) : IR Output := do
  assertR (children.length % OUT_LEN = 0)
  assertR (BLOCK_LEN ≤ children.length)
  let out_array : Bytes := List.replicate (MAX_SIMD_DEGREE cfg * OUT_LEN / 2) 0
  let children ← condense_loop cfg key flags p (children.length + 1) children out_array
  let block ← arrayRef children 0 BLOCK_LEN
  return { cv := key, block, block_len := BitVec.ofNat 8 BLOCK_LEN, offset := 0,
           flags := flags ||| Flags.PARENT ||| Flags.ROOT, platform := p }

/-- lib.rs:538-552 -/
def hash_internal (cfg : Config) (input : Bytes) (key_words : Vector Word 8) (flags : Byte) :
    IR Output := do
  let p := Platform.detect cfg
  if input.length ≤ CHUNK_LEN then
    hash_one_chunk input key_words 0 .root flags p
  else
    let children_array : Bytes := List.replicate (MAX_SIMD_DEGREE_OR_2 cfg * OUT_LEN) 0
    let (num_children, children_array) ← hash_recurse cfg input key_words 0 flags p children_array
    let c ← sliceTo children_array (num_children * OUT_LEN)
    condense_root cfg c key_words flags p

/-- lib.rs:560, 574, 593 -/
def oneShotXof (cfg : Config) : Spec.Mode → Bytes → IR Output
  | .hash, input => hash_internal cfg input IV 0
  | .keyedHash k, input => hash_internal cfg input (words_from_key_bytes k) Flags.KEYED_HASH
  | .deriveKey k, input => hash_internal cfg input (words_from_key_bytes k) Flags.DERIVE_KEY

/-- lib.rs:555, 567, 584 -/
def oneShot (cfg : Config) (m : Spec.Mode) (input : Bytes) : IR (Vector Byte 32) := do
  let o ← oneShotXof cfg m input
  Output.to_hash o

/-! ## Incremental hashing -/

/-- lib.rs:642-649 -/
def ChunkState.fill_buf (s : ChunkState) (input : Bytes) : IR (ChunkState × Bytes) := do
  enter (.copy (min (BLOCK_LEN - s.buf_len) input.length))
  s.fill_buf input

/-- lib.rs:678-690 -/
def ChunkState.update_blocks (s : ChunkState) (input : Bytes) : IR (ChunkState × Bytes) :=
  if _h : BLOCK_LEN < input.length then do
    assertR (s.buf_len = 0)
    let block_flags := s.flags ||| s.maybe_chunk_start_flag
    let block ← arrayRef input 0 BLOCK_LEN
    let cv ← compress s.platform s.cv block (BitVec.ofNat 8 BLOCK_LEN) s.offset block_flags
    let count ← addN 16 s.count BLOCK_LEN
    ChunkState.update_blocks { s with cv, count } (input.drop BLOCK_LEN)
  else pure (s, input)
termination_by input.length
decreasing_by simp [BLOCK_LEN] at *; omega

/-- lib.rs:660-676 -/
def ChunkState.update_first (s : ChunkState) (input : Bytes) : IR (ChunkState × Bytes) :=
  if 0 < s.buf_len then do
    let (s, input) ← ChunkState.fill_buf s input
    if input ≠ [] then
      assertR (s.buf_len = BLOCK_LEN)
      let block_flags := s.flags ||| s.maybe_chunk_start_flag
      let cv ← compress s.platform s.cv s.buf (BitVec.ofNat 8 BLOCK_LEN) s.offset block_flags
      let count ← addN 16 s.count BLOCK_LEN
      return ({ s with cv, count, buf_len := 0, buf := Vector.replicate 64 0 }, input)
    else return (s, input)
  else pure (s, input)

/-- lib.rs:659-695 -/
def ChunkState.update (s : ChunkState) (input : Bytes) : IR ChunkState := do
  let (s, input) ← ChunkState.update_first s input
  let (s, input) ← ChunkState.update_blocks s input
  let (s, input) ← ChunkState.fill_buf s input
  assertR (input = [])
  assertR (s.len ≤ CHUNK_LEN)
  return s

/-- lib.rs:805-819 -/
def Hasher.merge_parent (h : Hasher) : IR Hasher :=
  match h.subtree_hashes with
  | right :: left :: rest => do
    let parent_hash ← Output.to_hash (hash_one_parent left right h.chunk.key .notRoot h.chunk.flags h.chunk.platform)
    return { h with subtree_hashes := parent_hash :: rest }
  | _ => ⟨.error .assert, []⟩

theorem Hasher.merge_parent_res (h : Hasher) : (Hasher.merge_parent h).res = h.merge_parent := by
  unfold Hasher.merge_parent Model.Hasher.merge_parent
  rcases h.subtree_hashes with _ | ⟨a, _ | ⟨b, l⟩⟩ <;> rfl

/-- lib.rs:824-826 and 914-916 -/
def Hasher.merge_loop (h : Hasher) (offset : U64) : IR Hasher :=
  if h.needs_merge offset then
    match _e : (Hasher.merge_parent h).res with
    | .error e => ⟨.error e, (Hasher.merge_parent h).log⟩
    | .ok h' => ⟨(Hasher.merge_loop h' offset).res, (Hasher.merge_parent h).log ++ (Hasher.merge_loop h' offset).log⟩
  else pure h
termination_by h.subtree_hashes.length
decreasing_by
  all_goals
    rw [Hasher.merge_parent_res] at _e
    exact Model.Hasher.merge_parent_length _e

/-- lib.rs:821-828 -/
def Hasher.push_chunk_hash (h : Hasher) (hash : Vector Byte 32) (offset : U64) : IR Hasher := do
  let h ← Hasher.merge_loop h offset
  if h.subtree_hashes.length < MAX_DEPTH then
    pure { h with subtree_hashes := hash :: h.subtree_hashes }
  else ⟨.error .capacity, []⟩

/-- lib.rs:892-899 -/
def Hasher.push_hashes : List Bytes → Hasher → IR Hasher
  | [], h => pure h
  | c :: cs, h => do
    let hash ← arrayRef c 0 OUT_LEN
    let h ← Hasher.push_chunk_hash h hash h.chunk.offset
    let offset ← addU64 h.chunk.offset (BitVec.ofNat 64 CHUNK_LEN)
    Hasher.push_hashes cs { h with chunk := { h.chunk with offset } }

/-- lib.rs:875-901 -/
def Hasher.update_loop (cfg : Config) (chunks : List Bytes) (out_array : Bytes) (h : Hasher) : IR Hasher :=
  if _h : chunks.take (MAX_SIMD_DEGREE cfg) = [] then pure h
  else do
    let chunks_array := chunks.take (MAX_SIMD_DEGREE cfg)
    let out_array ← hash_many h.chunk.platform CHUNK_LEN chunks_array h.chunk.key h.chunk.offset
      (BitVec.ofNat 64 CHUNK_LEN) h.chunk.flags Flags.CHUNK_START Flags.CHUNK_END out_array
    let h ← Hasher.push_hashes ((chunksExact OUT_LEN out_array).take chunks_array.length) h
    Hasher.update_loop cfg (chunks.drop (MAX_SIMD_DEGREE cfg)) out_array h
termination_by chunks.length
decreasing_by
  have h1 : 0 < chunks.length := by
    cases chunks with
    | nil => exact absurd List.take_nil ‹_›
    | cons c cs => simp
  have h2 : 0 < MAX_SIMD_DEGREE cfg := by unfold MAX_SIMD_DEGREE; split <;> decide
  simp only [List.length_drop]; omega

/-- lib.rs:863-919 -/
def Hasher.update_rest (cfg : Config) (h : Hasher) (input : Bytes) : IR Hasher := do
  assertR (h.chunk.len = 0)
  let out_array : Bytes := List.replicate (MAX_SIMD_DEGREE cfg * OUT_LEN) 0
  let h ← Hasher.update_loop cfg (chunksExact CHUNK_LEN input) out_array h
  assertR (h.chunk.len = 0)
  let remainder := chunksRemainder CHUNK_LEN input
  assertR (remainder.length < CHUNK_LEN)
  if remainder ≠ [] then
    let h ← Hasher.merge_loop h h.chunk.offset
    let chunk ← ChunkState.update h.chunk remainder
    return { h with chunk }
  else return h

/-- lib.rs:836-920 -/
def Hasher.update (cfg : Config) (h : Hasher) (input : Bytes) : IR Hasher := do
  let is_first_chunk := h.chunk.offset = 0
  let maybe_root := is_first_chunk ∧ input.length = CHUNK_LEN
  if maybe_root ∨ 0 < h.chunk.len then
    let want ← subN CHUNK_LEN h.chunk.len
    let take := min want input.length
    let chunk ← ChunkState.update h.chunk (input.take take)
    let h := { h with chunk }
    let input := input.drop take
    if input ≠ [] then
      assertR (h.chunk.len = CHUNK_LEN)
      let output ← h.chunk.finalize .notRoot
      let hash ← Output.to_hash output
      let h ← Hasher.push_chunk_hash h hash h.chunk.offset
      let offset ← addU64 h.chunk.offset (BitVec.ofNat 64 CHUNK_LEN)
      let chunk ← h.chunk.reset offset
      Hasher.update_rest cfg { h with chunk } input
    else return h
  else Hasher.update_rest cfg h input

/-- lib.rs:964-984 -/
def Hasher.finalize_loop (h : Hasher) (working_hash : Vector Byte 32) : List (Vector Byte 32) → IR Output
  | [] => ⟨.error .bounds, []⟩
  | [s] => pure (hash_one_parent s working_hash h.chunk.key .root h.chunk.flags h.chunk.platform)
  | s :: rest => do
    let working_hash ← Output.to_hash (hash_one_parent s working_hash h.chunk.key .notRoot h.chunk.flags h.chunk.platform)
    Hasher.finalize_loop h working_hash rest

/-- lib.rs:934-985 -/
def Hasher.finalize_xof (h : Hasher) : IR Output := do
  if h.subtree_hashes = [] then h.chunk.finalize .root
  else if 0 < h.chunk.len then
    assertR (h.needs_merge h.chunk.offset = false)
    let output ← h.chunk.finalize .notRoot
    let working_hash ← Output.to_hash output
    Hasher.finalize_loop h working_hash h.subtree_hashes
  else
    assertR (2 ≤ h.subtree_hashes.length)
    match h.subtree_hashes with
    | last :: rest => Hasher.finalize_loop h last rest
    | [] => ⟨.error .bounds, []⟩

/-- lib.rs:926-928 -/
def Hasher.finalize (h : Hasher) : IR (Vector Byte 32) := do
  let o ← Hasher.finalize_xof h
  Output.to_hash o

/-- a chain of `update` calls -/
def Hasher.updates (cfg : Config) : Hasher → List Bytes → IR Hasher
  | h, [] => pure h
  | h, s :: ss => do
    let h ← Hasher.update cfg h s
    Hasher.updates cfg h ss

/-- `Model.Hasher.session` -/
def Hasher.session (cfg : Config) (prof : Profile) : List HCall → Hasher → IR (List Bytes)
  | [], _ => pure []
  | .update s :: cs, h => do
    let h ← Hasher.update cfg h s
    Hasher.session cfg prof cs h
  | .output os :: cs, h => do
    let o ← Hasher.finalize_xof h
    let (rs, _) ← Output.run prof os o
    let rs' ← Hasher.session cfg prof cs h
    return rs ++ rs'

/-- A one-shot `_xof` function followed by calls on the `Output` it returns. -/
def oneShotRun (cfg : Config) (prof : Profile) (m : Spec.Mode) (input : Bytes) (os : List OutCall) : IR (List Bytes) := do
  let o ← oneShotXof cfg m input
  let (rs, _) ← Output.run prof os o
  return rs

end Baokeshed.Model.I
