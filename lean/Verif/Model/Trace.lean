import Verif.Model.Hasher
import Verif.Model.Api

/-!
# /repo/src/lib.rs once more, recording the calls of the compression function

The definitions repeat those of Model/Lib.lean and Model/Hasher.lean, in a monad that also keeps the list of
the arguments of all compressions performed so far, in order.  `Proofs/Trace.lean` proves that dropping that
list gives back the original definitions.

The SIMD versions of `hash_many` perform the compressions of several inputs at the same time, one per lane.
They are recorded in the order in which the portable version performs them.
-/

namespace Baokeshed.Model

/-- A call on a `Hasher`: `update`, or `finalize_xof` followed by calls on the `Output` it returns. -/
inductive HCall where
  | update (s : Bytes)
  | output (cs : List OutCall)

/-- A sequence of calls on one `Hasher`; the blocks of output returned, in order. -/
def Hasher.session (cfg : Config) (prof : Profile) : List HCall → Hasher → R (List Bytes)
  | [], _ => .ok []
  | .update s :: cs, h => do
    let h ← h.update cfg s
    session cfg prof cs h
  | .output os :: cs, h => do
    let o ← h.finalize_xof
    let (rs, _) ← o.run prof os
    let rs' ← session cfg prof cs h
    return rs ++ rs'

end Baokeshed.Model

namespace Baokeshed.Model.T
open Baokeshed.Model

/-- A computation that may panic, and the compressions it performs. -/
structure TR (α : Type) where
  res : R α
  log : List Spec.Input

instance : Monad TR where
  pure a := ⟨.ok a, []⟩
  bind x f := match x.res with
    | .ok a => ⟨(f a).res, x.log ++ (f a).log⟩
    | .error e => ⟨.error e, x.log⟩

instance : MonadLift R TR where
  monadLift r := ⟨r, []⟩

/-- platform.rs:53-69 -/
def compress (p : Platform) (cv : Vector Word 8) (block : Vector Byte 64) (block_len : Byte)
    (offset : U64) (flags : Byte) : TR (Vector Word 8) :=
  ⟨.ok (p.compress cv block block_len offset flags), [⟨cv, block, block_len, offset, flags⟩]⟩

/-- platform.rs:71-87 -/
def compress_xof (p : Platform) (cv : Vector Word 8) (block : Vector Byte 64) (block_len : Byte)
    (offset : U64) (flags : Byte) : TR (Vector Byte 64) :=
  ⟨.ok (p.compress_xof cv block block_len offset flags), [⟨cv, block, block_len, offset, flags⟩]⟩

/-- The loop of `hash1`, portable.rs:139-153. -/
def hash1_loop (flags flags_end : Byte) (offset : U64) (cv : Vector Word 8) (block_flags : Byte)
    (slice : Bytes) : TR (Vector Word 8) :=
  if _h : BLOCK_LEN ≤ slice.length then do
    let block_flags := if slice.length = BLOCK_LEN then block_flags ||| flags_end else block_flags
    let block ← arrayRef slice 0 BLOCK_LEN
    let cv ← compress .portable cv block (BitVec.ofNat 8 BLOCK_LEN) offset block_flags
    hash1_loop flags flags_end offset cv flags (slice.drop BLOCK_LEN)
  else pure cv
termination_by slice.length
decreasing_by simp [BLOCK_LEN] at *; omega

/-- portable.rs:127-155 -/
def hash1 (input : Bytes) (key : Vector Word 8) (offset : U64) (flags flags_start flags_end : Byte) :
    TR (Vector Byte 32) := do
  assertR (input.length % BLOCK_LEN = 0)
  let cv ← hash1_loop flags flags_end offset key (flags ||| flags_start) input
  return bytes_from_state_words cv

/-- The loop of `hash_many`, portable.rs:168-179 -/
def hash_many_loop (key : Vector Word 8) (offset_delta : U64) (flags flags_start flags_end : Byte) :
    (inputs : List Bytes) → (offset : U64) → (out : Bytes) → TR Bytes
  | [], _, out => pure out
  | input :: inputs, offset, out =>
    if out.length < OUT_LEN then pure out
    else do
      let h ← hash1 input key offset flags flags_start flags_end
      let offset ← addU64 offset offset_delta
      let rest ← hash_many_loop key offset_delta flags flags_start flags_end inputs offset
        (out.drop OUT_LEN)
      return h.toList ++ rest

/-- portable.rs:157-180 -/
def hash_many_portable (inputs : List Bytes) (key : Vector Word 8) (offset offset_delta : U64)
    (flags flags_start flags_end : Byte) (out : Bytes) : TR Bytes := do
  assertR (inputs.length * OUT_LEN ≤ out.length)
  hash_many_loop key offset_delta flags flags_start flags_end inputs offset out

/-- platform.rs:89-140.  The result is that of the platform; the compressions are recorded in the order of
the portable version. -/
def hash_many (p : Platform) (capacity : Nat) (inputs : List Bytes) (key : Vector Word 8)
    (offset offset_delta : U64) (flags flags_start flags_end : Byte) (out : Bytes) : TR Bytes :=
  ⟨p.hash_many capacity inputs key offset offset_delta flags flags_start flags_end out,
    (hash_many_portable inputs key offset offset_delta flags flags_start flags_end out).log⟩

/-! ## Output -/

/-- lib.rs:233-243 -/
def Output.read (prof : Profile) (o : Output) : TR (Vector Byte 64 × Output) := do
  let output ← compress_xof o.platform o.cv o.block o.block_len o.offset o.flags
  let offset ← (match prof with
    | .debug => addU64 o.offset (BitVec.ofNat 64 (2 * OUT_LEN))
    | .release => .ok (o.offset + BitVec.ofNat 64 (2 * OUT_LEN)) : R U64)
  return (output, { o with offset })

/-- lib.rs:245-254 -/
def Output.to_hash (o : Output) : TR (Vector Byte 32) := do
  let cv ← compress o.platform o.cv o.block o.block_len o.offset o.flags
  return bytes_from_state_words cv

/-- A sequence of calls on one `Output` -/
def Output.run (prof : Profile) : List OutCall → Output → TR (List Bytes × Output)
  | [], o => pure ([], o)
  | .read :: cs, o => do
    let (b, o) ← Output.read prof o
    let (rs, o) ← Output.run prof cs o
    return (b.toList :: rs, o)
  | .toHash :: cs, o => do
    let h ← Output.to_hash o
    let (rs, o) ← Output.run prof cs o
    return (h.toList :: rs, o)

/-! ## One-shot functions -/

/-- lib.rs:290-326 -/
def hash_one_chunk_loop (p : Platform) (chunk : Bytes) (offset : U64) (is_root : IsRoot) (flags : Byte)
    (cv : Vector Word 8) (block_flags : Byte) (block_offset : Nat) : TR Output :=
  if _h : block_offset + BLOCK_LEN ≤ chunk.length then do
    if block_offset + BLOCK_LEN = chunk.length then
      let block ← arrayRef chunk block_offset BLOCK_LEN
      return { cv, block, block_len := BitVec.ofNat 8 BLOCK_LEN, offset,
               flags := block_flags ||| Flags.CHUNK_END ||| is_root.flag, platform := p }
    else
      let block ← arrayRef chunk block_offset BLOCK_LEN
      let cv ← compress p cv block (BitVec.ofNat 8 BLOCK_LEN) offset block_flags
      hash_one_chunk_loop p chunk offset is_root flags cv flags (block_offset + BLOCK_LEN)
  else do
    let block_len ← subN chunk.length block_offset
    let last_block ← writeAt (List.replicate BLOCK_LEN 0) 0 (chunk.drop block_offset)
    let block ← arrayRef last_block 0 BLOCK_LEN
    return { cv, block, block_len := BitVec.ofNat 8 block_len, offset,
             flags := block_flags ||| Flags.CHUNK_END ||| is_root.flag, platform := p }
termination_by chunk.length - block_offset
decreasing_by simp [BLOCK_LEN] at *; omega

/-- lib.rs:276-327 -/
def hash_one_chunk (chunk : Bytes) (key : Vector Word 8) (offset : U64) (is_root : IsRoot)
    (flags : Byte) (p : Platform) : TR Output := do
  assertR (is_root = .root → offset = 0)
  hash_one_chunk_loop p chunk offset is_root flags key (flags ||| Flags.CHUNK_START) 0

/-- lib.rs:332-377 -/
def hash_chunks_parallel (cfg : Config) (input : Bytes) (key : Vector Word 8) (offset : U64)
    (flags : Byte) (p : Platform) (out : Bytes) : TR (Nat × Bytes) := do
  assertR (input ≠ [])
  assertR (input.length ≤ MAX_SIMD_DEGREE cfg * CHUNK_LEN)
  assertR (offset % BitVec.ofNat 64 CHUNK_LEN = 0)
  let chunks_array ← pushAll (MAX_SIMD_DEGREE cfg) (chunksExact CHUNK_LEN input)
  let out ← hash_many p CHUNK_LEN chunks_array key offset (BitVec.ofNat 64 CHUNK_LEN) flags
    Flags.CHUNK_START Flags.CHUNK_END out
  let chunks_so_far := chunks_array.length
  let remainder := chunksRemainder CHUNK_LEN input
  if remainder ≠ [] then
    let d ← mulU64 (BitVec.ofNat 64 chunks_so_far) (BitVec.ofNat 64 CHUNK_LEN)
    let off ← addU64 offset d
    let output ← hash_one_chunk remainder key off .notRoot flags p
    let h ← Output.to_hash output
    let out ← writeAt out (chunks_so_far * OUT_LEN) h.toList
    return (chunks_so_far + 1, out)
  else
    return (chunks_so_far, out)

/-- lib.rs:383-419 -/
def hash_parents_parallel (cfg : Config) (child_hashes : Bytes) (key : Vector Word 8) (flags : Byte)
    (p : Platform) (out : Bytes) : TR (Nat × Bytes) := do
  assertR (child_hashes.length % OUT_LEN = 0)
  let num_children := child_hashes.length / OUT_LEN
  assertR (2 ≤ num_children)
  assertR (num_children ≤ 2 * MAX_SIMD_DEGREE_OR_2 cfg)
  let parents_array ← pushAll (MAX_SIMD_DEGREE_OR_2 cfg) (chunksExact BLOCK_LEN child_hashes)
  let out ← hash_many p BLOCK_LEN parents_array key 0 0 (flags ||| Flags.PARENT) 0 0 out
  let parents_so_far := parents_array.length
  let remainder := chunksRemainder BLOCK_LEN child_hashes
  if remainder ≠ [] then
    assertR (remainder.length = OUT_LEN)
    let out ← writeAt out (parents_so_far * OUT_LEN) remainder
    return (parents_so_far + 1, out)
  else
    return (parents_so_far, out)

/-- lib.rs:450-512 -/
def hash_recurse (cfg : Config) (input : Bytes) (key : Vector Word 8) (offset : U64) (flags : Byte)
    (p : Platform) (out : Bytes) : TR (Nat × Bytes) :=
  if input.length ≤ p.simd_degree * CHUNK_LEN then
    hash_chunks_parallel cfg input key offset flags p out
  else
    match _hl : left_len cfg.usizeBits input.length with
    | .error e => ⟨.error e, []⟩
    | .ok l =>
      let left := input.take l
      let right := input.drop l
      do
        let right_off ← addU64 offset (BitVec.ofNat 64 left.length)
        assertR (popcount p.simd_degree = 1)
        let children_array : Bytes := List.replicate (2 * MAX_SIMD_DEGREE_OR_2 cfg * OUT_LEN) 0
        let degree := if left.length = CHUNK_LEN then 1 else max p.simd_degree 2
        let (left_out, right_out) ← splitAtR children_array (degree * OUT_LEN)
        let (left_n, left_out) ← hash_recurse cfg left key offset flags p left_out
        let (right_n, right_out) ← hash_recurse cfg right key right_off flags p right_out
        let children_array := left_out ++ right_out
        assertR (left_n = degree)
        assertR (1 ≤ right_n ∧ right_n ≤ left_n)
        if left_n = 1 then
          let c ← sliceTo children_array (2 * OUT_LEN)
          let out ← writeAt out 0 c
          return (2, out)
        else
          let num_children := left_n + right_n
          let c ← sliceTo children_array (num_children * OUT_LEN)
          hash_parents_parallel cfg c key flags p out
termination_by input.length
decreasing_by
  · have := left_len_lt _hl
    simp only [List.length_take]; omega
  · have := left_len_pos _hl
    have := left_len_lt _hl
    simp only [List.length_drop]; omega

/-- lib.rs:523-527 -/
def condense_loop (cfg : Config) (key : Vector Word 8) (flags : Byte) (p : Platform) :
    (n : Nat) → (children out_array : Bytes) → TR Bytes
  | 0, _, _ => ⟨.error .ub, []⟩
  | n + 1, children, out_array =>
    if BLOCK_LEN < children.length then do
      let (out_n, out_array) ← hash_parents_parallel cfg children key flags p out_array
      let o ← sliceTo out_array (out_n * OUT_LEN)
      let children ← writeAt children 0 o
      let children ← sliceTo children (out_n * OUT_LEN)
      condense_loop cfg key flags p n children out_array
    else pure children

/-- lib.rs:514-536 -/
def condense_root (cfg : Config) (children : Bytes) (key : Vector Word 8) (flags : Byte)
    (p : Platform) : TR Output := do
  assertR (children.length % OUT_LEN = 0)
  assertR (BLOCK_LEN ≤ children.length)
  let out_array : Bytes := List.replicate (MAX_SIMD_DEGREE cfg * OUT_LEN / 2) 0
  let children ← condense_loop cfg key flags p (children.length + 1) children out_array
  let block ← arrayRef children 0 BLOCK_LEN
  return { cv := key, block, block_len := BitVec.ofNat 8 BLOCK_LEN, offset := 0,
           flags := flags ||| Flags.PARENT ||| Flags.ROOT, platform := p }

/-- lib.rs:538-552 -/
def hash_internal (cfg : Config) (input : Bytes) (key_words : Vector Word 8) (flags : Byte) :
    TR Output := do
  let p := Platform.detect cfg
  if input.length ≤ CHUNK_LEN then
    hash_one_chunk input key_words 0 .root flags p
  else
    let children_array : Bytes := List.replicate (MAX_SIMD_DEGREE_OR_2 cfg * OUT_LEN) 0
    let (num_children, children_array) ← hash_recurse cfg input key_words 0 flags p children_array
    let c ← sliceTo children_array (num_children * OUT_LEN)
    condense_root cfg c key_words flags p

/-- lib.rs:560, 574, 593 -/
def oneShotXof (cfg : Config) : Spec.Mode → Bytes → TR Output
  | .hash, input => hash_internal cfg input IV 0
  | .keyedHash k, input => hash_internal cfg input (words_from_key_bytes k) Flags.KEYED_HASH
  | .deriveKey k, input => hash_internal cfg input (words_from_key_bytes k) Flags.DERIVE_KEY

/-- lib.rs:555, 567, 584 -/
def oneShot (cfg : Config) (m : Spec.Mode) (input : Bytes) : TR (Vector Byte 32) := do
  let o ← oneShotXof cfg m input
  Output.to_hash o

/-! ## Incremental hashing -/

/-- lib.rs:678-690 -/
def ChunkState.update_blocks (s : ChunkState) (input : Bytes) : TR (ChunkState × Bytes) :=
  if _h : BLOCK_LEN < input.length then do
    assertR (s.buf_len = 0)
    let block_flags := s.flags ||| s.maybe_chunk_start_flag
    let block ← arrayRef input 0 BLOCK_LEN
    let cv ← compress s.platform s.cv block (BitVec.ofNat 8 BLOCK_LEN) s.offset block_flags
    let count ← addN 16 s.count BLOCK_LEN
    ChunkState.update_blocks { s with cv, count } (input.drop BLOCK_LEN)
  else pure (s, input)
termination_by input.length
decreasing_by simp [BLOCK_LEN] at *; omega

/-- lib.rs:660-676 -/
def ChunkState.update_first (s : ChunkState) (input : Bytes) : TR (ChunkState × Bytes) :=
  if 0 < s.buf_len then do
    let (s, input) ← s.fill_buf input
    if input ≠ [] then
      assertR (s.buf_len = BLOCK_LEN)
      let block_flags := s.flags ||| s.maybe_chunk_start_flag
      let cv ← compress s.platform s.cv s.buf (BitVec.ofNat 8 BLOCK_LEN) s.offset block_flags
      let count ← addN 16 s.count BLOCK_LEN
      return ({ s with cv, count, buf_len := 0, buf := Vector.replicate 64 0 }, input)
    else return (s, input)
  else pure (s, input)

/-- lib.rs:659-695 -/
def ChunkState.update (s : ChunkState) (input : Bytes) : TR ChunkState := do
  let (s, input) ← ChunkState.update_first s input
  let (s, input) ← ChunkState.update_blocks s input
  let (s, input) ← s.fill_buf input
  assertR (input = [])
  assertR (s.len ≤ CHUNK_LEN)
  return s

/-- lib.rs:805-819 -/
def Hasher.merge_parent (h : Hasher) : TR Hasher :=
  match h.subtree_hashes with
  | right :: left :: rest => do
    let parent_hash ← Output.to_hash (hash_one_parent left right h.chunk.key .notRoot h.chunk.flags h.chunk.platform)
    return { h with subtree_hashes := parent_hash :: rest }
  | _ => ⟨.error .assert, []⟩

theorem Hasher.merge_parent_res (h : Hasher) : (Hasher.merge_parent h).res = h.merge_parent := by
  unfold Hasher.merge_parent Model.Hasher.merge_parent
  rcases h.subtree_hashes with _ | ⟨a, _ | ⟨b, l⟩⟩ <;> rfl

/-- lib.rs:824-826 and 914-916 -/
def Hasher.merge_loop (h : Hasher) (offset : U64) : TR Hasher :=
  if h.needs_merge offset then
    match _e : (Hasher.merge_parent h).res with
    | .error e => ⟨.error e, (Hasher.merge_parent h).log⟩
    | .ok h' => ⟨(Hasher.merge_loop h' offset).res, (Hasher.merge_parent h).log ++ (Hasher.merge_loop h' offset).log⟩
  else pure h
termination_by h.subtree_hashes.length
decreasing_by
  all_goals
    rw [Hasher.merge_parent_res] at _e
    exact Model.Hasher.merge_parent_length _e

/-- lib.rs:821-828 -/
def Hasher.push_chunk_hash (h : Hasher) (hash : Vector Byte 32) (offset : U64) : TR Hasher := do
  let h ← Hasher.merge_loop h offset
  if h.subtree_hashes.length < MAX_DEPTH then
    pure { h with subtree_hashes := hash :: h.subtree_hashes }
  else ⟨.error .capacity, []⟩

/-- lib.rs:892-899 -/
def Hasher.push_hashes : List Bytes → Hasher → TR Hasher
  | [], h => pure h
  | c :: cs, h => do
    let hash ← arrayRef c 0 OUT_LEN
    let h ← Hasher.push_chunk_hash h hash h.chunk.offset
    let offset ← addU64 h.chunk.offset (BitVec.ofNat 64 CHUNK_LEN)
    Hasher.push_hashes cs { h with chunk := { h.chunk with offset } }

/-- lib.rs:875-901 -/
def Hasher.update_loop (cfg : Config) (chunks : List Bytes) (out_array : Bytes) (h : Hasher) : TR Hasher :=
  if _h : chunks.take (MAX_SIMD_DEGREE cfg) = [] then pure h
  else do
    let chunks_array := chunks.take (MAX_SIMD_DEGREE cfg)
    let out_array ← hash_many h.chunk.platform CHUNK_LEN chunks_array h.chunk.key h.chunk.offset
      (BitVec.ofNat 64 CHUNK_LEN) h.chunk.flags Flags.CHUNK_START Flags.CHUNK_END out_array
    let h ← Hasher.push_hashes ((chunksExact OUT_LEN out_array).take chunks_array.length) h
    Hasher.update_loop cfg (chunks.drop (MAX_SIMD_DEGREE cfg)) out_array h
termination_by chunks.length
decreasing_by
  have h1 : 0 < chunks.length := by
    cases chunks with
    | nil => exact absurd List.take_nil ‹_›
    | cons c cs => simp
  have h2 : 0 < MAX_SIMD_DEGREE cfg := by unfold MAX_SIMD_DEGREE; split <;> decide
  simp only [List.length_drop]; omega

/-- lib.rs:863-919 -/
def Hasher.update_rest (cfg : Config) (h : Hasher) (input : Bytes) : TR Hasher := do
  assertR (h.chunk.len = 0)
  let out_array : Bytes := List.replicate (MAX_SIMD_DEGREE cfg * OUT_LEN) 0
  let h ← Hasher.update_loop cfg (chunksExact CHUNK_LEN input) out_array h
  assertR (h.chunk.len = 0)
  let remainder := chunksRemainder CHUNK_LEN input
  assertR (remainder.length < CHUNK_LEN)
  if remainder ≠ [] then
    let h ← Hasher.merge_loop h h.chunk.offset
    let chunk ← ChunkState.update h.chunk remainder
    return { h with chunk }
  else return h

/-- lib.rs:836-920 -/
def Hasher.update (cfg : Config) (h : Hasher) (input : Bytes) : TR Hasher := do
  let is_first_chunk := h.chunk.offset = 0
  let maybe_root := is_first_chunk ∧ input.length = CHUNK_LEN
  if maybe_root ∨ 0 < h.chunk.len then
    let want ← subN CHUNK_LEN h.chunk.len
    let take := min want input.length
    let chunk ← ChunkState.update h.chunk (input.take take)
    let h := { h with chunk }
    let input := input.drop take
    if input ≠ [] then
      assertR (h.chunk.len = CHUNK_LEN)
      let output ← h.chunk.finalize .notRoot
      let hash ← Output.to_hash output
      let h ← Hasher.push_chunk_hash h hash h.chunk.offset
      let offset ← addU64 h.chunk.offset (BitVec.ofNat 64 CHUNK_LEN)
      let chunk ← h.chunk.reset offset
      Hasher.update_rest cfg { h with chunk } input
    else return h
  else Hasher.update_rest cfg h input

/-- lib.rs:964-984 -/
def Hasher.finalize_loop (h : Hasher) (working_hash : Vector Byte 32) : List (Vector Byte 32) → TR Output
  | [] => ⟨.error .bounds, []⟩
  | [s] => pure (hash_one_parent s working_hash h.chunk.key .root h.chunk.flags h.chunk.platform)
  | s :: rest => do
    let working_hash ← Output.to_hash (hash_one_parent s working_hash h.chunk.key .notRoot h.chunk.flags h.chunk.platform)
    Hasher.finalize_loop h working_hash rest

/-- lib.rs:934-985 -/
def Hasher.finalize_xof (h : Hasher) : TR Output := do
  if h.subtree_hashes = [] then h.chunk.finalize .root
  else if 0 < h.chunk.len then
    assertR (h.needs_merge h.chunk.offset = false)
    let output ← h.chunk.finalize .notRoot
    let working_hash ← Output.to_hash output
    Hasher.finalize_loop h working_hash h.subtree_hashes
  else
    assertR (2 ≤ h.subtree_hashes.length)
    match h.subtree_hashes with
    | last :: rest => Hasher.finalize_loop h last rest
    | [] => ⟨.error .bounds, []⟩

/-- lib.rs:926-928 -/
def Hasher.finalize (h : Hasher) : TR (Vector Byte 32) := do
  let o ← Hasher.finalize_xof h
  Output.to_hash o

/-- a chain of `update` calls -/
def Hasher.updates (cfg : Config) : Hasher → List Bytes → TR Hasher
  | h, [] => pure h
  | h, s :: ss => do
    let h ← Hasher.update cfg h s
    Hasher.updates cfg h ss

/-- `Model.Hasher.session` -/
def Hasher.session (cfg : Config) (prof : Profile) : List HCall → Hasher → TR (List Bytes)
  | [], _ => pure []
  | .update s :: cs, h => do
    let h ← Hasher.update cfg h s
    Hasher.session cfg prof cs h
  | .output os :: cs, h => do
    let o ← Hasher.finalize_xof h
    let (rs, _) ← Output.run prof os o
    let rs' ← Hasher.session cfg prof cs h
    return rs ++ rs'

/-- A one-shot `_xof` function followed by calls on the `Output` it returns. -/
def oneShotRun (cfg : Config) (prof : Profile) (m : Spec.Mode) (input : Bytes) (os : List OutCall) : TR (List Bytes) := do
  let o ← oneShotXof cfg m input
  let (rs, _) ← Output.run prof os o
  return rs

end Baokeshed.Model.T
