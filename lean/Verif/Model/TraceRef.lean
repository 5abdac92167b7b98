import Verif.Model.Reference
import Verif.Model.Python

/-!
# /repo/reference_impl/reference_impl.rs and /repo/python/baokeshed.py once more, recording the calls of `compress`

The definitions repeat those of Model/Reference.lean and Model/Python.lean, in a monad that also keeps the list of
the arguments of all calls of `compress` so far, in order.  `Proofs/TraceRef.lean` proves that dropping that list
gives back the original definitions.  Functions that never call `compress` are used as they are.
-/

namespace Baokeshed.Model

/-- A computation that may fail, and what it records. -/
structure Rec (ι α : Type) where
  res : R α
  log : List ι

instance (ι : Type) : Monad (Rec ι) where
  pure a := ⟨.ok a, []⟩
  bind x f := match x.res with
    | .ok a => ⟨(f a).res, x.log ++ (f a).log⟩
    | .error e => ⟨.error e, x.log⟩

instance (ι : Type) : MonadLift R (Rec ι) where
  monadLift r := ⟨r, []⟩

end Baokeshed.Model

namespace Baokeshed.Model.RefT
open Baokeshed.Model.Ref

/-- The arguments of `compress`, reference_impl.rs:56-62. -/
structure Call where
  chaining_value : Vector Word 8
  block_words : Vector Word 16
  offset : U64
  block_len : Word
  flags : Word

abbrev TR := Rec Call

/-- reference_impl.rs:56-89 -/
def compress (chaining_value : Vector Word 8) (block_words : Vector Word 16) (offset : U64) (block_len flags : Word) :
    TR (Vector Word 16) :=
  ⟨.ok (Ref.compress chaining_value block_words offset block_len flags),
    [⟨chaining_value, block_words, offset, block_len, flags⟩]⟩

/-- reference_impl.rs:113-121 -/
def Output.chaining_value (o : Output) : TR (Vector Word 8) := do
  let words ← compress o.input_chaining_value o.block_words o.offset o.block_len o.flags
  return first_8_words words

/-- The outer loop of `root_output_bytes`, reference_impl.rs:125-138. -/
def Output.root_output_loop (o : Output) (offset : U64) (out_slice : Bytes) : TR Bytes :=
  if _h : out_slice = [] then pure []
  else do
    let out_block := out_slice.take (2 * OUT_LEN)
    let words ← compress o.input_chaining_value o.block_words offset o.block_len (o.flags ||| ROOT)
    let out_block := write_words words.toList out_block
    let offset ← addU64 offset (BitVec.ofNat 64 (2 * OUT_LEN))
    let rest ← Output.root_output_loop o offset (out_slice.drop (2 * OUT_LEN))
    return out_block ++ rest
termination_by out_slice.length
decreasing_by
  have : 0 < out_slice.length := List.length_pos_iff.2 _h
  simp only [List.length_drop, OUT_LEN]; omega

/-- reference_impl.rs:123-139 -/
def Output.root_output_bytes (o : Output) (out_slice : Bytes) : TR Bytes :=
  Output.root_output_loop o 0 out_slice

/-- The first half of the loop body of `ChunkState::update`, reference_impl.rs:177-190. -/
def ChunkState.compress_full (s : ChunkState) : TR ChunkState :=
  if s.block_len = BLOCK_LEN then do
    let block_words := wordsArray 16 s.block.toList
    let words ← compress s.chaining_value block_words s.offset (BitVec.ofNat 32 BLOCK_LEN) (s.flags ||| s.start_flag)
    let blocks_compressed ← addN 8 s.blocks_compressed 1
    return { s with
      chaining_value := first_8_words words, blocks_compressed, block := Vector.replicate 64 0, block_len := 0 }
  else return s

/-- The loop of `ChunkState::update`, reference_impl.rs:176-197. -/
def ChunkState.update_loop : (n : Nat) → ChunkState → Bytes → TR ChunkState
  | 0, s, input => if input = [] then pure s else ⟨.error .ub, []⟩
  | n + 1, s, input =>
    if input = [] then pure s
    else do
      let s ← ChunkState.compress_full s
      let (s, take) ← s.fill input
      ChunkState.update_loop n s (input.drop take)

/-- reference_impl.rs:175-198 -/
def ChunkState.update (s : ChunkState) (input : Bytes) : TR ChunkState :=
  ChunkState.update_loop input.length s input

/-- The loop of `push_chunk_chaining_value`, reference_impl.rs:286-289. -/
def Hasher.merge_loop (h : Hasher) (cv : Vector Word 8) (final_stack_len : Nat) : TR (Hasher × Vector Word 8) :=
  if final_stack_len ≤ h.subtree_stack.length then
    match _e : h.pop_stack with
    | .error e => ⟨.error e, []⟩
    | .ok (left, h') => do
      let cv ← Output.chaining_value (parent_output left cv h'.key h'.chunk_state.flags)
      Hasher.merge_loop h' cv final_stack_len
  else pure (h, cv)
termination_by h.subtree_stack.length
decreasing_by exact Ref.Hasher.pop_stack_length _e

/-- reference_impl.rs:278-291 -/
def Hasher.push_chunk_chaining_value (h : Hasher) (cv : Vector Word 8) (total_bytes : U64) : TR Hasher := do
  let final_stack_len := popcount total_bytes.toNat
  let (h, cv) ← Hasher.merge_loop h cv final_stack_len
  h.push_stack cv

/-- The first half of the loop body of `Hasher::update`, reference_impl.rs:296-302. -/
def Hasher.finish_chunk (h : Hasher) : TR Hasher :=
  if h.chunk_state.len = CHUNK_LEN then do
    let chunk_cv ← Output.chaining_value h.chunk_state.output
    let new_chunk_offset ← addU64 h.chunk_state.offset (BitVec.ofNat 64 CHUNK_LEN)
    let h ← Hasher.push_chunk_chaining_value h chunk_cv new_chunk_offset
    return { h with chunk_state := ChunkState.new h.key new_chunk_offset h.chunk_state.flags }
  else return h

/-- The loop of `Hasher::update`, reference_impl.rs:295-308. -/
def Hasher.update_loop : (n : Nat) → Hasher → Bytes → TR Hasher
  | 0, h, input => if input = [] then pure h else ⟨.error .ub, []⟩
  | n + 1, h, input =>
    if input = [] then pure h
    else do
      let h ← Hasher.finish_chunk h
      let want ← subN CHUNK_LEN h.chunk_state.len
      let take := min want input.length
      let chunk_state ← ChunkState.update h.chunk_state (input.take take)
      Hasher.update_loop n { h with chunk_state } (input.drop take)

/-- reference_impl.rs:294-309 -/
def Hasher.update (h : Hasher) (input : Bytes) : TR Hasher := Hasher.update_loop input.length h input

/-- The loop of `finalize`, reference_impl.rs:318-326. -/
def Hasher.finalize_loop (h : Hasher) (output : Output) : List (Vector Word 8) → TR Output
  | [] => pure output
  | cv :: rest => do
    let right ← Output.chaining_value output
    Hasher.finalize_loop h (parent_output cv right h.key h.chunk_state.flags) rest

/-- reference_impl.rs:312-328 -/
def Hasher.finalize (h : Hasher) (out_slice : Bytes) : TR Bytes := do
  let output ← Hasher.finalize_loop h h.chunk_state.output h.subtree_stack
  Output.root_output_bytes output out_slice

end Baokeshed.Model.RefT

namespace Baokeshed.Model.PyT
open Baokeshed.Model.Py

/-- The arguments of `compress`, baokeshed.py:89. -/
structure Call where
  cv : List Nat
  block : Bytes
  block_len : Nat
  offset : Nat
  flags : Nat

abbrev TR := Rec Call

/-- baokeshed.py:89-114 -/
def compress (cv : List Nat) (block : Bytes) (block_len offset flags : Nat) : TR (List Nat) :=
  ⟨Py.compress cv block block_len offset flags, [⟨cv, block, block_len, offset, flags⟩]⟩

/-- baokeshed.py:128-131 -/
def Output.chaining_value (o : Output) : TR Bytes := do
  let words ← compress o.cv o.block o.block_len o.offset o.flags
  bytes_from_words (words.take 8)

/-- The loop of `root_output_bytes`, baokeshed.py:136-142. -/
def Output.root_output_loop (o : Output) (out_len : Nat) : (n : Nat) → (buf : Bytes) → (offset : Nat) → TR Bytes
  | 0, buf, offset => if offset < out_len then ⟨.error .ub, []⟩ else pure buf
  | n + 1, buf, offset =>
    if offset < out_len then do
      let words ← compress o.cv o.block o.block_len offset (o.flags ||| ROOT)
      let out_bytes ← bytes_from_words words
      let take := min out_bytes.length (out_len - offset)
      Output.root_output_loop o out_len n (setSlice buf offset (offset + take) (out_bytes.take take)) (offset + take)
    else pure buf

/-- baokeshed.py:133-143 -/
def Output.root_output_bytes (o : Output) (out_len : Nat) : TR Bytes :=
  Output.root_output_loop o out_len out_len (List.replicate out_len 0) 0

/-- The loop of `hash_chunk`, baokeshed.py:150-154. -/
def hash_chunk_loop (chunk : Bytes) (offset flags : Nat) (cv : List Nat) (block_flags position : Nat) :
    TR (List Nat × Nat × Nat) :=
  if _h : BLOCK_LEN < chunk.length - position then do
    let block := slice chunk position (position + BLOCK_LEN)
    let cv ← compress cv block BLOCK_LEN offset block_flags
    hash_chunk_loop chunk offset flags (cv.take 8) flags (position + BLOCK_LEN)
  else pure (cv, block_flags, position)
termination_by chunk.length - position
decreasing_by simp only [BLOCK_LEN] at *; omega

/-- baokeshed.py:146-159 -/
def hash_chunk (chunk : Bytes) (key_words : List Nat) (offset flags : Nat) : TR Output := do
  let (cv, block_flags, position) ← hash_chunk_loop chunk offset flags key_words (flags ||| CHUNK_START) 0
  let block_len := chunk.length - position
  let block : Bytes := List.replicate BLOCK_LEN 0
  let block := setSlice block 0 block_len (chunk.drop position)
  let block_flags := block_flags ||| CHUNK_END
  return { cv, block, block_len, offset, flags := block_flags }

/-- baokeshed.py:162-164 -/
def hash_parent (left_child right_child : Output) (key_words : List Nat) (flags : Nat) : TR Output := do
  let l ← Output.chaining_value left_child
  let r ← Output.chaining_value right_child
  let node_bytes := l ++ r
  return { cv := key_words, block := node_bytes, block_len := BLOCK_LEN, offset := 0, flags := PARENT ||| flags }

/-- baokeshed.py:177-188 -/
def hash_recurse : (n : Nat) → (input_bytes : Bytes) → (key_words : List Nat) → (offset flags : Nat) → TR Output
  | 0, _, _, _, _ => ⟨.error .stack, []⟩
  | n + 1, input_bytes, key_words, offset, flags =>
    if input_bytes.length ≤ CHUNK_LEN then hash_chunk input_bytes key_words offset flags
    else do
      let left := input_bytes.take (left_len input_bytes.length)
      let right := input_bytes.drop left.length
      let right_offset := offset + left.length
      let left_output ← hash_recurse n left key_words offset flags
      let right_output ← hash_recurse n right key_words right_offset flags
      hash_parent left_output right_output key_words flags

/-- baokeshed.py:191-193 -/
def hash_internal (input_bytes : Bytes) (key_words : List Nat) (flags out_len : Nat) : TR Bytes := do
  let output ← hash_recurse (input_bytes.length + 1) input_bytes key_words 0 flags
  Output.root_output_bytes output out_len

/-- baokeshed.py:199-200 -/
def hash (input_bytes : Bytes) (out_len : Nat) : TR Bytes := hash_internal input_bytes IV 0 out_len

/-- baokeshed.py:203-205 -/
def keyed_hash (key_bytes input_bytes : Bytes) (out_len : Nat) : TR Bytes :=
  hash_internal input_bytes (words_from_bytes key_bytes) KEYED_HASH out_len

/-- baokeshed.py:208-210 -/
def derive_key (key_bytes context_bytes : Bytes) (out_len : Nat) : TR Bytes :=
  hash_internal context_bytes (words_from_bytes key_bytes) DERIVE_KEY out_len

end Baokeshed.Model.PyT
