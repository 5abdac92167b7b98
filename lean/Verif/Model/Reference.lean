import Verif.Basic

/-!
# Model of /repo/reference_impl/reference_impl.rs

This file of the repository is self-contained; so is the model.  `subtree_stack: [[u32; 8]; 53]`
with `subtree_stack_len: u8` is a list whose head is the top of the stack (entries above the top are
never read); writing at index 53 fails, decrementing the length 0 fails.  `block_len` and
`blocks_compressed` (`u8`) are natural numbers with overflow checks at 8 bits.
-/

namespace Baokeshed.Model.Ref

/-- reference_impl.rs:4 -/
abbrev OUT_LEN : Nat := 32
/-- reference_impl.rs:6 -/
abbrev BLOCK_LEN : Nat := 64
/-- reference_impl.rs:7 -/
abbrev CHUNK_LEN : Nat := 2048
/-- reference_impl.rs:8 -/
abbrev ROUNDS : Nat := 7

/-- reference_impl.rs:10 -/
def CHUNK_START : Word := 1
/-- reference_impl.rs:11 -/
def CHUNK_END : Word := 2
/-- reference_impl.rs:12 -/
def PARENT : Word := 4
/-- reference_impl.rs:13 -/
def ROOT : Word := 8
/-- reference_impl.rs:14 -/
def KEYED_HASH : Word := 16
/-- reference_impl.rs:15 -/
def DERIVE_KEY : Word := 32

/-- reference_impl.rs:17-19 -/
def IV : Vector Word 8 :=
  #v[0x6A09E667, 0xBB67AE85, 0x3C6EF372, 0xA54FF53A,
     0x510E527F, 0x9B05688C, 0x1F83D9AB, 0x5BE0CD19]

/-- reference_impl.rs:21-29 -/
def MSG_SCHEDULE : Vector (Vector (Fin 16) 16) ROUNDS :=
  #v[#v[0, 1, 2, 3, 4, 5, 6, 7, 8, 9, 10, 11, 12, 13, 14, 15],
     #v[14, 10, 4, 8, 9, 15, 13, 6, 1, 12, 0, 2, 11, 7, 5, 3],
     #v[11, 8, 12, 0, 5, 2, 15, 13, 10, 14, 3, 6, 7, 1, 9, 4],
     #v[7, 9, 3, 1, 13, 12, 11, 14, 2, 6, 5, 10, 4, 0, 15, 8],
     #v[9, 0, 5, 7, 2, 4, 10, 15, 14, 1, 11, 12, 6, 8, 3, 13],
     #v[2, 12, 6, 10, 0, 11, 8, 3, 4, 13, 7, 5, 15, 14, 1, 9],
     #v[12, 5, 1, 15, 14, 13, 4, 10, 0, 7, 6, 3, 9, 2, 8, 11]]

/-- reference_impl.rs:32-41 -/
def g (state : Vector Word 16) (a b c d : Fin 16) (mx my : Word) : Vector Word 16 :=
  let state := state.set a (state[a] + state[b] + mx)
  let state := state.set d ((state[d] ^^^ state[a]).rotateRight 16)
  let state := state.set c (state[c] + state[d])
  let state := state.set b ((state[b] ^^^ state[c]).rotateRight 12)
  let state := state.set a (state[a] + state[b] + my)
  let state := state.set d ((state[d] ^^^ state[a]).rotateRight 8)
  let state := state.set c (state[c] + state[d])
  let state := state.set b ((state[b] ^^^ state[c]).rotateRight 7)
  state

/-- reference_impl.rs:43-54 -/
def round (state : Vector Word 16) (m : Vector Word 16) (schedule : Vector (Fin 16) 16) : Vector Word 16 :=
  -- Mix the columns.
  let state := g state 0 4 8 12 m[schedule[0]] m[schedule[1]]
  let state := g state 1 5 9 13 m[schedule[2]] m[schedule[3]]
  let state := g state 2 6 10 14 m[schedule[4]] m[schedule[5]]
  let state := g state 3 7 11 15 m[schedule[6]] m[schedule[7]]
  -- Mix the diagonals.
  let state := g state 0 5 10 15 m[schedule[8]] m[schedule[9]]
  let state := g state 1 6 11 12 m[schedule[10]] m[schedule[11]]
  let state := g state 2 7 8 13 m[schedule[12]] m[schedule[13]]
  let state := g state 3 4 9 14 m[schedule[14]] m[schedule[15]]
  state

/-- One iteration of the last loop of `compress`, reference_impl.rs:85-86 -/
def feed (chaining_value : Vector Word 8) (state : Vector Word 16) (i : Fin 8) : Vector Word 16 :=
  let state := state.set i.val (state[i.val] ^^^ state[i.val + 8])
  state.set (i.val + 8) (state[i.val + 8] ^^^ chaining_value[i])

/-- reference_impl.rs:56-89 -/
def compress (chaining_value : Vector Word 8) (block_words : Vector Word 16) (offset : U64) (block_len flags : Word) :
    Vector Word 16 :=
  let state : Vector Word 16 :=
    #v[chaining_value[0], chaining_value[1], chaining_value[2], chaining_value[3],
       chaining_value[4], chaining_value[5], chaining_value[6], chaining_value[7],
       IV[0], IV[1], IV[2], IV[3],
       offset.setWidth 32, (offset >>> 32).setWidth 32, block_len, flags]
  let state := (List.finRange ROUNDS).foldl (fun state r => round state block_words MSG_SCHEDULE[r]) state
  (List.finRange 8).foldl (feed chaining_value) state

/-- reference_impl.rs:91-93 -/
def first_8_words (compression_output : Vector Word 16) : Vector Word 8 :=
  Vector.ofFn fun i : Fin 8 => compression_output[i.val]

/-- reference_impl.rs:95-99.  `bytes.chunks_exact(4)` zipped with `words`. -/
def words_from_litte_endian_bytes : Bytes → List Word → List Word
  | b0 :: b1 :: b2 :: b3 :: bytes, _ :: words => leWord b0 b1 b2 b3 :: words_from_litte_endian_bytes bytes words
  | _, words => words

theorem length_words_from (bytes : Bytes) (words : List Word) :
    (words_from_litte_endian_bytes bytes words).length = words.length := by
  induction bytes, words using words_from_litte_endian_bytes.induct with
  | case1 b0 b1 b2 b3 bytes w words ih => rw [words_from_litte_endian_bytes, List.length_cons, ih, List.length_cons]
  | case2 bytes words h => rw [words_from_litte_endian_bytes]; exact h

/-- `let mut words = [0; N]; words_from_litte_endian_bytes(bytes, &mut words);`
(reference_impl.rs:178-179, 201-202, 256-257, 263-264) -/
def wordsArray (n : Nat) (bytes : Bytes) : Vector Word n :=
  ⟨(words_from_litte_endian_bytes bytes (List.replicate n 0)).toArray, by simp [length_words_from]⟩

/-- reference_impl.rs:104-110 -/
structure Output where
  input_chaining_value : Vector Word 8
  block_words : Vector Word 16
  offset : U64
  block_len : Word
  flags : Word

/-- reference_impl.rs:113-121 -/
def Output.chaining_value (o : Output) : Vector Word 8 :=
  first_8_words (compress o.input_chaining_value o.block_words o.offset o.block_len o.flags)

/-- The inner loop of `root_output_bytes`, reference_impl.rs:134-136: words zipped with
`out_block.chunks_mut(4)`. -/
def write_words : List Word → Bytes → Bytes
  | [], out => out
  | w :: ws, out =>
    if out = [] then []
    else (leBytes w).take (min 4 out.length) ++ write_words ws (out.drop 4)

/-- The outer loop of `root_output_bytes`, reference_impl.rs:125-138, over `out_slice.chunks_mut(64)`. -/
def Output.root_output_loop (o : Output) (offset : U64) (out_slice : Bytes) : R Bytes :=
  if _h : out_slice = [] then .ok []
  else do
    let out_block := out_slice.take (2 * OUT_LEN)
    let words := compress o.input_chaining_value o.block_words offset o.block_len (o.flags ||| ROOT)
    let out_block := write_words words.toList out_block
    let offset ← addU64 offset (BitVec.ofNat 64 (2 * OUT_LEN))
    let rest ← root_output_loop o offset (out_slice.drop (2 * OUT_LEN))
    return out_block ++ rest
termination_by out_slice.length
decreasing_by
  have : 0 < out_slice.length := List.length_pos_iff.2 _h
  simp only [List.length_drop, OUT_LEN]; omega

/-- reference_impl.rs:123-139.  `out_slice` is the old contents; the result is the new contents. -/
def Output.root_output_bytes (o : Output) (out_slice : Bytes) : R Bytes :=
  o.root_output_loop 0 out_slice

/-- reference_impl.rs:142-149 -/
structure ChunkState where
  chaining_value : Vector Word 8
  offset : U64
  block : Vector Byte 64
  block_len : Nat
  blocks_compressed : Nat
  flags : Word

namespace ChunkState

/-- reference_impl.rs:152-161 -/
def new (key : Vector Word 8) (offset : U64) (flags : Word) : ChunkState where
  chaining_value := key
  offset := offset
  block := Vector.replicate 64 0
  block_len := 0
  blocks_compressed := 0
  flags := flags

/-- reference_impl.rs:163-165 -/
def len (s : ChunkState) : Nat := BLOCK_LEN * s.blocks_compressed + s.block_len

/-- reference_impl.rs:167-173 -/
def start_flag (s : ChunkState) : Word := if s.blocks_compressed = 0 then CHUNK_START else 0

/-- The first half of the loop body of `update`, reference_impl.rs:177-190. -/
def compress_full (s : ChunkState) : R ChunkState :=
  if s.block_len = BLOCK_LEN then do
    let block_words := wordsArray 16 s.block.toList
    let chaining_value := first_8_words (compress s.chaining_value block_words s.offset
      (BitVec.ofNat 32 BLOCK_LEN) (s.flags ||| s.start_flag))
    let blocks_compressed ← addN 8 s.blocks_compressed 1
    return { s with chaining_value, blocks_compressed, block := Vector.replicate 64 0, block_len := 0 }
  else return s

/-- The second half, reference_impl.rs:192-196.  Returns the state and the number of bytes taken. -/
def fill (s : ChunkState) (input : Bytes) : R (ChunkState × Nat) := do
  let want ← subN BLOCK_LEN s.block_len
  let take := min want input.length
  let block ← writeAt s.block.toList s.block_len (input.take take)
  let block ← arrayRef block 0 BLOCK_LEN
  let block_len ← addN 8 s.block_len take
  return ({ s with block, block_len }, take)

/-- The loop of `update`, reference_impl.rs:176-197.  The bound `n` on the number of iterations is
not in the source; every iteration takes at least one byte. -/
def update_loop : (n : Nat) → ChunkState → Bytes → R ChunkState
  | 0, s, input => if input = [] then .ok s else .error .ub
  | n + 1, s, input =>
    if input = [] then .ok s
    else do
      let s ← s.compress_full
      let (s, take) ← s.fill input
      update_loop n s (input.drop take)

/-- reference_impl.rs:175-198 -/
def update (s : ChunkState) (input : Bytes) : R ChunkState := update_loop input.length s input

/-- reference_impl.rs:200-210 -/
def output (s : ChunkState) : Output where
  input_chaining_value := s.chaining_value
  block_words := wordsArray 16 s.block.toList
  block_len := BitVec.ofNat 32 s.block_len
  offset := s.offset
  flags := s.flags ||| s.start_flag ||| CHUNK_END

end ChunkState

/-- reference_impl.rs:213-229 -/
def parent_output (left_child_cv right_child_cv key : Vector Word 8) (flags : Word) : Output where
  input_chaining_value := key
  block_words := left_child_cv ++ right_child_cv
  offset := 0
  block_len := BitVec.ofNat 32 BLOCK_LEN
  flags := PARENT ||| flags

/-- reference_impl.rs:232-237 -/
structure Hasher where
  chunk_state : ChunkState
  key : Vector Word 8
  /-- top of the stack first -/
  subtree_stack : List (Vector Word 8)

namespace Hasher

/-- reference_impl.rs:240-247 -/
def new_internal (key : Vector Word 8) (flags : Word) : Hasher where
  chunk_state := ChunkState.new key 0 flags
  key := key
  subtree_stack := []

/-- reference_impl.rs:250-252 -/
def new : Hasher := new_internal IV 0

/-- reference_impl.rs:255-259 -/
def new_keyed (key : Vector Byte 32) : Hasher := new_internal (wordsArray 8 key.toList) KEYED_HASH

/-- reference_impl.rs:262-266 -/
def new_derive_key (key : Vector Byte 32) : Hasher := new_internal (wordsArray 8 key.toList) DERIVE_KEY

/-- reference_impl.rs:268-271 -/
def push_stack (h : Hasher) (cv : Vector Word 8) : R Hasher :=
  if h.subtree_stack.length < 53 then .ok { h with subtree_stack := cv :: h.subtree_stack } else .error .bounds

/-- reference_impl.rs:273-276 -/
def pop_stack (h : Hasher) : R (Vector Word 8 × Hasher) :=
  match h.subtree_stack with
  | [] => .error .overflow
  | cv :: rest => .ok (cv, { h with subtree_stack := rest })

theorem pop_stack_length {h h' : Hasher} {cv : Vector Word 8} (e : h.pop_stack = .ok (cv, h')) :
    h'.subtree_stack.length < h.subtree_stack.length := by
  unfold pop_stack at e
  split at e
  next => cases e
  next heq => cases e; rw [heq]; simp

/-- The loop of `push_chunk_chaining_value`, reference_impl.rs:286-289. -/
def merge_loop (h : Hasher) (cv : Vector Word 8) (final_stack_len : Nat) : R (Hasher × Vector Word 8) :=
  if final_stack_len ≤ h.subtree_stack.length then
    match _e : h.pop_stack with
    | .error e => .error e
    | .ok (left, h') =>
      merge_loop h' (parent_output left cv h'.key h'.chunk_state.flags).chaining_value final_stack_len
  else .ok (h, cv)
termination_by h.subtree_stack.length
decreasing_by exact pop_stack_length _e

/-- reference_impl.rs:278-291 -/
def push_chunk_chaining_value (h : Hasher) (cv : Vector Word 8) (total_bytes : U64) : R Hasher := do
  let final_stack_len := popcount total_bytes.toNat
  let (h, cv) ← h.merge_loop cv final_stack_len
  h.push_stack cv

/-- The first half of the loop body of `update`, reference_impl.rs:296-302. -/
def finish_chunk (h : Hasher) : R Hasher :=
  if h.chunk_state.len = CHUNK_LEN then do
    let chunk_cv := h.chunk_state.output.chaining_value
    let new_chunk_offset ← addU64 h.chunk_state.offset (BitVec.ofNat 64 CHUNK_LEN)
    let h ← h.push_chunk_chaining_value chunk_cv new_chunk_offset
    return { h with chunk_state := ChunkState.new h.key new_chunk_offset h.chunk_state.flags }
  else return h

/-- The loop of `update`, reference_impl.rs:295-308; `n` bounds the number of iterations as above. -/
def update_loop : (n : Nat) → Hasher → Bytes → R Hasher
  | 0, h, input => if input = [] then .ok h else .error .ub
  | n + 1, h, input =>
    if input = [] then .ok h
    else do
      let h ← h.finish_chunk
      let want ← subN CHUNK_LEN h.chunk_state.len
      let take := min want input.length
      let chunk_state ← h.chunk_state.update (input.take take)
      update_loop n { h with chunk_state } (input.drop take)

/-- reference_impl.rs:294-309 -/
def update (h : Hasher) (input : Bytes) : R Hasher := update_loop input.length h input

/-- The loop of `finalize`, reference_impl.rs:318-326; `stack` are the entries below
`parent_nodes_remaining`. -/
def finalize_loop (h : Hasher) (output : Output) : List (Vector Word 8) → Output
  | [] => output
  | cv :: rest =>
    finalize_loop h (parent_output cv output.chaining_value h.key h.chunk_state.flags) rest

/-- reference_impl.rs:312-328 -/
def finalize (h : Hasher) (out_slice : Bytes) : R Bytes :=
  (finalize_loop h h.chunk_state.output h.subtree_stack).root_output_bytes out_slice

end Hasher
end Baokeshed.Model.Ref
