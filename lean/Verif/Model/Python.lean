import Verif.Basic

/-!
# Model of /repo/python/baokeshed.py

Python integers are unbounded; none in this file is negative, so they are natural numbers, with the
masking written in the source.  Lists and byte strings are lists; an index out of range
(`IndexError`) is the error `bounds`, a failing `int.to_bytes` (`OverflowError`) the error
`overflow`.  The 16-element `state` list and the constant tables have fixed lengths and constant
indices; they are vectors.  `bytearray` and `bytes` are not distinguished, and `min`, `len`,
slices (which clamp) are those of lists.  The recursion limit is modelled in
Verif/Model/Depth.lean.
-/

namespace Baokeshed.Model.Py

/-- baokeshed.py:3-12 -/
def IV : List Nat :=
  [0x6A09E667, 0xBB67AE85, 0x3C6EF372, 0xA54FF53A, 0x510E527F, 0x9B05688C, 0x1F83D9AB, 0x5BE0CD19]

/-- baokeshed.py:14-22 -/
def MSG_SCHEDULE : Vector (Vector Nat 16) 7 :=
  #v[#v[0, 1, 2, 3, 4, 5, 6, 7, 8, 9, 10, 11, 12, 13, 14, 15],
     #v[14, 10, 4, 8, 9, 15, 13, 6, 1, 12, 0, 2, 11, 7, 5, 3],
     #v[11, 8, 12, 0, 5, 2, 15, 13, 10, 14, 3, 6, 7, 1, 9, 4],
     #v[7, 9, 3, 1, 13, 12, 11, 14, 2, 6, 5, 10, 4, 0, 15, 8],
     #v[9, 0, 5, 7, 2, 4, 10, 15, 14, 1, 11, 12, 6, 8, 3, 13],
     #v[2, 12, 6, 10, 0, 11, 8, 3, 4, 13, 7, 5, 15, 14, 1, 9],
     #v[12, 5, 1, 15, 14, 13, 4, 10, 0, 7, 6, 3, 9, 2, 8, 11]]

/-- baokeshed.py:24 -/
abbrev BLOCK_LEN : Nat := 64
/-- baokeshed.py:25 -/
abbrev CHUNK_LEN : Nat := 2048
/-- baokeshed.py:28 -/
abbrev WORD_BITS : Nat := 32
/-- baokeshed.py:29 -/
abbrev WORD_BYTES : Nat := 4
/-- baokeshed.py:30 -/
abbrev WORD_MAX : Nat := 2 ^ WORD_BITS - 1

/-- baokeshed.py:33 -/
def CHUNK_START : Nat := 1 <<< 0
/-- baokeshed.py:34 -/
def CHUNK_END : Nat := 1 <<< 1
/-- baokeshed.py:35 -/
def PARENT : Nat := 1 <<< 2
/-- baokeshed.py:36 -/
def ROOT : Nat := 1 <<< 3
/-- baokeshed.py:37 -/
def KEYED_HASH : Nat := 1 <<< 4
/-- baokeshed.py:38 -/
def DERIVE_KEY : Nat := 1 <<< 5

/-- `l[i]` -/
def idx (l : List Nat) (i : Nat) : R Nat :=
  match l[i]? with
  | some x => .ok x
  | none => .error .bounds

/-- `buf[a:b]` for `0 ≤ a`, `0 ≤ b` -/
def slice {α} (buf : List α) (a b : Nat) : List α := (buf.take b).drop a

/-- `buf[a:b] = v` for `0 ≤ a ≤ b` -/
def setSlice {α} (buf : List α) (a b : Nat) (v : List α) : List α := buf.take a ++ v ++ buf.drop b

/-- `int.from_bytes(b, "little")` -/
def from_bytes (b : Bytes) : Nat := b.foldr (fun x acc => x.toNat + 256 * acc) 0

/-- `n.to_bytes(len, "little")` -/
def to_bytes : (len : Nat) → Nat → R Bytes
  | 0, n => if n = 0 then .ok [] else .error .overflow
  | len + 1, n => do
    let rest ← to_bytes len (n / 256)
    return BitVec.ofNat 8 (n % 256) :: rest

/-- `n.bit_length()` -/
def bit_length (n : Nat) : Nat := if n = 0 then 0 else 1 + bit_length (n / 2)

/-- baokeshed.py:41-42 -/
def wrapping_add (a b : Nat) : Nat := (a + b) &&& WORD_MAX

/-- baokeshed.py:45-46 -/
def rotate_right (x n : Nat) : Nat := (x >>> n ||| x <<< (WORD_BITS - n)) &&& WORD_MAX

/-- baokeshed.py:49-57 -/
def g (state : Vector Nat 16) (a b c d : Fin 16) (x y : Nat) : Vector Nat 16 :=
  let state := state.set a (wrapping_add state[a] (wrapping_add state[b] x))
  let state := state.set d (rotate_right (state[d] ^^^ state[a]) 16)
  let state := state.set c (wrapping_add state[c] state[d])
  let state := state.set b (rotate_right (state[b] ^^^ state[c]) 12)
  let state := state.set a (wrapping_add state[a] (wrapping_add state[b] y))
  let state := state.set d (rotate_right (state[d] ^^^ state[a]) 8)
  let state := state.set c (wrapping_add state[c] state[d])
  let state := state.set b (rotate_right (state[b] ^^^ state[c]) 7)
  state

/-- One line `g(state, a, b, c, d, msg_words[schedule[i]], msg_words[schedule[j]])` of `round`. -/
def gm (msg_words : List Nat) (schedule : Vector Nat 16) (a b c d : Fin 16) (i j : Fin 16) (state : Vector Nat 16) :
    R (Vector Nat 16) := do
  let x ← idx msg_words schedule[i]
  let y ← idx msg_words schedule[j]
  return g state a b c d x y

/-- baokeshed.py:60-70 -/
def round (state : Vector Nat 16) (msg_words : List Nat) (schedule : Vector Nat 16) : R (Vector Nat 16) := do
  -- Mix the columns.
  let state ← gm msg_words schedule 0 4 8 12 0 1 state
  let state ← gm msg_words schedule 1 5 9 13 2 3 state
  let state ← gm msg_words schedule 2 6 10 14 4 5 state
  let state ← gm msg_words schedule 3 7 11 15 6 7 state
  -- Mix the rows.
  let state ← gm msg_words schedule 0 5 10 15 8 9 state
  let state ← gm msg_words schedule 1 6 11 12 10 11 state
  let state ← gm msg_words schedule 2 7 8 13 12 13 state
  let state ← gm msg_words schedule 3 4 9 14 14 15 state
  return state

/-- baokeshed.py:73-78 -/
def words_from_bytes (buf : Bytes) : List Nat :=
  (List.range (buf.length / WORD_BYTES)).map fun word_i =>
    from_bytes (slice buf (word_i * WORD_BYTES) ((word_i + 1) * WORD_BYTES))

/-- The loop of `bytes_from_words`, baokeshed.py:83-85, from word `word_i` on. -/
def bytes_from_words_loop (buf : Bytes) (word_i : Nat) : List Nat → R Bytes
  | [] => .ok buf
  | w :: ws => do
    let b ← to_bytes WORD_BYTES w
    bytes_from_words_loop (setSlice buf (WORD_BYTES * word_i) (WORD_BYTES * (word_i + 1)) b) (word_i + 1) ws

/-- baokeshed.py:81-86 -/
def bytes_from_words (words : List Nat) : R Bytes :=
  bytes_from_words_loop (List.replicate (words.length * WORD_BYTES) 0) 0 words

/-- One iteration of the last loop of `compress`, baokeshed.py:111-113 -/
def feed (cv : List Nat) (state : Vector Nat 16) (i : Fin 8) : R (Vector Nat 16) := do
  let state := state.set i.val (state[i.val] ^^^ state[i.val + 8])
  let c ← idx cv i
  return state.set (i.val + 8) (state[i.val + 8] ^^^ c)

/-- baokeshed.py:89-114 -/
def compress (cv : List Nat) (block : Bytes) (block_len offset flags : Nat) : R (List Nat) := do
  let block_words := words_from_bytes block
  let cv0 ← idx cv 0
  let cv1 ← idx cv 1
  let cv2 ← idx cv 2
  let cv3 ← idx cv 3
  let cv4 ← idx cv 4
  let cv5 ← idx cv 5
  let cv6 ← idx cv 6
  let cv7 ← idx cv 7
  let iv0 ← idx IV 0
  let iv1 ← idx IV 1
  let iv2 ← idx IV 2
  let iv3 ← idx IV 3
  let state : Vector Nat 16 :=
    #v[cv0, cv1, cv2, cv3, cv4, cv5, cv6, cv7, iv0, iv1, iv2, iv3,
       offset &&& WORD_MAX, (offset >>> WORD_BITS) &&& WORD_MAX, block_len, flags]
  let state ← (List.finRange 7).foldlM (fun state round_number => round state block_words MSG_SCHEDULE[round_number]) state
  let state ← (List.finRange 8).foldlM (feed cv) state
  return state.toList

/-- baokeshed.py:120-126 -/
structure Output where
  cv : List Nat
  block : Bytes
  block_len : Nat
  offset : Nat
  flags : Nat

/-- baokeshed.py:128-131 -/
def Output.chaining_value (o : Output) : R Bytes := do
  let words ← compress o.cv o.block o.block_len o.offset o.flags
  bytes_from_words (words.take 8)

/-- The loop of `root_output_bytes`, baokeshed.py:136-142.  The bound `n` on the number of
iterations is not in the source: `offset` grows by at least one in each. -/
def Output.root_output_loop (o : Output) (out_len : Nat) : (n : Nat) → (buf : Bytes) → (offset : Nat) → R Bytes
  | 0, buf, offset => if offset < out_len then .error .ub else .ok buf
  | n + 1, buf, offset =>
    if offset < out_len then do
      let words ← compress o.cv o.block o.block_len offset (o.flags ||| ROOT)
      let out_bytes ← bytes_from_words words
      let take := min out_bytes.length (out_len - offset)
      root_output_loop o out_len n (setSlice buf offset (offset + take) (out_bytes.take take)) (offset + take)
    else .ok buf

/-- baokeshed.py:133-143 -/
def Output.root_output_bytes (o : Output) (out_len : Nat) : R Bytes :=
  o.root_output_loop out_len out_len (List.replicate out_len 0) 0

/-- The loop of `hash_chunk`, baokeshed.py:150-154.  Returns `cv`, `block_flags`, `position`. -/
def hash_chunk_loop (chunk : Bytes) (offset flags : Nat) (cv : List Nat) (block_flags position : Nat) :
    R (List Nat × Nat × Nat) :=
  if _h : BLOCK_LEN < chunk.length - position then do
    let block := slice chunk position (position + BLOCK_LEN)
    let cv ← compress cv block BLOCK_LEN offset block_flags
    hash_chunk_loop chunk offset flags (cv.take 8) flags (position + BLOCK_LEN)
  else .ok (cv, block_flags, position)
termination_by chunk.length - position
decreasing_by simp only [BLOCK_LEN] at *; omega

/-- baokeshed.py:146-159 -/
def hash_chunk (chunk : Bytes) (key_words : List Nat) (offset flags : Nat) : R Output := do
  let (cv, block_flags, position) ← hash_chunk_loop chunk offset flags key_words (flags ||| CHUNK_START) 0
  let block_len := chunk.length - position
  let block : Bytes := List.replicate BLOCK_LEN 0
  let block := setSlice block 0 block_len (chunk.drop position)
  let block_flags := block_flags ||| CHUNK_END
  return { cv, block, block_len, offset, flags := block_flags }

/-- baokeshed.py:162-164 -/
def hash_parent (left_child right_child : Output) (key_words : List Nat) (flags : Nat) : R Output := do
  let l ← left_child.chaining_value
  let r ← right_child.chaining_value
  let node_bytes := l ++ r
  return { cv := key_words, block := node_bytes, block_len := BLOCK_LEN, offset := 0, flags := PARENT ||| flags }

/-- baokeshed.py:170-173 -/
def left_len (parent_len : Nat) : Nat :=
  let available_chunks := (parent_len - 1) / CHUNK_LEN
  let power_of_two_chunks := 2 ^ (bit_length available_chunks - 1)
  CHUNK_LEN * power_of_two_chunks

/-- baokeshed.py:177-188.  `n` is the number of nested calls for which there is room on the call stack. -/
def hash_recurse : (n : Nat) → (input_bytes : Bytes) → (key_words : List Nat) → (offset flags : Nat) → R Output
  | 0, _, _, _, _ => .error .stack
  | n + 1, input_bytes, key_words, offset, flags =>
    if input_bytes.length ≤ CHUNK_LEN then hash_chunk input_bytes key_words offset flags
    else do
      let left := input_bytes.take (left_len input_bytes.length)
      let right := input_bytes.drop left.length
      let right_offset := offset + left.length
      let left_output ← hash_recurse n left key_words offset flags
      let right_output ← hash_recurse n right key_words right_offset flags
      hash_parent left_output right_output key_words flags

/-- baokeshed.py:191-193, with room for as many nested calls as could be needed; for a limited call stack see
Model/Depth.lean -/
def hash_internal (input_bytes : Bytes) (key_words : List Nat) (flags out_len : Nat) : R Bytes := do
  let output ← hash_recurse (input_bytes.length + 1) input_bytes key_words 0 flags
  output.root_output_bytes out_len

/-- baokeshed.py:199-200 -/
def hash (input_bytes : Bytes) (out_len : Nat) : R Bytes := hash_internal input_bytes IV 0 out_len

/-- baokeshed.py:203-205 -/
def keyed_hash (key_bytes input_bytes : Bytes) (out_len : Nat) : R Bytes :=
  hash_internal input_bytes (words_from_bytes key_bytes) KEYED_HASH out_len

/-- baokeshed.py:208-210 -/
def derive_key (key_bytes context_bytes : Bytes) (out_len : Nat) : R Bytes :=
  hash_internal context_bytes (words_from_bytes key_bytes) DERIVE_KEY out_len

end Baokeshed.Model.Py
