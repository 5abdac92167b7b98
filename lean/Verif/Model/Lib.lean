import Verif.Model.Platform

/-!
# Model of the recursive implementation in /repo/src/lib.rs

Flags (`bitflags!`, lib.rs:97-106) are plain bytes.  Indices into slices are natural numbers:
they never exceed the slice length by more than one block, and a slice never has more than
`isize::MAX` bytes, so the `usize` sums in loops cannot wrap.  `left_len` is modelled with
explicit overflow checks because there it is not obvious.
-/

namespace Baokeshed.Model

namespace Flags
/-- lib.rs:99 -/
def CHUNK_START : Byte := 1
/-- lib.rs:100 -/
def CHUNK_END : Byte := 2
/-- lib.rs:101 -/
def PARENT : Byte := 4
/-- lib.rs:102 -/
def ROOT : Byte := 8
/-- lib.rs:103 -/
def KEYED_HASH : Byte := 16
/-- lib.rs:104 -/
def DERIVE_KEY : Byte := 32
end Flags

/-- lib.rs:108-112 -/
inductive IsRoot where
  | notRoot
  | root
  deriving DecidableEq

/-- lib.rs:114-121 -/
def IsRoot.flag : IsRoot → Byte
  | .notRoot => 0
  | .root => Flags.ROOT

/-- lib.rs:222-230 -/
structure Output where
  cv : Vector Word 8
  block : Vector Byte 64
  block_len : Byte
  offset : U64
  flags : Byte
  platform : Platform

/-- The build profile: with (debug) or without (release) overflow checks. -/
inductive Profile where
  | debug
  | release
  deriving DecidableEq

/-- lib.rs:233-243.  Returns the output and the new state. -/
def Output.read (prof : Profile) (o : Output) : R (Vector Byte 64 × Output) := do
  let output := o.platform.compress_xof o.cv o.block o.block_len o.offset o.flags
  let offset ← match prof with
    | .debug => addU64 o.offset (BitVec.ofNat 64 (2 * OUT_LEN))
    | .release => .ok (o.offset + BitVec.ofNat 64 (2 * OUT_LEN))
  return (output, { o with offset })

/-- lib.rs:245-254 -/
def Output.to_hash (o : Output) : Vector Byte 32 :=
  bytes_from_state_words (o.platform.compress o.cv o.block o.block_len o.offset o.flags)

/-- The loop and the final part of `hash_one_chunk`, lib.rs:290-326. -/
def hash_one_chunk_loop (p : Platform) (chunk : Bytes) (offset : U64) (is_root : IsRoot) (flags : Byte)
    (cv : Vector Word 8) (block_flags : Byte) (block_offset : Nat) : R Output :=
  if _h : block_offset + BLOCK_LEN ≤ chunk.length then do
    if block_offset + BLOCK_LEN = chunk.length then
      let block ← arrayRef chunk block_offset BLOCK_LEN
      return { cv, block, block_len := BitVec.ofNat 8 BLOCK_LEN, offset,
               flags := block_flags ||| Flags.CHUNK_END ||| is_root.flag, platform := p }
    else
      let block ← arrayRef chunk block_offset BLOCK_LEN
      hash_one_chunk_loop p chunk offset is_root flags
        (p.compress cv block (BitVec.ofNat 8 BLOCK_LEN) offset block_flags) flags
        (block_offset + BLOCK_LEN)
  else do
    let block_len ← subN chunk.length block_offset
    let last_block ← writeAt (List.replicate BLOCK_LEN 0) 0 (chunk.drop block_offset)
    let block ← arrayRef last_block 0 BLOCK_LEN
    return { cv, block, block_len := BitVec.ofNat 8 block_len, offset,
             flags := block_flags ||| Flags.CHUNK_END ||| is_root.flag, platform := p }
termination_by chunk.length - block_offset
decreasing_by simp [BLOCK_LEN] at *; omega

/-- lib.rs:276-327 -/
def hash_one_chunk (chunk : Bytes) (key : Vector Word 8) (offset : U64) (is_root : IsRoot)
    (flags : Byte) (p : Platform) : R Output := do
  assertR (is_root = .root → offset = 0)
  hash_one_chunk_loop p chunk offset is_root flags key (flags ||| Flags.CHUNK_START) 0

/-- Filling an `ArrayVec` of capacity `cap` by pushing (`push` panics when full), or a slice of
arrays out of `chunks_exact` (`array_ref!(chunk, 0, n)` of a chunk of `n` bytes is the chunk). -/
def pushAll {α} (cap : Nat) (xs : List α) : R (List α) :=
  if xs.length ≤ cap then .ok xs else .error .capacity

/-- lib.rs:332-377.  Returns the number of hashes and the new contents of `out`. -/
def hash_chunks_parallel (cfg : Config) (input : Bytes) (key : Vector Word 8) (offset : U64)
    (flags : Byte) (p : Platform) (out : Bytes) : R (Nat × Bytes) := do
  assertR (input ≠ [])
  assertR (input.length ≤ MAX_SIMD_DEGREE cfg * CHUNK_LEN)
  assertR (offset % BitVec.ofNat 64 CHUNK_LEN = 0)
  let chunks_array ← pushAll (MAX_SIMD_DEGREE cfg) (chunksExact CHUNK_LEN input)
  let out ← p.hash_many CHUNK_LEN chunks_array key offset (BitVec.ofNat 64 CHUNK_LEN) flags
    Flags.CHUNK_START Flags.CHUNK_END out
  let chunks_so_far := chunks_array.length
  let remainder := chunksRemainder CHUNK_LEN input
  if remainder ≠ [] then
    let d ← mulU64 (BitVec.ofNat 64 chunks_so_far) (BitVec.ofNat 64 CHUNK_LEN)
    let off ← addU64 offset d
    let output ← hash_one_chunk remainder key off .notRoot flags p
    let out ← writeAt out (chunks_so_far * OUT_LEN) output.to_hash.toList
    return (chunks_so_far + 1, out)
  else
    return (chunks_so_far, out)

/-- lib.rs:383-419 -/
def hash_parents_parallel (cfg : Config) (child_hashes : Bytes) (key : Vector Word 8) (flags : Byte)
    (p : Platform) (out : Bytes) : R (Nat × Bytes) := do
  assertR (child_hashes.length % OUT_LEN = 0)
  let num_children := child_hashes.length / OUT_LEN
  assertR (2 ≤ num_children)
  assertR (num_children ≤ 2 * MAX_SIMD_DEGREE_OR_2 cfg)
  let parents_array ← pushAll (MAX_SIMD_DEGREE_OR_2 cfg) (chunksExact BLOCK_LEN child_hashes)
  let out ← p.hash_many BLOCK_LEN parents_array key 0 0 (flags ||| Flags.PARENT) 0 0 out
  let parents_so_far := parents_array.length
  let remainder := chunksRemainder BLOCK_LEN child_hashes
  if remainder ≠ [] then
    -- `out[parents_so_far * OUT_LEN..][..OUT_LEN].copy_from_slice(remainder)`
    assertR (remainder.length = OUT_LEN)
    let out ← writeAt out (parents_so_far * OUT_LEN) remainder
    return (parents_so_far + 1, out)
  else
    return (parents_so_far, out)

/-- lib.rs:423-425 -/
def largest_power_of_two_leq (w : Nat) (n : Nat) : R Nat := do
  let m ← addN w (n / 2) 1
  nextPowerOfTwo w m

/-- lib.rs:429-434 -/
def left_len (w : Nat) (content_len : Nat) : R Nat := do
  assertR (CHUNK_LEN < content_len)
  let full_chunks := (content_len - 1) / CHUNK_LEN
  let n ← largest_power_of_two_leq w full_chunks
  mulN w n CHUNK_LEN

theorem log2_half_add_one {n : Nat} (h : 1 ≤ n) :
    (if n / 2 + 1 ≤ 1 then 1 else 2 ^ (Nat.log2 (n / 2 + 1 - 1) + 1)) = 2 ^ Nat.log2 n := by
  rw [Nat.add_sub_cancel]
  conv => rhs; rw [Nat.log2_def]
  split
  next h1 => rw [if_neg (by omega)]
  next h1 => rw [if_pos (by omega)]

/-- What `left_len` returns when it does not panic; needed here for termination. -/
theorem left_len_val {w n l : Nat} (h : left_len w n = .ok l) :
    CHUNK_LEN < n ∧ l = 2 ^ Nat.log2 ((n - 1) / CHUNK_LEN) * CHUNK_LEN := by
  unfold left_len assertR largest_power_of_two_leq addN nextPowerOfTwo mulN at h
  split at h
  next h0 =>
    refine ⟨h0, ?_⟩
    have h1 : 1 ≤ (n - 1) / CHUNK_LEN := by
      rw [Nat.le_div_iff_mul_le (by decide)]; simp only [CHUNK_LEN] at *; omega
    have e := log2_half_add_one h1
    by_cases h2 : (n - 1) / CHUNK_LEN / 2 + 1 < 2 ^ w
    · simp only [if_pos h2, bind, Except.bind, e] at h
      by_cases h3 : 2 ^ ((n - 1) / CHUNK_LEN).log2 < 2 ^ w
      · simp only [if_pos h3] at h
        split at h
        · exact (Except.ok.inj h).symm
        · exact absurd h (by simp)
      · simp only [if_neg h3] at h; exact absurd h (by simp)
    · simp only [if_neg h2, bind, Except.bind] at h; exact absurd h (by simp)
  next => simp [bind, Except.bind] at h

theorem left_len_pos {w n l : Nat} (h : left_len w n = .ok l) : 0 < l := by
  obtain ⟨-, rfl⟩ := left_len_val h
  exact Nat.mul_pos (Nat.two_pow_pos _) (by decide)

theorem left_len_lt {w n l : Nat} (h : left_len w n = .ok l) : l < n := by
  obtain ⟨h0, rfl⟩ := left_len_val h
  have h1 : (n - 1) / CHUNK_LEN ≠ 0 := by simp only [CHUNK_LEN] at *; omega
  have := Nat.log2_self_le h1
  have := Nat.div_mul_le_self (n - 1) CHUNK_LEN
  have := Nat.mul_le_mul_right CHUNK_LEN (Nat.log2_self_le h1)
  simp only [CHUNK_LEN] at *; omega

/-- lib.rs:450-512.  Without the `rayon` feature `join` (lib.rs:436-447) runs its two arguments
one after the other; for the parallel case see Model/Rayon.lean. -/
def hash_recurse (cfg : Config) (input : Bytes) (key : Vector Word 8) (offset : U64) (flags : Byte)
    (p : Platform) (out : Bytes) : R (Nat × Bytes) :=
  if input.length ≤ p.simd_degree * CHUNK_LEN then
    hash_chunks_parallel cfg input key offset flags p out
  else
    match _hl : left_len cfg.usizeBits input.length with
    | .error e => .error e
    | .ok l =>
      let left := input.take l
      let right := input.drop l
      do
        let right_off ← addU64 offset (BitVec.ofNat 64 left.length)
        assertR (popcount p.simd_degree = 1)
        let children_array : Bytes := List.replicate (2 * MAX_SIMD_DEGREE_OR_2 cfg * OUT_LEN) 0
        let degree := if left.length = CHUNK_LEN then 1 else max p.simd_degree 2
        let (left_out, right_out) ← splitAtR children_array (degree * OUT_LEN)
        let (left_n, left_out) ← hash_recurse cfg left key offset flags p left_out
        let (right_n, right_out) ← hash_recurse cfg right key right_off flags p right_out
        let children_array := left_out ++ right_out
        assertR (left_n = degree)
        assertR (1 ≤ right_n ∧ right_n ≤ left_n)
        if left_n = 1 then
          let c ← sliceTo children_array (2 * OUT_LEN)
          let out ← writeAt out 0 c
          return (2, out)
        else
          let num_children := left_n + right_n
          let c ← sliceTo children_array (num_children * OUT_LEN)
          hash_parents_parallel cfg c key flags p out
termination_by input.length
decreasing_by
  · have := left_len_lt _hl
    simp only [List.length_take]; omega
  · have := left_len_pos _hl
    have := left_len_lt _hl
    simp only [List.length_drop]; omega

/-- The loop of `condense_root`, lib.rs:523-527; returns the final `children`.  The bound on the
number of iterations, `n`, is not in the source: each iteration at least removes one child. -/
def condense_loop (cfg : Config) (key : Vector Word 8) (flags : Byte) (p : Platform) :
    (n : Nat) → (children out_array : Bytes) → R Bytes
  | 0, _, _ => .error .ub
  | n + 1, children, out_array =>
    if BLOCK_LEN < children.length then do
      let (out_n, out_array) ← hash_parents_parallel cfg children key flags p out_array
      let o ← sliceTo out_array (out_n * OUT_LEN)
      let children ← writeAt children 0 o
      let children ← sliceTo children (out_n * OUT_LEN)
      condense_loop cfg key flags p n children out_array
    else .ok children

/-- lib.rs:514-536 -/
def condense_root (cfg : Config) (children : Bytes) (key : Vector Word 8) (flags : Byte)
    (p : Platform) : R Output := do
  assertR (children.length % OUT_LEN = 0)
  assertR (BLOCK_LEN ≤ children.length)
  let out_array : Bytes := List.replicate (MAX_SIMD_DEGREE cfg * OUT_LEN / 2) 0
  let children ← condense_loop cfg key flags p (children.length + 1) children out_array
  let block ← arrayRef children 0 BLOCK_LEN
  return { cv := key, block, block_len := BitVec.ofNat 8 BLOCK_LEN, offset := 0,
           flags := flags ||| Flags.PARENT ||| Flags.ROOT, platform := p }

/-- lib.rs:538-552 -/
def hash_internal (cfg : Config) (input : Bytes) (key_words : Vector Word 8) (flags : Byte) :
    R Output := do
  let p := Platform.detect cfg
  if input.length ≤ CHUNK_LEN then
    hash_one_chunk input key_words 0 .root flags p
  else
    let children_array : Bytes := List.replicate (MAX_SIMD_DEGREE_OR_2 cfg * OUT_LEN) 0
    let (num_children, children_array) ← hash_recurse cfg input key_words 0 flags p children_array
    let c ← sliceTo children_array (num_children * OUT_LEN)
    condense_root cfg c key_words flags p

/-- lib.rs:560-562 -/
def hash_xof (cfg : Config) (input : Bytes) : R Output := hash_internal cfg input IV 0

/-- lib.rs:555-557 -/
def hash (cfg : Config) (input : Bytes) : R (Vector Byte 32) := do
  let o ← hash_xof cfg input
  return o.to_hash

/-- lib.rs:574-577 -/
def keyed_hash_xof (cfg : Config) (key : Vector Byte 32) (input : Bytes) : R Output :=
  hash_internal cfg input (words_from_key_bytes key) Flags.KEYED_HASH

/-- lib.rs:567-569 -/
def keyed_hash (cfg : Config) (key : Vector Byte 32) (input : Bytes) : R (Vector Byte 32) := do
  let o ← keyed_hash_xof cfg key input
  return o.to_hash

/-- lib.rs:593-596 -/
def derive_key_xof (cfg : Config) (key : Vector Byte 32) (context : Bytes) : R Output :=
  hash_internal cfg context (words_from_key_bytes key) Flags.DERIVE_KEY

/-- lib.rs:584-586 -/
def derive_key (cfg : Config) (key : Vector Byte 32) (context : Bytes) : R (Vector Byte 32) := do
  let o ← derive_key_xof cfg key context
  return o.to_hash

end Baokeshed.Model
