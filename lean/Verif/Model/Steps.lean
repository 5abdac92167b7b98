import Verif.Model.Avx2

/-!
# The kernels of the Rust library once more, recording what they execute

The definitions repeat those of Model/Portable.lean, Model/Sse41.lean and Model/Avx2.lean, in a monad that also keeps the list of
the steps performed so far, in order: each arithmetic operation, each SIMD intrinsic with its immediate operands, each access to
an array with its index, and the outcome of each condition.  The values that are added, loaded, and so on, are not recorded.
`Proofs/Steps.lean` proves that dropping the list gives back the original definitions.

Not recorded: accesses to arrays of SIMD registers at positions that are literals in the source (compilers keep these in registers),
and the conditions of `debug_assert!`, which are about lengths.
-/

namespace Baokeshed.Model.Steps
open Baokeshed.Model

/-- What is executed, with indices, immediate operands, or the outcome of a condition. -/
structure Step where
  what : String
  at_ : List Nat
deriving DecidableEq

/-- A computation that cannot panic, and its steps. -/
structure Run (α : Type) where
  val : α
  log : List Step

instance : Monad Run where
  pure a := ⟨a, []⟩
  bind x f := ⟨(f x.val).val, x.log ++ (f x.val).log⟩

/-- A computation that may panic, and its steps. -/
structure Try (α : Type) where
  res : R α
  log : List Step

instance : Monad Try where
  pure a := ⟨.ok a, []⟩
  bind x f := match x.res with
    | .ok a => ⟨(f a).res, x.log ++ (f a).log⟩
    | .error e => ⟨.error e, x.log⟩

instance : MonadLift Run Try where
  monadLift x := ⟨.ok x.val, x.log⟩

/-- Something that is executed with secret operands, and its result.  `imm`: what is known of the operands. -/
def op {α : Type} (what : String) (imm : List Nat) (a : α) : Run α := ⟨a, [⟨what, imm⟩]⟩

/-- The same for something that may panic. -/
def tryOp {α : Type} (what : String) (imm : List Nat) (a : R α) : Try α := ⟨a, [⟨what, imm⟩]⟩

/-- a condition -/
def test (what : String) (b : Bool) : Try Unit := ⟨.ok (), [⟨what, [b.toNat]⟩]⟩

/-- a read from an array -/
def read {α : Type} {n : Nat} (what : String) (a : Vector α n) (i : Fin n) : Run α := op what [i.val] a[i]

/-- a write to an array -/
def write {α : Type} {n : Nat} (what : String) (a : Vector α n) (i : Fin n) (x : α) : Run (Vector α n) := op what [i.val] (a.set i x)

/-- `MSG_SCHEDULE[r][k]` and then the element of `m` at this index; sse41.rs:340 and similar, portable.rs:42-54 -/
def pick {α : Type} (m : Vector α 16) (r : Fin 7) (k : Fin 16) : Run α := do
  let i ← op "MSG_SCHEDULE" [r.val, k.val] ((MSG_SCHEDULE.get r).get k)
  op "msg" [i.val] (m.get i)

namespace Portable

/-- `wrapping_add`, portable.rs:29-36 -/
def add (a b : Word) : Run Word := op "wrapping_add" [] (a + b)
/-- `^`, portable.rs:30-36, 105, 119, 122 -/
def xor (a b : Word) : Run Word := op "^" [] (a ^^^ b)
/-- `rotate_right`, portable.rs:30-36 -/
def rotate_right (a : Word) (n : Nat) : Run Word := op "rotate_right" [n] (a.rotateRight n)

/-- portable.rs:5-25 -/
def words_from_block (b : Vector Byte 64) : Run (Vector Word 16) := do
  let w0 ← op "from_le_bytes" [0] (leWord b[0] b[1] b[2] b[3])
  let w1 ← op "from_le_bytes" [4] (leWord b[4] b[5] b[6] b[7])
  let w2 ← op "from_le_bytes" [8] (leWord b[8] b[9] b[10] b[11])
  let w3 ← op "from_le_bytes" [12] (leWord b[12] b[13] b[14] b[15])
  let w4 ← op "from_le_bytes" [16] (leWord b[16] b[17] b[18] b[19])
  let w5 ← op "from_le_bytes" [20] (leWord b[20] b[21] b[22] b[23])
  let w6 ← op "from_le_bytes" [24] (leWord b[24] b[25] b[26] b[27])
  let w7 ← op "from_le_bytes" [28] (leWord b[28] b[29] b[30] b[31])
  let w8 ← op "from_le_bytes" [32] (leWord b[32] b[33] b[34] b[35])
  let w9 ← op "from_le_bytes" [36] (leWord b[36] b[37] b[38] b[39])
  let w10 ← op "from_le_bytes" [40] (leWord b[40] b[41] b[42] b[43])
  let w11 ← op "from_le_bytes" [44] (leWord b[44] b[45] b[46] b[47])
  let w12 ← op "from_le_bytes" [48] (leWord b[48] b[49] b[50] b[51])
  let w13 ← op "from_le_bytes" [52] (leWord b[52] b[53] b[54] b[55])
  let w14 ← op "from_le_bytes" [56] (leWord b[56] b[57] b[58] b[59])
  let w15 ← op "from_le_bytes" [60] (leWord b[60] b[61] b[62] b[63])
  return #v[w0, w1, w2, w3, w4, w5, w6, w7, w8, w9, w10, w11, w12, w13, w14, w15]

/-- portable.rs:28-37 -/
def g (state : Vector Word 16) (a b c d : Fin 16) (x y : Word) : Run (Vector Word 16) := do
  let state ← write "state" state a (← add (← add (← read "state" state a) (← read "state" state b)) x)
  let state ← write "state" state d (← rotate_right (← xor (← read "state" state d) (← read "state" state a)) 16)
  let state ← write "state" state c (← add (← read "state" state c) (← read "state" state d))
  let state ← write "state" state b (← rotate_right (← xor (← read "state" state b) (← read "state" state c)) 12)
  let state ← write "state" state a (← add (← add (← read "state" state a) (← read "state" state b)) y)
  let state ← write "state" state d (← rotate_right (← xor (← read "state" state d) (← read "state" state a)) 8)
  let state ← write "state" state c (← add (← read "state" state c) (← read "state" state d))
  let state ← write "state" state b (← rotate_right (← xor (← read "state" state b) (← read "state" state c)) 7)
  return state

/-- portable.rs:40-55 -/
def round (state : Vector Word 16) (msg : Vector Word 16) (round : Fin 7) : Run (Vector Word 16) := do
  let state ← g state 0 4 8 12 (← pick msg round 0) (← pick msg round 1)
  let state ← g state 1 5 9 13 (← pick msg round 2) (← pick msg round 3)
  let state ← g state 2 6 10 14 (← pick msg round 4) (← pick msg round 5)
  let state ← g state 3 7 11 15 (← pick msg round 6) (← pick msg round 7)
  let state ← g state 0 5 10 15 (← pick msg round 8) (← pick msg round 9)
  let state ← g state 1 6 11 12 (← pick msg round 10) (← pick msg round 11)
  let state ← g state 2 7 8 13 (← pick msg round 12) (← pick msg round 13)
  let state ← g state 3 4 9 14 (← pick msg round 14) (← pick msg round 15)
  return state

/-- portable.rs:58-94 -/
def compress_inner (cv : Vector Word 8) (block : Vector Byte 64) (block_len : Byte) (offset : U64) (flags : Byte) : Run (Vector Word 16) := do
  let block_words ← words_from_block block
  let s0 ← read "cv" cv 0
  let s1 ← read "cv" cv 1
  let s2 ← read "cv" cv 2
  let s3 ← read "cv" cv 3
  let s4 ← read "cv" cv 4
  let s5 ← read "cv" cv 5
  let s6 ← read "cv" cv 6
  let s7 ← read "cv" cv 7
  let s8 ← read "IV" IV 0
  let s9 ← read "IV" IV 1
  let s10 ← read "IV" IV 2
  let s11 ← read "IV" IV 3
  let s12 ← op "offset_low" [] (offset_low offset)
  let s13 ← op "offset_high" [] (offset_high offset)
  let s14 ← op "as Word" [] (block_len.setWidth 32)
  let s15 ← op "as Word" [] (flags.setWidth 32)
  let state : Vector Word 16 := #v[s0, s1, s2, s3, s4, s5, s6, s7, s8, s9, s10, s11, s12, s13, s14, s15]
  let state ← round state block_words 0
  let state ← round state block_words 1
  let state ← round state block_words 2
  let state ← round state block_words 3
  let state ← round state block_words 4
  let state ← round state block_words 5
  let state ← round state block_words 6
  return state

/-- portable.rs:96-107 -/
def compress (cv : Vector Word 8) (block : Vector Byte 64) (block_len : Byte) (offset : U64) (flags : Byte) : Run (Vector Word 8) := do
  let state ← compress_inner cv block block_len offset flags
  let cv ← write "cv" cv 0 (← xor (← read "state" state 0) (← read "state" state 8))
  let cv ← write "cv" cv 1 (← xor (← read "state" state 1) (← read "state" state 9))
  let cv ← write "cv" cv 2 (← xor (← read "state" state 2) (← read "state" state 10))
  let cv ← write "cv" cv 3 (← xor (← read "state" state 3) (← read "state" state 11))
  let cv ← write "cv" cv 4 (← xor (← read "state" state 4) (← read "state" state 12))
  let cv ← write "cv" cv 5 (← xor (← read "state" state 5) (← read "state" state 13))
  let cv ← write "cv" cv 6 (← xor (← read "state" state 6) (← read "state" state 14))
  let cv ← write "cv" cv 7 (← xor (← read "state" state 7) (← read "state" state 15))
  return cv

/-- `output[i * 4..][..4].copy_from_slice(&w.to_le_bytes())`, portable.rs:119, 122 -/
def put (output : Vector Byte 64) (i : Fin 16) (w : Word) : Run (Vector Byte 64) :=
  op "to_le_bytes" [i.val] ⟨(output.toList.take (4 * i.val) ++ leBytes w ++ output.toList.drop (4 * i.val + 4)).toArray, by
    have := i.isLt
    simp [leBytes]; omega⟩

/-- portable.rs:109-125 -/
def compress_xof (cv : Vector Word 8) (block : Vector Byte 64) (block_len : Byte) (offset : U64) (flags : Byte) : Run (Vector Byte 64) := do
  let state ← compress_inner cv block block_len offset flags
  let output : Vector Byte 64 := Vector.replicate 64 0
  let output ← put output 0 (← xor (← read "state" state 0) (← read "state" state 8))
  let output ← put output 1 (← xor (← read "state" state 1) (← read "state" state 9))
  let output ← put output 2 (← xor (← read "state" state 2) (← read "state" state 10))
  let output ← put output 3 (← xor (← read "state" state 3) (← read "state" state 11))
  let output ← put output 4 (← xor (← read "state" state 4) (← read "state" state 12))
  let output ← put output 5 (← xor (← read "state" state 5) (← read "state" state 13))
  let output ← put output 6 (← xor (← read "state" state 6) (← read "state" state 14))
  let output ← put output 7 (← xor (← read "state" state 7) (← read "state" state 15))
  let output ← put output 8 (← xor (← read "state" state 8) (← read "cv" cv 0))
  let output ← put output 9 (← xor (← read "state" state 9) (← read "cv" cv 1))
  let output ← put output 10 (← xor (← read "state" state 10) (← read "cv" cv 2))
  let output ← put output 11 (← xor (← read "state" state 11) (← read "cv" cv 3))
  let output ← put output 12 (← xor (← read "state" state 12) (← read "cv" cv 4))
  let output ← put output 13 (← xor (← read "state" state 13) (← read "cv" cv 5))
  let output ← put output 14 (← xor (← read "state" state 14) (← read "cv" cv 6))
  let output ← put output 15 (← xor (← read "state" state 15) (← read "cv" cv 7))
  return output

/-- lib.rs:138-152 -/
def bytes_from_state_words (w : Vector Word 8) : Run (Vector Byte 32) := do
  let b0 ← op "to_le_bytes" [0] w[0]
  let b1 ← op "to_le_bytes" [1] w[1]
  let b2 ← op "to_le_bytes" [2] w[2]
  let b3 ← op "to_le_bytes" [3] w[3]
  let b4 ← op "to_le_bytes" [4] w[4]
  let b5 ← op "to_le_bytes" [5] w[5]
  let b6 ← op "to_le_bytes" [6] w[6]
  let b7 ← op "to_le_bytes" [7] w[7]
  return Model.bytes_from_state_words #v[b0, b1, b2, b3, b4, b5, b6, b7]

/-- The loop of `hash1`, portable.rs:139-153. -/
def hash1_loop (flags flags_end : Byte) (offset : U64) (cv : Vector Word 8) (block_flags : Byte) (slice : Bytes) : Try (Vector Word 8) :=
  if _h : BLOCK_LEN ≤ slice.length then do
    test "while" true
    test "if" (slice.length = BLOCK_LEN)
    let block_flags := if slice.length = BLOCK_LEN then block_flags ||| flags_end else block_flags
    let block ← tryOp "array_ref" [slice.length, 0, BLOCK_LEN] (arrayRef slice 0 BLOCK_LEN)
    let cv ← compress cv block (BitVec.ofNat 8 BLOCK_LEN) offset block_flags
    hash1_loop flags flags_end offset cv flags (slice.drop BLOCK_LEN)
  else do
    test "while" false
    return cv
termination_by slice.length
decreasing_by simp [BLOCK_LEN] at *; omega

/-- portable.rs:127-155 -/
def hash1 (input : Bytes) (key : Vector Word 8) (offset : U64) (flags flags_start flags_end : Byte) : Try (Vector Byte 32) := do
  tryOp "debug_assert" [] (assertR (input.length % BLOCK_LEN = 0))
  let cv ← hash1_loop flags flags_end offset key (flags ||| flags_start) input
  bytes_from_state_words cv

/-- The loop of `hash_many`, portable.rs:168-179 -/
def hash_many_loop (key : Vector Word 8) (offset_delta : U64) (flags flags_start flags_end : Byte) :
    (inputs : List Bytes) → (offset : U64) → (out : Bytes) → Try Bytes
  | [], _, out => do
    test "for" false
    return out
  | input :: inputs, offset, out =>
    if out.length < OUT_LEN then do
      test "for" false
      return out
    else do
      test "for" true
      let h ← hash1 input key offset flags flags_start flags_end
      let offset ← tryOp "+=" [] (addU64 offset offset_delta)
      let rest ← hash_many_loop key offset_delta flags flags_start flags_end inputs offset (out.drop OUT_LEN)
      return h.toList ++ rest

/-- portable.rs:157-180 -/
def hash_many (inputs : List Bytes) (key : Vector Word 8) (offset offset_delta : U64)
    (flags flags_start flags_end : Byte) (out : Bytes) : Try Bytes := do
  tryOp "debug_assert" [] (assertR (inputs.length * OUT_LEN ≤ out.length))
  hash_many_loop key offset_delta flags flags_start flags_end inputs offset out

end Portable

namespace Sse41
open Baokeshed.Model.Sse41 (DEGREE Rows)

/-- sse41.rs:24-26 -/
def add (a b : M128) : Run M128 := op "_mm_add_epi32" [] (mm_add_epi32 a b)

/-- sse41.rs:29-31 -/
def xor (a b : M128) : Run M128 := op "_mm_xor_si128" [] (mm_xor_si128 a b)

/-- sse41.rs:34-36 -/
def set1 (x : Word) : Run M128 := op "_mm_set1_epi32" [] (mm_set1_epi32 x)

/-- sse41.rs:39-41 -/
def set4 (a b c d : Word) : Run M128 := op "_mm_setr_epi32" [] (mm_setr_epi32 a b c d)

/-- sse41.rs:44-49 -/
def rot16 (a : M128) : Run M128 :=
  op "_mm_shuffle_epi8" [] (mm_shuffle_epi8 a (mm_set_epi8 #v[13, 12, 15, 14, 9, 8, 11, 10, 5, 4, 7, 6, 1, 0, 3, 2]))

/-- sse41.rs:52-54 -/
def rot12 (a : M128) : Run M128 := do
  xor (← op "_mm_srli_epi32" [12] (mm_srli_epi32 a 12)) (← op "_mm_slli_epi32" [32 - 12] (mm_slli_epi32 a (32 - 12)))

/-- sse41.rs:57-62 -/
def rot8 (a : M128) : Run M128 :=
  op "_mm_shuffle_epi8" [] (mm_shuffle_epi8 a (mm_set_epi8 #v[12, 15, 14, 13, 8, 11, 10, 9, 4, 7, 6, 5, 0, 3, 2, 1]))

/-- sse41.rs:65-67 -/
def rot7 (a : M128) : Run M128 := do
  xor (← op "_mm_srli_epi32" [7] (mm_srli_epi32 a 7)) (← op "_mm_slli_epi32" [32 - 7] (mm_slli_epi32 a (32 - 7)))

/-- sse41.rs:70-83 -/
def g1 : Rows → M128 → Run Rows
  | ⟨row1, row2, row3, row4⟩, m => do
    let row1 ← add (← add row1 m) row2
    let row4 ← xor row4 row1
    let row4 ← rot16 row4
    let row3 ← add row3 row4
    let row2 ← xor row2 row3
    let row2 ← rot12 row2
    return ⟨row1, row2, row3, row4⟩

/-- sse41.rs:86-99 -/
def g2 : Rows → M128 → Run Rows
  | ⟨row1, row2, row3, row4⟩, m => do
    let row1 ← add (← add row1 m) row2
    let row4 ← xor row4 row1
    let row4 ← rot8 row4
    let row3 ← add row3 row4
    let row2 ← xor row2 row3
    let row2 ← rot7 row2
    return ⟨row1, row2, row3, row4⟩

/-- sse41.rs:112-116 -/
def diagonalize : Rows → Run Rows
  | ⟨row1, row2, row3, row4⟩ => do
    let row1 ← op "_mm_shuffle_epi32" [MM_SHUFFLE 2 1 0 3] (mm_shuffle_epi32 row1 (MM_SHUFFLE 2 1 0 3))
    let row4 ← op "_mm_shuffle_epi32" [MM_SHUFFLE 1 0 3 2] (mm_shuffle_epi32 row4 (MM_SHUFFLE 1 0 3 2))
    let row3 ← op "_mm_shuffle_epi32" [MM_SHUFFLE 0 3 2 1] (mm_shuffle_epi32 row3 (MM_SHUFFLE 0 3 2 1))
    return ⟨row1, row2, row3, row4⟩

/-- sse41.rs:119-123 -/
def undiagonalize : Rows → Run Rows
  | ⟨row1, row2, row3, row4⟩ => do
    let row1 ← op "_mm_shuffle_epi32" [MM_SHUFFLE 0 3 2 1] (mm_shuffle_epi32 row1 (MM_SHUFFLE 0 3 2 1))
    let row4 ← op "_mm_shuffle_epi32" [MM_SHUFFLE 1 0 3 2] (mm_shuffle_epi32 row4 (MM_SHUFFLE 1 0 3 2))
    let row3 ← op "_mm_shuffle_epi32" [MM_SHUFFLE 2 1 0 3] (mm_shuffle_epi32 row3 (MM_SHUFFLE 2 1 0 3))
    return ⟨row1, row2, row3, row4⟩

/-- `compress_inner`, round 1: sse41.rs:148-169 -/
def compress_round1 (m0 m1 m2 m3 : M128) (rows : Rows) : Run Rows := do
  let buf ← op "_mm_shuffle_ps" [MM_SHUFFLE 2 0 2 0] (mm_shuffle_ps m0 m1 (MM_SHUFFLE 2 0 2 0))
  let rows ← g1 rows buf
  let buf ← op "_mm_shuffle_ps" [MM_SHUFFLE 3 1 3 1] (mm_shuffle_ps m0 m1 (MM_SHUFFLE 3 1 3 1))
  let rows ← g2 rows buf
  let rows ← diagonalize rows
  let t0 ← op "_mm_shuffle_epi32" [MM_SHUFFLE 3 2 0 1] (mm_shuffle_epi32 m2 (MM_SHUFFLE 3 2 0 1))
  let t1 ← op "_mm_shuffle_epi32" [MM_SHUFFLE 0 1 3 2] (mm_shuffle_epi32 m3 (MM_SHUFFLE 0 1 3 2))
  let buf ← op "_mm_blend_epi16" [0xC3] (mm_blend_epi16 t0 t1 0xC3)
  let rows ← g1 rows buf
  let t0 ← op "_mm_blend_epi16" [0x3C] (mm_blend_epi16 t0 t1 0x3C)
  let buf ← op "_mm_shuffle_epi32" [MM_SHUFFLE 2 3 0 1] (mm_shuffle_epi32 t0 (MM_SHUFFLE 2 3 0 1))
  let rows ← g2 rows buf
  undiagonalize rows

/-- `compress_inner`, round 2: sse41.rs:171-193 -/
def compress_round2 (m0 m1 m2 m3 : M128) (rows : Rows) : Run Rows := do
  let t0 ← op "_mm_blend_epi16" [0x0C] (mm_blend_epi16 m1 m2 0x0C)
  let t1 ← op "_mm_slli_si128" [4] (mm_slli_si128 m3 4)
  let t2 ← op "_mm_blend_epi16" [0xF0] (mm_blend_epi16 t0 t1 0xF0)
  let buf ← op "_mm_shuffle_epi32" [MM_SHUFFLE 2 1 0 3] (mm_shuffle_epi32 t2 (MM_SHUFFLE 2 1 0 3))
  let rows ← g1 rows buf
  let t0 ← op "_mm_shuffle_epi32" [MM_SHUFFLE 0 0 2 0] (mm_shuffle_epi32 m2 (MM_SHUFFLE 0 0 2 0))
  let t1 ← op "_mm_blend_epi16" [0xC0] (mm_blend_epi16 m1 m3 0xC0)
  let t2 ← op "_mm_blend_epi16" [0xF0] (mm_blend_epi16 t0 t1 0xF0)
  let buf ← op "_mm_shuffle_epi32" [MM_SHUFFLE 2 3 0 1] (mm_shuffle_epi32 t2 (MM_SHUFFLE 2 3 0 1))
  let rows ← g2 rows buf
  let rows ← diagonalize rows
  let t0 ← op "_mm_slli_si128" [4] (mm_slli_si128 m1 4)
  let t1 ← op "_mm_blend_epi16" [0x30] (mm_blend_epi16 m2 t0 0x30)
  let t2 ← op "_mm_blend_epi16" [0xF0] (mm_blend_epi16 m0 t1 0xF0)
  let buf ← op "_mm_shuffle_epi32" [MM_SHUFFLE 3 0 1 2] (mm_shuffle_epi32 t2 (MM_SHUFFLE 3 0 1 2))
  let rows ← g1 rows buf
  let t0 ← op "_mm_unpackhi_epi32" [] (mm_unpackhi_epi32 m0 m1)
  let t1 ← op "_mm_slli_si128" [4] (mm_slli_si128 m3 4)
  let t2 ← op "_mm_blend_epi16" [0x0C] (mm_blend_epi16 t0 t1 0x0C)
  let buf ← op "_mm_shuffle_epi32" [MM_SHUFFLE 3 0 1 2] (mm_shuffle_epi32 t2 (MM_SHUFFLE 3 0 1 2))
  let rows ← g2 rows buf
  undiagonalize rows

/-- `compress_inner`, round 3: sse41.rs:195-217 -/
def compress_round3 (m0 m1 m2 m3 : M128) (rows : Rows) : Run Rows := do
  let t0 ← op "_mm_unpackhi_epi32" [] (mm_unpackhi_epi32 m2 m3)
  let t1 ← op "_mm_blend_epi16" [0x0C] (mm_blend_epi16 m3 m1 0x0C)
  let t2 ← op "_mm_blend_epi16" [0x0F] (mm_blend_epi16 t0 t1 0x0F)
  let buf ← op "_mm_shuffle_epi32" [MM_SHUFFLE 3 1 0 2] (mm_shuffle_epi32 t2 (MM_SHUFFLE 3 1 0 2))
  let rows ← g1 rows buf
  let t0 ← op "_mm_unpacklo_epi32" [] (mm_unpacklo_epi32 m2 m0)
  let t1 ← op "_mm_blend_epi16" [0xF0] (mm_blend_epi16 t0 m0 0xF0)
  let t2 ← op "_mm_slli_si128" [8] (mm_slli_si128 m3 8)
  let buf ← op "_mm_blend_epi16" [0xC0] (mm_blend_epi16 t1 t2 0xC0)
  let rows ← g2 rows buf
  let rows ← diagonalize rows
  let t0 ← op "_mm_blend_epi16" [0x3C] (mm_blend_epi16 m0 m2 0x3C)
  let t1 ← op "_mm_srli_si128" [12] (mm_srli_si128 m1 12)
  let t2 ← op "_mm_blend_epi16" [0x03] (mm_blend_epi16 t0 t1 0x03)
  let buf ← op "_mm_shuffle_epi32" [MM_SHUFFLE 0 3 2 1] (mm_shuffle_epi32 t2 (MM_SHUFFLE 0 3 2 1))
  let rows ← g1 rows buf
  let t0 ← op "_mm_slli_si128" [4] (mm_slli_si128 m3 4)
  let t1 ← op "_mm_blend_epi16" [0x33] (mm_blend_epi16 m0 m1 0x33)
  let t2 ← op "_mm_blend_epi16" [0xC0] (mm_blend_epi16 t1 t0 0xC0)
  let buf ← op "_mm_shuffle_epi32" [MM_SHUFFLE 1 2 3 0] (mm_shuffle_epi32 t2 (MM_SHUFFLE 1 2 3 0))
  let rows ← g2 rows buf
  undiagonalize rows

/-- `compress_inner`, round 4: sse41.rs:219-238 -/
def compress_round4 (m0 m1 m2 m3 : M128) (rows : Rows) : Run Rows := do
  let t0 ← op "_mm_unpackhi_epi32" [] (mm_unpackhi_epi32 m0 m1)
  let t1 ← op "_mm_unpackhi_epi32" [] (mm_unpackhi_epi32 t0 m2)
  let t2 ← op "_mm_blend_epi16" [0x0C] (mm_blend_epi16 t1 m3 0x0C)
  let buf ← op "_mm_shuffle_epi32" [MM_SHUFFLE 3 1 0 2] (mm_shuffle_epi32 t2 (MM_SHUFFLE 3 1 0 2))
  let rows ← g1 rows buf
  let t0 ← op "_mm_slli_si128" [8] (mm_slli_si128 m2 8)
  let t1 ← op "_mm_blend_epi16" [0x0C] (mm_blend_epi16 m3 m0 0x0C)
  let t2 ← op "_mm_blend_epi16" [0xC0] (mm_blend_epi16 t1 t0 0xC0)
  let buf ← op "_mm_shuffle_epi32" [MM_SHUFFLE 2 0 1 3] (mm_shuffle_epi32 t2 (MM_SHUFFLE 2 0 1 3))
  let rows ← g2 rows buf
  let rows ← diagonalize rows
  let t0 ← op "_mm_blend_epi16" [0x0F] (mm_blend_epi16 m0 m1 0x0F)
  let t1 ← op "_mm_blend_epi16" [0xC0] (mm_blend_epi16 t0 m3 0xC0)
  let buf ← op "_mm_shuffle_epi32" [MM_SHUFFLE 0 1 2 3] (mm_shuffle_epi32 t1 (MM_SHUFFLE 0 1 2 3))
  let rows ← g1 rows buf
  let t0 ← op "_mm_alignr_epi8" [4] (mm_alignr_epi8 m0 m1 4)
  let buf ← op "_mm_blend_epi16" [0x33] (mm_blend_epi16 t0 m2 0x33)
  let rows ← g2 rows buf
  undiagonalize rows

/-- `compress_inner`, round 5: sse41.rs:240-261 -/
def compress_round5 (m0 m1 m2 m3 : M128) (rows : Rows) : Run Rows := do
  let t0 ← op "_mm_unpacklo_epi64" [] (mm_unpacklo_epi64 m1 m2)
  let t1 ← op "_mm_unpackhi_epi64" [] (mm_unpackhi_epi64 m0 m2)
  let t2 ← op "_mm_blend_epi16" [0x33] (mm_blend_epi16 t0 t1 0x33)
  let buf ← op "_mm_shuffle_epi32" [MM_SHUFFLE 2 0 1 3] (mm_shuffle_epi32 t2 (MM_SHUFFLE 2 0 1 3))
  let rows ← g1 rows buf
  let t0 ← op "_mm_unpackhi_epi64" [] (mm_unpackhi_epi64 m1 m3)
  let t1 ← op "_mm_unpacklo_epi64" [] (mm_unpacklo_epi64 m0 m1)
  let buf ← op "_mm_blend_epi16" [0x33] (mm_blend_epi16 t0 t1 0x33)
  let rows ← g2 rows buf
  let rows ← diagonalize rows
  let t0 ← op "_mm_unpackhi_epi64" [] (mm_unpackhi_epi64 m3 m1)
  let t1 ← op "_mm_unpackhi_epi64" [] (mm_unpackhi_epi64 m2 m0)
  let t2 ← op "_mm_blend_epi16" [0x33] (mm_blend_epi16 t1 t0 0x33)
  let buf ← op "_mm_shuffle_epi32" [MM_SHUFFLE 2 1 0 3] (mm_shuffle_epi32 t2 (MM_SHUFFLE 2 1 0 3))
  let rows ← g1 rows buf
  let t0 ← op "_mm_blend_epi16" [0x03] (mm_blend_epi16 m0 m2 0x03)
  let t1 ← op "_mm_slli_si128" [8] (mm_slli_si128 t0 8)
  let t2 ← op "_mm_blend_epi16" [0x0F] (mm_blend_epi16 t1 m3 0x0F)
  let buf ← op "_mm_shuffle_epi32" [MM_SHUFFLE 2 0 3 1] (mm_shuffle_epi32 t2 (MM_SHUFFLE 2 0 3 1))
  let rows ← g2 rows buf
  undiagonalize rows

/-- `compress_inner`, round 6: sse41.rs:263-283 -/
def compress_round6 (m0 m1 m2 m3 : M128) (rows : Rows) : Run Rows := do
  let t0 ← op "_mm_unpackhi_epi32" [] (mm_unpackhi_epi32 m0 m1)
  let t1 ← op "_mm_unpacklo_epi32" [] (mm_unpacklo_epi32 m0 m2)
  let buf ← op "_mm_unpacklo_epi64" [] (mm_unpacklo_epi64 t0 t1)
  let rows ← g1 rows buf
  let t0 ← op "_mm_srli_si128" [4] (mm_srli_si128 m2 4)
  let t1 ← op "_mm_blend_epi16" [0x03] (mm_blend_epi16 m0 m3 0x03)
  let buf ← op "_mm_blend_epi16" [0x3C] (mm_blend_epi16 t1 t0 0x3C)
  let rows ← g2 rows buf
  let rows ← diagonalize rows
  let t0 ← op "_mm_blend_epi16" [0x0C] (mm_blend_epi16 m1 m0 0x0C)
  let t1 ← op "_mm_srli_si128" [4] (mm_srli_si128 m3 4)
  let t2 ← op "_mm_blend_epi16" [0x30] (mm_blend_epi16 t0 t1 0x30)
  let buf ← op "_mm_shuffle_epi32" [MM_SHUFFLE 2 3 0 1] (mm_shuffle_epi32 t2 (MM_SHUFFLE 2 3 0 1))
  let rows ← g1 rows buf
  let t0 ← op "_mm_unpacklo_epi64" [] (mm_unpacklo_epi64 m2 m1)
  let t1 ← op "_mm_shuffle_epi32" [MM_SHUFFLE 2 0 1 0] (mm_shuffle_epi32 m3 (MM_SHUFFLE 2 0 1 0))
  let t2 ← op "_mm_srli_si128" [4] (mm_srli_si128 t0 4)
  let buf ← op "_mm_blend_epi16" [0x33] (mm_blend_epi16 t1 t2 0x33)
  let rows ← g2 rows buf
  undiagonalize rows

/-- `compress_inner`, round 7: sse41.rs:285-304 -/
def compress_round7 (m0 m1 m2 m3 : M128) (rows : Rows) : Run Rows := do
  let t0 ← op "_mm_slli_si128" [12] (mm_slli_si128 m1 12)
  let t1 ← op "_mm_blend_epi16" [0x33] (mm_blend_epi16 m0 m3 0x33)
  let buf ← op "_mm_blend_epi16" [0xC0] (mm_blend_epi16 t1 t0 0xC0)
  let rows ← g1 rows buf
  let t0 ← op "_mm_blend_epi16" [0x30] (mm_blend_epi16 m3 m2 0x30)
  let t1 ← op "_mm_srli_si128" [4] (mm_srli_si128 m1 4)
  let t2 ← op "_mm_blend_epi16" [0x03] (mm_blend_epi16 t0 t1 0x03)
  let buf ← op "_mm_shuffle_epi32" [MM_SHUFFLE 2 1 3 0] (mm_shuffle_epi32 t2 (MM_SHUFFLE 2 1 3 0))
  let rows ← g2 rows buf
  let rows ← diagonalize rows
  let t0 ← op "_mm_unpacklo_epi64" [] (mm_unpacklo_epi64 m0 m2)
  let t1 ← op "_mm_srli_si128" [4] (mm_srli_si128 m1 4)
  let buf ← op "_mm_shuffle_epi32" [MM_SHUFFLE 3 1 0 2] (mm_shuffle_epi32 (← op "_mm_blend_epi16" [0x0C] (mm_blend_epi16 t0 t1 0x0C)) (MM_SHUFFLE 3 1 0 2))
  let rows ← g1 rows buf
  let t0 ← op "_mm_unpackhi_epi32" [] (mm_unpackhi_epi32 m1 m2)
  let t1 ← op "_mm_unpackhi_epi64" [] (mm_unpackhi_epi64 m0 t0)
  let buf ← op "_mm_shuffle_epi32" [MM_SHUFFLE 0 1 2 3] (mm_shuffle_epi32 t1 (MM_SHUFFLE 0 1 2 3))
  let rows ← g2 rows buf
  undiagonalize rows

/-- sse41.rs:126-307 -/
def compress_inner (cv : Vector Word 8) (block : Vector Byte 64) (block_len : Byte) (offset : U64) (flags : Byte) : Run Rows := do
  let row1 ← op "loadu cv" [0] (loadArr (memOfWords cv) 0)
  let row2 ← op "loadu cv" [16] (loadArr (memOfWords cv) 16)
  let row3 ← set4 IV[0] IV[1] IV[2] IV[3]
  let row4 ← set4 (← op "offset_low" [] (offset_low offset)) (← op "offset_high" [] (offset_high offset))
    (← op "as" [] (block_len.setWidth 32)) (← op "as" [] (flags.setWidth 32))
  let m0 ← op "loadu block" [0] (loadArr block (0 * 4 * DEGREE))
  let m1 ← op "loadu block" [16] (loadArr block (1 * 4 * DEGREE))
  let m2 ← op "loadu block" [32] (loadArr block (2 * 4 * DEGREE))
  let m3 ← op "loadu block" [48] (loadArr block (3 * 4 * DEGREE))
  let rows ← compress_round1 m0 m1 m2 m3 ⟨row1, row2, row3, row4⟩
  let rows ← compress_round2 m0 m1 m2 m3 rows
  let rows ← compress_round3 m0 m1 m2 m3 rows
  let rows ← compress_round4 m0 m1 m2 m3 rows
  let rows ← compress_round5 m0 m1 m2 m3 rows
  let rows ← compress_round6 m0 m1 m2 m3 rows
  compress_round7 m0 m1 m2 m3 rows

/-- sse41.rs:310-320 -/
def compress (cv : Vector Word 8) (block : Vector Byte 64) (block_len : Byte) (offset : U64) (flags : Byte) : Run (Vector Word 8) := do
  let rows ← compress_inner cv block block_len offset flags
  let row1 ← xor rows.row1 rows.row3
  let row2 ← xor rows.row2 rows.row4
  op "storeu" [0, 16] (wordsOfMem ⟨(regBytes 16 row1 ++ regBytes 16 row2).toArray, by simp [length_regBytes]⟩)

/-- sse41.rs:323-336 -/
def compress_xof (cv : Vector Word 8) (block : Vector Byte 64) (block_len : Byte) (offset : U64) (flags : Byte) : Run (Vector Byte 64) := do
  let rows ← compress_inner cv block block_len offset flags
  let row0 ← xor rows.row1 rows.row3
  let row1 ← xor rows.row2 rows.row4
  let row2 ← xor rows.row3 (← op "loadu cv" [0] (loadArr (memOfWords cv) 0))
  let row3 ← xor rows.row4 (← op "loadu cv" [16] (loadArr (memOfWords cv) 16))
  op "transmute" [] ⟨(regBytes 16 row0 ++ regBytes 16 row1 ++ regBytes 16 row2 ++ regBytes 16 row3).toArray, by simp [length_regBytes]⟩

/-- sse41.rs:339-453; the elements `v[i]` of the state array are the variables `vi` -/
def round (v m : Vector M128 16) (r : Fin 7) : Run (Vector M128 16) := do
  let v0 : M128 := v.get 0
  let v1 : M128 := v.get 1
  let v2 : M128 := v.get 2
  let v3 : M128 := v.get 3
  let v4 : M128 := v.get 4
  let v5 : M128 := v.get 5
  let v6 : M128 := v.get 6
  let v7 : M128 := v.get 7
  let v8 : M128 := v.get 8
  let v9 : M128 := v.get 9
  let v10 : M128 := v.get 10
  let v11 : M128 := v.get 11
  let v12 : M128 := v.get 12
  let v13 : M128 := v.get 13
  let v14 : M128 := v.get 14
  let v15 : M128 := v.get 15
  let v0 ← add v0 (← pick m r 0)
  let v1 ← add v1 (← pick m r 2)
  let v2 ← add v2 (← pick m r 4)
  let v3 ← add v3 (← pick m r 6)
  let v0 ← add v0 v4
  let v1 ← add v1 v5
  let v2 ← add v2 v6
  let v3 ← add v3 v7
  let v12 ← xor v12 v0
  let v13 ← xor v13 v1
  let v14 ← xor v14 v2
  let v15 ← xor v15 v3
  let v12 ← rot16 v12
  let v13 ← rot16 v13
  let v14 ← rot16 v14
  let v15 ← rot16 v15
  let v8 ← add v8 v12
  let v9 ← add v9 v13
  let v10 ← add v10 v14
  let v11 ← add v11 v15
  let v4 ← xor v4 v8
  let v5 ← xor v5 v9
  let v6 ← xor v6 v10
  let v7 ← xor v7 v11
  let v4 ← rot12 v4
  let v5 ← rot12 v5
  let v6 ← rot12 v6
  let v7 ← rot12 v7
  let v0 ← add v0 (← pick m r 1)
  let v1 ← add v1 (← pick m r 3)
  let v2 ← add v2 (← pick m r 5)
  let v3 ← add v3 (← pick m r 7)
  let v0 ← add v0 v4
  let v1 ← add v1 v5
  let v2 ← add v2 v6
  let v3 ← add v3 v7
  let v12 ← xor v12 v0
  let v13 ← xor v13 v1
  let v14 ← xor v14 v2
  let v15 ← xor v15 v3
  let v12 ← rot8 v12
  let v13 ← rot8 v13
  let v14 ← rot8 v14
  let v15 ← rot8 v15
  let v8 ← add v8 v12
  let v9 ← add v9 v13
  let v10 ← add v10 v14
  let v11 ← add v11 v15
  let v4 ← xor v4 v8
  let v5 ← xor v5 v9
  let v6 ← xor v6 v10
  let v7 ← xor v7 v11
  let v4 ← rot7 v4
  let v5 ← rot7 v5
  let v6 ← rot7 v6
  let v7 ← rot7 v7
  let v0 ← add v0 (← pick m r 8)
  let v1 ← add v1 (← pick m r 10)
  let v2 ← add v2 (← pick m r 12)
  let v3 ← add v3 (← pick m r 14)
  let v0 ← add v0 v5
  let v1 ← add v1 v6
  let v2 ← add v2 v7
  let v3 ← add v3 v4
  let v15 ← xor v15 v0
  let v12 ← xor v12 v1
  let v13 ← xor v13 v2
  let v14 ← xor v14 v3
  let v15 ← rot16 v15
  let v12 ← rot16 v12
  let v13 ← rot16 v13
  let v14 ← rot16 v14
  let v10 ← add v10 v15
  let v11 ← add v11 v12
  let v8 ← add v8 v13
  let v9 ← add v9 v14
  let v5 ← xor v5 v10
  let v6 ← xor v6 v11
  let v7 ← xor v7 v8
  let v4 ← xor v4 v9
  let v5 ← rot12 v5
  let v6 ← rot12 v6
  let v7 ← rot12 v7
  let v4 ← rot12 v4
  let v0 ← add v0 (← pick m r 9)
  let v1 ← add v1 (← pick m r 11)
  let v2 ← add v2 (← pick m r 13)
  let v3 ← add v3 (← pick m r 15)
  let v0 ← add v0 v5
  let v1 ← add v1 v6
  let v2 ← add v2 v7
  let v3 ← add v3 v4
  let v15 ← xor v15 v0
  let v12 ← xor v12 v1
  let v13 ← xor v13 v2
  let v14 ← xor v14 v3
  let v15 ← rot8 v15
  let v12 ← rot8 v12
  let v13 ← rot8 v13
  let v14 ← rot8 v14
  let v10 ← add v10 v15
  let v11 ← add v11 v12
  let v8 ← add v8 v13
  let v9 ← add v9 v14
  let v5 ← xor v5 v10
  let v6 ← xor v6 v11
  let v7 ← xor v7 v8
  let v4 ← xor v4 v9
  let v5 ← rot7 v5
  let v6 ← rot7 v6
  let v7 ← rot7 v7
  let v4 ← rot7 v4
  return #v[v0, v1, v2, v3, v4, v5, v6, v7, v8, v9, v10, v11, v12, v13, v14, v15]

/-- sse41.rs:456-475 -/
def transpose_vecs (vecs : Vector M128 DEGREE) : Run (Vector M128 DEGREE) := do
  -- Interleave 32-bit lanes.
  let ab_01 ← op "_mm_unpacklo_epi32" [] (mm_unpacklo_epi32 vecs[0] vecs[1])
  let ab_23 ← op "_mm_unpackhi_epi32" [] (mm_unpackhi_epi32 vecs[0] vecs[1])
  let cd_01 ← op "_mm_unpacklo_epi32" [] (mm_unpacklo_epi32 vecs[2] vecs[3])
  let cd_23 ← op "_mm_unpackhi_epi32" [] (mm_unpackhi_epi32 vecs[2] vecs[3])
  -- Interleave 64-bit lanes.
  let abcd_0 ← op "_mm_unpacklo_epi64" [] (mm_unpacklo_epi64 ab_01 cd_01)
  let abcd_1 ← op "_mm_unpackhi_epi64" [] (mm_unpackhi_epi64 ab_01 cd_01)
  let abcd_2 ← op "_mm_unpacklo_epi64" [] (mm_unpacklo_epi64 ab_23 cd_23)
  let abcd_3 ← op "_mm_unpackhi_epi64" [] (mm_unpackhi_epi64 ab_23 cd_23)
  return #v[abcd_0, abcd_1, abcd_2, abcd_3]

/-- sse41.rs:478-503 -/
def transpose_msg_vecs (inputs : Vector Bytes DEGREE) (block_offset : Nat) : Try (Vector M128 16) := do
  let v0 ← tryOp "loadu" [0, block_offset + 0 * 4 * DEGREE] (Model.Sse41.loadu inputs[0] (block_offset + 0 * 4 * DEGREE))
  let v1 ← tryOp "loadu" [1, block_offset + 0 * 4 * DEGREE] (Model.Sse41.loadu inputs[1] (block_offset + 0 * 4 * DEGREE))
  let v2 ← tryOp "loadu" [2, block_offset + 0 * 4 * DEGREE] (Model.Sse41.loadu inputs[2] (block_offset + 0 * 4 * DEGREE))
  let v3 ← tryOp "loadu" [3, block_offset + 0 * 4 * DEGREE] (Model.Sse41.loadu inputs[3] (block_offset + 0 * 4 * DEGREE))
  let v4 ← tryOp "loadu" [0, block_offset + 1 * 4 * DEGREE] (Model.Sse41.loadu inputs[0] (block_offset + 1 * 4 * DEGREE))
  let v5 ← tryOp "loadu" [1, block_offset + 1 * 4 * DEGREE] (Model.Sse41.loadu inputs[1] (block_offset + 1 * 4 * DEGREE))
  let v6 ← tryOp "loadu" [2, block_offset + 1 * 4 * DEGREE] (Model.Sse41.loadu inputs[2] (block_offset + 1 * 4 * DEGREE))
  let v7 ← tryOp "loadu" [3, block_offset + 1 * 4 * DEGREE] (Model.Sse41.loadu inputs[3] (block_offset + 1 * 4 * DEGREE))
  let v8 ← tryOp "loadu" [0, block_offset + 2 * 4 * DEGREE] (Model.Sse41.loadu inputs[0] (block_offset + 2 * 4 * DEGREE))
  let v9 ← tryOp "loadu" [1, block_offset + 2 * 4 * DEGREE] (Model.Sse41.loadu inputs[1] (block_offset + 2 * 4 * DEGREE))
  let v10 ← tryOp "loadu" [2, block_offset + 2 * 4 * DEGREE] (Model.Sse41.loadu inputs[2] (block_offset + 2 * 4 * DEGREE))
  let v11 ← tryOp "loadu" [3, block_offset + 2 * 4 * DEGREE] (Model.Sse41.loadu inputs[3] (block_offset + 2 * 4 * DEGREE))
  let v12 ← tryOp "loadu" [0, block_offset + 3 * 4 * DEGREE] (Model.Sse41.loadu inputs[0] (block_offset + 3 * 4 * DEGREE))
  let v13 ← tryOp "loadu" [1, block_offset + 3 * 4 * DEGREE] (Model.Sse41.loadu inputs[1] (block_offset + 3 * 4 * DEGREE))
  let v14 ← tryOp "loadu" [2, block_offset + 3 * 4 * DEGREE] (Model.Sse41.loadu inputs[2] (block_offset + 3 * 4 * DEGREE))
  let v15 ← tryOp "loadu" [3, block_offset + 3 * 4 * DEGREE] (Model.Sse41.loadu inputs[3] (block_offset + 3 * 4 * DEGREE))
  let squares_0 ← transpose_vecs #v[v0, v1, v2, v3]
  let squares_1 ← transpose_vecs #v[v4, v5, v6, v7]
  let squares_2 ← transpose_vecs #v[v8, v9, v10, v11]
  let squares_3 ← transpose_vecs #v[v12, v13, v14, v15]
  return squares_0 ++ squares_1 ++ squares_2 ++ squares_3

/-- sse41.rs:506-521 -/
def load_offsets (offset offset_delta : U64) : Try (M128 × M128) := do
  let o0 ← tryOp "offset" [] (Model.Sse41.offset_plus offset 0 offset_delta)
  let o1 ← tryOp "offset" [] (Model.Sse41.offset_plus offset 1 offset_delta)
  let o2 ← tryOp "offset" [] (Model.Sse41.offset_plus offset 2 offset_delta)
  let o3 ← tryOp "offset" [] (Model.Sse41.offset_plus offset 3 offset_delta)
  let l0 ← op "offset_low" [] (offset_low o0)
  let l1 ← op "offset_low" [] (offset_low o1)
  let l2 ← op "offset_low" [] (offset_low o2)
  let l3 ← op "offset_low" [] (offset_low o3)
  let h0 ← op "offset_high" [] (offset_high o0)
  let h1 ← op "offset_high" [] (offset_high o1)
  let h2 ← op "offset_high" [] (offset_high o2)
  let h3 ← op "offset_high" [] (offset_high o3)
  return ((← set4 l0 l1 l2 l3), (← set4 h0 h1 h2 h3))

/-- The loop body of `hash4` after the message has been loaded, sse41.rs:556-595 -/
def hash4_block (h_vecs : Vector M128 8) (offset_low_vec offset_high_vec block_len_vec block_flags_vec : M128) (msg_vecs : Vector M128 16) :
    Run (Vector M128 8) := do
  let iv0 ← set1 IV[0]
  let iv1 ← set1 IV[1]
  let iv2 ← set1 IV[2]
  let iv3 ← set1 IV[3]
  let v : Vector M128 16 :=
    #v[h_vecs[0], h_vecs[1], h_vecs[2], h_vecs[3], h_vecs[4], h_vecs[5], h_vecs[6], h_vecs[7],
       iv0, iv1, iv2, iv3, offset_low_vec, offset_high_vec, block_len_vec, block_flags_vec]
  let v ← round v msg_vecs 0
  let v ← round v msg_vecs 1
  let v ← round v msg_vecs 2
  let v ← round v msg_vecs 3
  let v ← round v msg_vecs 4
  let v ← round v msg_vecs 5
  let v ← round v msg_vecs 6
  let h0 ← xor v[0] v[8]
  let h1 ← xor v[1] v[9]
  let h2 ← xor v[2] v[10]
  let h3 ← xor v[3] v[11]
  let h4 ← xor v[4] v[12]
  let h5 ← xor v[5] v[13]
  let h6 ← xor v[6] v[14]
  let h7 ← xor v[7] v[15]
  return #v[h0, h1, h2, h3, h4, h5, h6, h7]

/-- The loop `for block in 0..blocks` of `hash4`, sse41.rs:548-594; `n` iterations remain. -/
def hash4_loop (inputs : Vector Bytes DEGREE) (blocks : Nat) (offset_low_vec offset_high_vec : M128)
    (flags flags_end : Byte) : (n block : Nat) → (h_vecs : Vector M128 8) → (block_flags : Byte) → Try (Vector M128 8)
  | 0, _, h_vecs, _ => do
    test "for" false
    return h_vecs
  | n + 1, block, h_vecs, block_flags => do
    test "for" true
    test "if" (block + 1 = blocks)
    let block_flags := if block + 1 = blocks then block_flags ||| flags_end else block_flags
    let block_len_vec ← set1 (BitVec.ofNat 32 BLOCK_LEN)
    let block_flags_vec ← set1 (block_flags.setWidth 32)
    let msg_vecs ← transpose_msg_vecs inputs (block * BLOCK_LEN)
    let h_vecs ← hash4_block h_vecs offset_low_vec offset_high_vec block_len_vec block_flags_vec msg_vecs
    hash4_loop inputs blocks offset_low_vec offset_high_vec flags flags_end n (block + 1) h_vecs flags

/-- sse41.rs:524-610 -/
def hash4 (inputs : Vector Bytes DEGREE) (blocks : Nat) (key : Vector Word 8)
    (offset offset_delta : U64) (flags flags_start flags_end : Byte) (out : Bytes) : Try Bytes := do
  let k0 ← set1 key[0]
  let k1 ← set1 key[1]
  let k2 ← set1 key[2]
  let k3 ← set1 key[3]
  let k4 ← set1 key[4]
  let k5 ← set1 key[5]
  let k6 ← set1 key[6]
  let k7 ← set1 key[7]
  let h_vecs : Vector M128 8 := #v[k0, k1, k2, k3, k4, k5, k6, k7]
  let (offset_low_vec, offset_high_vec) ← load_offsets offset offset_delta
  let h_vecs ← hash4_loop inputs blocks offset_low_vec offset_high_vec flags flags_end blocks 0 h_vecs (flags ||| flags_start)
  let sq0 ← transpose_vecs #v[h_vecs[0], h_vecs[1], h_vecs[2], h_vecs[3]]
  let sq1 ← transpose_vecs #v[h_vecs[4], h_vecs[5], h_vecs[6], h_vecs[7]]
  let out ← tryOp "storeu" [0 * 4 * DEGREE] (writeAt out (0 * 4 * DEGREE) (regBytes 16 sq0[0]))
  let out ← tryOp "storeu" [1 * 4 * DEGREE] (writeAt out (1 * 4 * DEGREE) (regBytes 16 sq1[0]))
  let out ← tryOp "storeu" [2 * 4 * DEGREE] (writeAt out (2 * 4 * DEGREE) (regBytes 16 sq0[1]))
  let out ← tryOp "storeu" [3 * 4 * DEGREE] (writeAt out (3 * 4 * DEGREE) (regBytes 16 sq1[1]))
  let out ← tryOp "storeu" [4 * 4 * DEGREE] (writeAt out (4 * 4 * DEGREE) (regBytes 16 sq0[2]))
  let out ← tryOp "storeu" [5 * 4 * DEGREE] (writeAt out (5 * 4 * DEGREE) (regBytes 16 sq1[2]))
  let out ← tryOp "storeu" [6 * 4 * DEGREE] (writeAt out (6 * 4 * DEGREE) (regBytes 16 sq0[3]))
  let out ← tryOp "storeu" [7 * 4 * DEGREE] (writeAt out (7 * 4 * DEGREE) (regBytes 16 sq1[3]))
  return out

/-- The loop of `hash1`, sse41.rs:623-639. -/
def hash1_loop (flags flags_end : Byte) (offset : U64) (cv : Vector Word 8) (block_flags : Byte) (slice : Bytes) : Try (Vector Word 8) :=
  if _h : BLOCK_LEN ≤ slice.length then do
    test "while" true
    test "if" (slice.length = BLOCK_LEN)
    let block_flags := if slice.length = BLOCK_LEN then block_flags ||| flags_end else block_flags
    let block ← tryOp "array_ref" [slice.length, 0, BLOCK_LEN] (arrayRef slice 0 BLOCK_LEN)
    let cv ← compress cv block (BitVec.ofNat 8 BLOCK_LEN) offset block_flags
    hash1_loop flags flags_end offset cv flags (slice.drop BLOCK_LEN)
  else do
    test "while" false
    return cv
termination_by slice.length
decreasing_by simp [BLOCK_LEN] at *; omega

/-- sse41.rs:613-641 -/
def hash1 (input : Bytes) (key : Vector Word 8) (offset : U64) (flags flags_start flags_end : Byte) : Try (Vector Byte 32) := do
  tryOp "debug_assert" [] (assertR (input.length % BLOCK_LEN = 0))
  let cv ← hash1_loop flags flags_end offset key (flags ||| flags_start) input
  op "transmute" [] (memOfWords cv)

/-- The `for` loop of `hash_many`, sse41.rs:675-686. -/
def hash_many_tail (key : Vector Word 8) (offset_delta : U64) (flags flags_start flags_end : Byte) :
    (inputs : List Bytes) → (offset : U64) → (out : Bytes) → Try Bytes
  | [], _, out => do
    test "for" false
    return out
  | input :: inputs, offset, out =>
    if out.length < OUT_LEN then do
      test "for" false
      return out
    else do
      test "for" true
      let h ← hash1 input key offset flags flags_start flags_end
      let offset ← tryOp "+=" [] (addU64 offset offset_delta)
      let rest ← hash_many_tail key offset_delta flags flags_start flags_end inputs offset (out.drop OUT_LEN)
      return h.toList ++ rest

/-- The `while` loop of `hash_many`, sse41.rs:655-674; `capacity` is `A::CAPACITY`. -/
def hash_many_loop (capacity : Nat) (key : Vector Word 8) (offset_delta : U64)
    (flags flags_start flags_end : Byte) (inputs : List Bytes) (offset : U64) (out : Bytes) : Try Bytes :=
  if _h : DEGREE ≤ inputs.length ∧ DEGREE * OUT_LEN ≤ out.length then do
    test "while" true
    let input_ptrs ← tryOp "array_ref" [inputs.length, 0, DEGREE] (arrayRef inputs 0 DEGREE)
    let blocks := capacity / BLOCK_LEN
    let o ← hash4 input_ptrs blocks key offset offset_delta flags flags_start flags_end (out.take (DEGREE * OUT_LEN))
    let offset ← tryOp "+=" [] (Model.Sse41.offset_plus offset (BitVec.ofNat 64 DEGREE) offset_delta)
    let rest ← hash_many_loop capacity key offset_delta flags flags_start flags_end
      (inputs.drop DEGREE) offset (out.drop (DEGREE * OUT_LEN))
    return o ++ rest
  else do
    test "while" false
    hash_many_tail key offset_delta flags flags_start flags_end inputs offset out
termination_by inputs.length
decreasing_by simp [DEGREE] at *; omega

/-- sse41.rs:644-687 -/
def hash_many (capacity : Nat) (inputs : List Bytes) (key : Vector Word 8) (offset offset_delta : U64)
    (flags flags_start flags_end : Byte) (out : Bytes) : Try Bytes := do
  tryOp "debug_assert" [] (assertR (inputs.length * OUT_LEN ≤ out.length))
  hash_many_loop capacity key offset_delta flags flags_start flags_end inputs offset out

end Sse41

namespace Avx2
open Baokeshed.Model.Avx2 (DEGREE)

/-- avx2.rs:24-26 -/
def add (a b : M256) : Run M256 := op "_mm256_add_epi32" [] (mm256_add_epi32 a b)

/-- avx2.rs:29-31 -/
def xor (a b : M256) : Run M256 := op "_mm256_xor_si256" [] (mm256_xor_si256 a b)

/-- avx2.rs:34-36 -/
def set1 (x : Word) : Run M256 := op "_mm256_set1_epi32" [] (mm256_set1_epi32 x)

/-- avx2.rs:39-43 -/
def set8 (a b c d e f g h : Word) : Run M256 := op "_mm256_setr_epi32" [] (mm256_setr_epi32 a b c d e f g h)

/-- avx2.rs:46-54 -/
def rot16 (x : M256) : Run M256 :=
  op "_mm256_shuffle_epi8" [] (mm256_shuffle_epi8 x (mm256_set_epi8 #v[13, 12, 15, 14, 9, 8, 11, 10, 5, 4, 7, 6, 1, 0, 3, 2, 13, 12, 15, 14, 9, 8, 11, 10, 5, 4, 7, 6, 1, 0, 3, 2]))

/-- avx2.rs:57-59 -/
def rot12 (x : M256) : Run M256 := do
  op "_mm256_or_si256" [] (mm256_or_si256 (← op "_mm256_srli_epi32" [12] (mm256_srli_epi32 x 12)) (← op "_mm256_slli_epi32" [20] (mm256_slli_epi32 x 20)))

/-- avx2.rs:62-70 -/
def rot8 (x : M256) : Run M256 :=
  op "_mm256_shuffle_epi8" [] (mm256_shuffle_epi8 x (mm256_set_epi8 #v[12, 15, 14, 13, 8, 11, 10, 9, 4, 7, 6, 5, 0, 3, 2, 1, 12, 15, 14, 13, 8, 11, 10, 9, 4, 7, 6, 5, 0, 3, 2, 1]))

/-- avx2.rs:73-75 -/
def rot7 (x : M256) : Run M256 := do
  op "_mm256_or_si256" [] (mm256_or_si256 (← op "_mm256_srli_epi32" [7] (mm256_srli_epi32 x 7)) (← op "_mm256_slli_epi32" [25] (mm256_slli_epi32 x 25)))

/-- avx2.rs:78-192; the elements `v[i]` of the state array are the variables `vi` -/
def round (v m : Vector M256 16) (r : Fin 7) : Run (Vector M256 16) := do
  let v0 : M256 := v.get 0
  let v1 : M256 := v.get 1
  let v2 : M256 := v.get 2
  let v3 : M256 := v.get 3
  let v4 : M256 := v.get 4
  let v5 : M256 := v.get 5
  let v6 : M256 := v.get 6
  let v7 : M256 := v.get 7
  let v8 : M256 := v.get 8
  let v9 : M256 := v.get 9
  let v10 : M256 := v.get 10
  let v11 : M256 := v.get 11
  let v12 : M256 := v.get 12
  let v13 : M256 := v.get 13
  let v14 : M256 := v.get 14
  let v15 : M256 := v.get 15
  let v0 ← add v0 (← pick m r 0)
  let v1 ← add v1 (← pick m r 2)
  let v2 ← add v2 (← pick m r 4)
  let v3 ← add v3 (← pick m r 6)
  let v0 ← add v0 v4
  let v1 ← add v1 v5
  let v2 ← add v2 v6
  let v3 ← add v3 v7
  let v12 ← xor v12 v0
  let v13 ← xor v13 v1
  let v14 ← xor v14 v2
  let v15 ← xor v15 v3
  let v12 ← rot16 v12
  let v13 ← rot16 v13
  let v14 ← rot16 v14
  let v15 ← rot16 v15
  let v8 ← add v8 v12
  let v9 ← add v9 v13
  let v10 ← add v10 v14
  let v11 ← add v11 v15
  let v4 ← xor v4 v8
  let v5 ← xor v5 v9
  let v6 ← xor v6 v10
  let v7 ← xor v7 v11
  let v4 ← rot12 v4
  let v5 ← rot12 v5
  let v6 ← rot12 v6
  let v7 ← rot12 v7
  let v0 ← add v0 (← pick m r 1)
  let v1 ← add v1 (← pick m r 3)
  let v2 ← add v2 (← pick m r 5)
  let v3 ← add v3 (← pick m r 7)
  let v0 ← add v0 v4
  let v1 ← add v1 v5
  let v2 ← add v2 v6
  let v3 ← add v3 v7
  let v12 ← xor v12 v0
  let v13 ← xor v13 v1
  let v14 ← xor v14 v2
  let v15 ← xor v15 v3
  let v12 ← rot8 v12
  let v13 ← rot8 v13
  let v14 ← rot8 v14
  let v15 ← rot8 v15
  let v8 ← add v8 v12
  let v9 ← add v9 v13
  let v10 ← add v10 v14
  let v11 ← add v11 v15
  let v4 ← xor v4 v8
  let v5 ← xor v5 v9
  let v6 ← xor v6 v10
  let v7 ← xor v7 v11
  let v4 ← rot7 v4
  let v5 ← rot7 v5
  let v6 ← rot7 v6
  let v7 ← rot7 v7
  let v0 ← add v0 (← pick m r 8)
  let v1 ← add v1 (← pick m r 10)
  let v2 ← add v2 (← pick m r 12)
  let v3 ← add v3 (← pick m r 14)
  let v0 ← add v0 v5
  let v1 ← add v1 v6
  let v2 ← add v2 v7
  let v3 ← add v3 v4
  let v15 ← xor v15 v0
  let v12 ← xor v12 v1
  let v13 ← xor v13 v2
  let v14 ← xor v14 v3
  let v15 ← rot16 v15
  let v12 ← rot16 v12
  let v13 ← rot16 v13
  let v14 ← rot16 v14
  let v10 ← add v10 v15
  let v11 ← add v11 v12
  let v8 ← add v8 v13
  let v9 ← add v9 v14
  let v5 ← xor v5 v10
  let v6 ← xor v6 v11
  let v7 ← xor v7 v8
  let v4 ← xor v4 v9
  let v5 ← rot12 v5
  let v6 ← rot12 v6
  let v7 ← rot12 v7
  let v4 ← rot12 v4
  let v0 ← add v0 (← pick m r 9)
  let v1 ← add v1 (← pick m r 11)
  let v2 ← add v2 (← pick m r 13)
  let v3 ← add v3 (← pick m r 15)
  let v0 ← add v0 v5
  let v1 ← add v1 v6
  let v2 ← add v2 v7
  let v3 ← add v3 v4
  let v15 ← xor v15 v0
  let v12 ← xor v12 v1
  let v13 ← xor v13 v2
  let v14 ← xor v14 v3
  let v15 ← rot8 v15
  let v12 ← rot8 v12
  let v13 ← rot8 v13
  let v14 ← rot8 v14
  let v10 ← add v10 v15
  let v11 ← add v11 v12
  let v8 ← add v8 v13
  let v9 ← add v9 v14
  let v5 ← xor v5 v10
  let v6 ← xor v6 v11
  let v7 ← xor v7 v8
  let v4 ← xor v4 v9
  let v5 ← rot7 v5
  let v6 ← rot7 v6
  let v7 ← rot7 v7
  let v4 ← rot7 v4
  return #v[v0, v1, v2, v3, v4, v5, v6, v7, v8, v9, v10, v11, v12, v13, v14, v15]

/-- avx2.rs:195-200 -/
def interleave128 (a b : M256) : Run (M256 × M256) := do
  return ((← op "_mm256_permute2x128_si256" [0x20] (mm256_permute2x128_si256 a b 0x20)), (← op "_mm256_permute2x128_si256" [0x31] (mm256_permute2x128_si256 a b 0x31)))

/-- avx2.rs:209-244 -/
def transpose_vecs (vecs : Vector M256 DEGREE) : Run (Vector M256 DEGREE) := do
  -- Interleave 32-bit lanes. The low unpack is lanes 00/11/44/55, and the high is 22/33/66/77.
  let ab_0145 ← op "_mm256_unpacklo_epi32" [] (mm256_unpacklo_epi32 vecs[0] vecs[1])
  let ab_2367 ← op "_mm256_unpackhi_epi32" [] (mm256_unpackhi_epi32 vecs[0] vecs[1])
  let cd_0145 ← op "_mm256_unpacklo_epi32" [] (mm256_unpacklo_epi32 vecs[2] vecs[3])
  let cd_2367 ← op "_mm256_unpackhi_epi32" [] (mm256_unpackhi_epi32 vecs[2] vecs[3])
  let ef_0145 ← op "_mm256_unpacklo_epi32" [] (mm256_unpacklo_epi32 vecs[4] vecs[5])
  let ef_2367 ← op "_mm256_unpackhi_epi32" [] (mm256_unpackhi_epi32 vecs[4] vecs[5])
  let gh_0145 ← op "_mm256_unpacklo_epi32" [] (mm256_unpacklo_epi32 vecs[6] vecs[7])
  let gh_2367 ← op "_mm256_unpackhi_epi32" [] (mm256_unpackhi_epi32 vecs[6] vecs[7])
  -- Interleave 64-bit lanes. The low unpack is lanes 00/22 and the high is 11/33.
  let abcd_04 ← op "_mm256_unpacklo_epi64" [] (mm256_unpacklo_epi64 ab_0145 cd_0145)
  let abcd_15 ← op "_mm256_unpackhi_epi64" [] (mm256_unpackhi_epi64 ab_0145 cd_0145)
  let abcd_26 ← op "_mm256_unpacklo_epi64" [] (mm256_unpacklo_epi64 ab_2367 cd_2367)
  let abcd_37 ← op "_mm256_unpackhi_epi64" [] (mm256_unpackhi_epi64 ab_2367 cd_2367)
  let efgh_04 ← op "_mm256_unpacklo_epi64" [] (mm256_unpacklo_epi64 ef_0145 gh_0145)
  let efgh_15 ← op "_mm256_unpackhi_epi64" [] (mm256_unpackhi_epi64 ef_0145 gh_0145)
  let efgh_26 ← op "_mm256_unpacklo_epi64" [] (mm256_unpacklo_epi64 ef_2367 gh_2367)
  let efgh_37 ← op "_mm256_unpackhi_epi64" [] (mm256_unpackhi_epi64 ef_2367 gh_2367)
  -- Interleave 128-bit lanes.
  let p04 ← interleave128 abcd_04 efgh_04
  let p15 ← interleave128 abcd_15 efgh_15
  let p26 ← interleave128 abcd_26 efgh_26
  let p37 ← interleave128 abcd_37 efgh_37
  return #v[p04.1, p15.1, p26.1, p37.1, p04.2, p15.2, p26.2, p37.2]

/-- avx2.rs:247-270 -/
def transpose_msg_vecs (inputs : Vector Bytes DEGREE) (block_offset : Nat) : Try (Vector M256 16) := do
  let v0 ← tryOp "loadu" [0, block_offset + 0 * 4 * DEGREE] (Model.Avx2.loadu inputs[0] (block_offset + 0 * 4 * DEGREE))
  let v1 ← tryOp "loadu" [1, block_offset + 0 * 4 * DEGREE] (Model.Avx2.loadu inputs[1] (block_offset + 0 * 4 * DEGREE))
  let v2 ← tryOp "loadu" [2, block_offset + 0 * 4 * DEGREE] (Model.Avx2.loadu inputs[2] (block_offset + 0 * 4 * DEGREE))
  let v3 ← tryOp "loadu" [3, block_offset + 0 * 4 * DEGREE] (Model.Avx2.loadu inputs[3] (block_offset + 0 * 4 * DEGREE))
  let v4 ← tryOp "loadu" [4, block_offset + 0 * 4 * DEGREE] (Model.Avx2.loadu inputs[4] (block_offset + 0 * 4 * DEGREE))
  let v5 ← tryOp "loadu" [5, block_offset + 0 * 4 * DEGREE] (Model.Avx2.loadu inputs[5] (block_offset + 0 * 4 * DEGREE))
  let v6 ← tryOp "loadu" [6, block_offset + 0 * 4 * DEGREE] (Model.Avx2.loadu inputs[6] (block_offset + 0 * 4 * DEGREE))
  let v7 ← tryOp "loadu" [7, block_offset + 0 * 4 * DEGREE] (Model.Avx2.loadu inputs[7] (block_offset + 0 * 4 * DEGREE))
  let v8 ← tryOp "loadu" [0, block_offset + 1 * 4 * DEGREE] (Model.Avx2.loadu inputs[0] (block_offset + 1 * 4 * DEGREE))
  let v9 ← tryOp "loadu" [1, block_offset + 1 * 4 * DEGREE] (Model.Avx2.loadu inputs[1] (block_offset + 1 * 4 * DEGREE))
  let v10 ← tryOp "loadu" [2, block_offset + 1 * 4 * DEGREE] (Model.Avx2.loadu inputs[2] (block_offset + 1 * 4 * DEGREE))
  let v11 ← tryOp "loadu" [3, block_offset + 1 * 4 * DEGREE] (Model.Avx2.loadu inputs[3] (block_offset + 1 * 4 * DEGREE))
  let v12 ← tryOp "loadu" [4, block_offset + 1 * 4 * DEGREE] (Model.Avx2.loadu inputs[4] (block_offset + 1 * 4 * DEGREE))
  let v13 ← tryOp "loadu" [5, block_offset + 1 * 4 * DEGREE] (Model.Avx2.loadu inputs[5] (block_offset + 1 * 4 * DEGREE))
  let v14 ← tryOp "loadu" [6, block_offset + 1 * 4 * DEGREE] (Model.Avx2.loadu inputs[6] (block_offset + 1 * 4 * DEGREE))
  let v15 ← tryOp "loadu" [7, block_offset + 1 * 4 * DEGREE] (Model.Avx2.loadu inputs[7] (block_offset + 1 * 4 * DEGREE))
  let squares_0 ← transpose_vecs #v[v0, v1, v2, v3, v4, v5, v6, v7]
  let squares_1 ← transpose_vecs #v[v8, v9, v10, v11, v12, v13, v14, v15]
  return squares_0 ++ squares_1

/-- avx2.rs:273-296 -/
def load_offsets (offset offset_delta : U64) : Try (M256 × M256) := do
  let o0 ← tryOp "offset" [] (Model.Sse41.offset_plus offset 0 offset_delta)
  let o1 ← tryOp "offset" [] (Model.Sse41.offset_plus offset 1 offset_delta)
  let o2 ← tryOp "offset" [] (Model.Sse41.offset_plus offset 2 offset_delta)
  let o3 ← tryOp "offset" [] (Model.Sse41.offset_plus offset 3 offset_delta)
  let o4 ← tryOp "offset" [] (Model.Sse41.offset_plus offset 4 offset_delta)
  let o5 ← tryOp "offset" [] (Model.Sse41.offset_plus offset 5 offset_delta)
  let o6 ← tryOp "offset" [] (Model.Sse41.offset_plus offset 6 offset_delta)
  let o7 ← tryOp "offset" [] (Model.Sse41.offset_plus offset 7 offset_delta)
  let l0 ← op "offset_low" [] (offset_low o0)
  let l1 ← op "offset_low" [] (offset_low o1)
  let l2 ← op "offset_low" [] (offset_low o2)
  let l3 ← op "offset_low" [] (offset_low o3)
  let l4 ← op "offset_low" [] (offset_low o4)
  let l5 ← op "offset_low" [] (offset_low o5)
  let l6 ← op "offset_low" [] (offset_low o6)
  let l7 ← op "offset_low" [] (offset_low o7)
  let h0 ← op "offset_high" [] (offset_high o0)
  let h1 ← op "offset_high" [] (offset_high o1)
  let h2 ← op "offset_high" [] (offset_high o2)
  let h3 ← op "offset_high" [] (offset_high o3)
  let h4 ← op "offset_high" [] (offset_high o4)
  let h5 ← op "offset_high" [] (offset_high o5)
  let h6 ← op "offset_high" [] (offset_high o6)
  let h7 ← op "offset_high" [] (offset_high o7)
  return ((← set8 l0 l1 l2 l3 l4 l5 l6 l7), (← set8 h0 h1 h2 h3 h4 h5 h6 h7))

/-- The loop body of `hash8` after the message has been loaded, avx2.rs:335-367 -/
def hash8_block (h_vecs : Vector M256 8) (offset_low_vec offset_high_vec block_len_vec block_flags_vec : M256) (msg_vecs : Vector M256 16) :
    Run (Vector M256 8) := do
  let iv0 ← set1 IV[0]
  let iv1 ← set1 IV[1]
  let iv2 ← set1 IV[2]
  let iv3 ← set1 IV[3]
  let v : Vector M256 16 :=
    #v[h_vecs[0], h_vecs[1], h_vecs[2], h_vecs[3], h_vecs[4], h_vecs[5], h_vecs[6], h_vecs[7],
       iv0, iv1, iv2, iv3, offset_low_vec, offset_high_vec, block_len_vec, block_flags_vec]
  let v ← round v msg_vecs 0
  let v ← round v msg_vecs 1
  let v ← round v msg_vecs 2
  let v ← round v msg_vecs 3
  let v ← round v msg_vecs 4
  let v ← round v msg_vecs 5
  let v ← round v msg_vecs 6
  let h0 ← xor v[0] v[8]
  let h1 ← xor v[1] v[9]
  let h2 ← xor v[2] v[10]
  let h3 ← xor v[3] v[11]
  let h4 ← xor v[4] v[12]
  let h5 ← xor v[5] v[13]
  let h6 ← xor v[6] v[14]
  let h7 ← xor v[7] v[15]
  return #v[h0, h1, h2, h3, h4, h5, h6, h7]

/-- The loop `for block in 0..blocks` of `hash8`, avx2.rs:323-370; `n` iterations remain. -/
def hash8_loop (inputs : Vector Bytes DEGREE) (blocks : Nat) (offset_low_vec offset_high_vec : M256)
    (flags flags_end : Byte) : (n block : Nat) → (h_vecs : Vector M256 8) → (block_flags : Byte) → Try (Vector M256 8)
  | 0, _, h_vecs, _ => do
    test "for" false
    return h_vecs
  | n + 1, block, h_vecs, block_flags => do
    test "for" true
    test "if" (block + 1 = blocks)
    let block_flags := if block + 1 = blocks then block_flags ||| flags_end else block_flags
    let block_len_vec ← set1 (BitVec.ofNat 32 BLOCK_LEN)
    let block_flags_vec ← set1 (block_flags.setWidth 32)
    let msg_vecs ← transpose_msg_vecs inputs (block * BLOCK_LEN)
    let h_vecs ← hash8_block h_vecs offset_low_vec offset_high_vec block_len_vec block_flags_vec msg_vecs
    hash8_loop inputs blocks offset_low_vec offset_high_vec flags flags_end n (block + 1) h_vecs flags

/-- avx2.rs:299-381 -/
def hash8 (inputs : Vector Bytes DEGREE) (blocks : Nat) (key : Vector Word 8)
    (offset offset_delta : U64) (flags flags_start flags_end : Byte) (out : Bytes) : Try Bytes := do
  let k0 ← set1 key[0]
  let k1 ← set1 key[1]
  let k2 ← set1 key[2]
  let k3 ← set1 key[3]
  let k4 ← set1 key[4]
  let k5 ← set1 key[5]
  let k6 ← set1 key[6]
  let k7 ← set1 key[7]
  let h_vecs : Vector M256 8 := #v[k0, k1, k2, k3, k4, k5, k6, k7]
  let (offset_low_vec, offset_high_vec) ← load_offsets offset offset_delta
  let h_vecs ← hash8_loop inputs blocks offset_low_vec offset_high_vec flags flags_end blocks 0 h_vecs (flags ||| flags_start)
  let h_vecs ← transpose_vecs h_vecs
  let out ← tryOp "storeu" [0 * 4 * DEGREE] (writeAt out (0 * 4 * DEGREE) (regBytes 32 h_vecs[0]))
  let out ← tryOp "storeu" [1 * 4 * DEGREE] (writeAt out (1 * 4 * DEGREE) (regBytes 32 h_vecs[1]))
  let out ← tryOp "storeu" [2 * 4 * DEGREE] (writeAt out (2 * 4 * DEGREE) (regBytes 32 h_vecs[2]))
  let out ← tryOp "storeu" [3 * 4 * DEGREE] (writeAt out (3 * 4 * DEGREE) (regBytes 32 h_vecs[3]))
  let out ← tryOp "storeu" [4 * 4 * DEGREE] (writeAt out (4 * 4 * DEGREE) (regBytes 32 h_vecs[4]))
  let out ← tryOp "storeu" [5 * 4 * DEGREE] (writeAt out (5 * 4 * DEGREE) (regBytes 32 h_vecs[5]))
  let out ← tryOp "storeu" [6 * 4 * DEGREE] (writeAt out (6 * 4 * DEGREE) (regBytes 32 h_vecs[6]))
  let out ← tryOp "storeu" [7 * 4 * DEGREE] (writeAt out (7 * 4 * DEGREE) (regBytes 32 h_vecs[7]))
  return out

/-- The `while` loop of `hash_many`, avx2.rs:395-424; `capacity` is `A::CAPACITY`. -/
def hash_many_loop (capacity : Nat) (key : Vector Word 8) (offset_delta : U64)
    (flags flags_start flags_end : Byte) (inputs : List Bytes) (offset : U64) (out : Bytes) : Try Bytes :=
  if _h : DEGREE ≤ inputs.length ∧ DEGREE * OUT_LEN ≤ out.length then do
    test "while" true
    let input_ptrs ← tryOp "array_ref" [inputs.length, 0, DEGREE] (arrayRef inputs 0 DEGREE)
    let blocks := capacity / BLOCK_LEN
    let o ← hash8 input_ptrs blocks key offset offset_delta flags flags_start flags_end (out.take (DEGREE * OUT_LEN))
    let offset ← tryOp "+=" [] (Model.Sse41.offset_plus offset (BitVec.ofNat 64 DEGREE) offset_delta)
    let rest ← hash_many_loop capacity key offset_delta flags flags_start flags_end
      (inputs.drop DEGREE) offset (out.drop (DEGREE * OUT_LEN))
    return o ++ rest
  else do
    test "while" false
    Sse41.hash_many capacity inputs key offset offset_delta flags flags_start flags_end out
termination_by inputs.length
decreasing_by simp [DEGREE] at *; omega

/-- avx2.rs:384-425 -/
def hash_many (capacity : Nat) (inputs : List Bytes) (key : Vector Word 8) (offset offset_delta : U64)
    (flags flags_start flags_end : Byte) (out : Bytes) : Try Bytes := do
  tryOp "debug_assert" [] (assertR (inputs.length * OUT_LEN ≤ out.length))
  hash_many_loop capacity key offset_delta flags flags_start flags_end inputs offset out

end Avx2

end Baokeshed.Model.Steps
