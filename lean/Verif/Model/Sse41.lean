import Verif.Model.Portable
import Verif.Model.Simd

/-!
# Model of /repo/src/sse41.rs

Line by line; `&mut` parameters become results.  Raw pointer reads of the inputs go through
`mm_loadu_si128`, which fails with `Panic.ub` outside the array; reads and writes of fixed-size
local arrays carry their bounds proof.
-/

namespace Baokeshed.Model

/-- an unaligned 16-byte load from a fixed-size array, in bounds by construction -/
def loadArr {n : Nat} (p : Vector Byte n) (off : Nat) (_h : off + 16 ≤ n := by decide) : M128 :=
  fromLanes 8 16 fun i => p.toList.getD (off + i) 0

/-- the bytes of `[u32; 8]` in memory on a little-endian machine (x86) -/
def memOfWords (ws : Vector Word 8) : Vector Byte 32 :=
  ⟨(ws.toList.flatMap leBytes).toArray, by rw [List.size_toArray, length_flatMap_leBytes]; simp⟩

/-- the `[u32; 8]` whose bytes in memory (x86) are `b` -/
def wordsOfMem (b : Vector Byte 32) : Vector Word 8 :=
  Vector.ofFn fun i : Fin 8 =>
    leWord b[4 * i.val] b[4 * i.val + 1] b[4 * i.val + 2] b[4 * i.val + 3]

theorem length_regBytes (k : Nat) {n : Nat} (x : BitVec n) : (regBytes k x).length = k := by
  simp [regBytes]

namespace Sse41

/-- sse41.rs:9 -/
abbrev DEGREE : Nat := 4

/-- sse41.rs:12-15 -/
def loadu (src : Bytes) (off : Nat) : R M128 := mm_loadu_si128 src off
/-- sse41.rs:24-26 -/
def add (a b : M128) : M128 := mm_add_epi32 a b
/-- sse41.rs:29-31 -/
def xor (a b : M128) : M128 := mm_xor_si128 a b
/-- sse41.rs:34-36 -/
def set1 (x : Word) : M128 := mm_set1_epi32 x
/-- sse41.rs:39-41 -/
def set4 (a b c d : Word) : M128 := mm_setr_epi32 a b c d
/-- sse41.rs:44-49 -/
def rot16 (a : M128) : M128 :=
  mm_shuffle_epi8 a (mm_set_epi8 #v[13, 12, 15, 14, 9, 8, 11, 10, 5, 4, 7, 6, 1, 0, 3, 2])
/-- sse41.rs:52-54 -/
def rot12 (a : M128) : M128 := xor (mm_srli_epi32 a 12) (mm_slli_epi32 a (32 - 12))
/-- sse41.rs:57-62 -/
def rot8 (a : M128) : M128 :=
  mm_shuffle_epi8 a (mm_set_epi8 #v[12, 15, 14, 13, 8, 11, 10, 9, 4, 7, 6, 5, 0, 3, 2, 1])
/-- sse41.rs:65-67 -/
def rot7 (a : M128) : M128 := xor (mm_srli_epi32 a 7) (mm_slli_epi32 a (32 - 7))

/-- the four row variables of `compress_inner` -/
structure Rows where
  (row1 row2 row3 row4 : M128)

/-- sse41.rs:70-83 -/
def g1 : Rows → M128 → Rows
  | ⟨row1, row2, row3, row4⟩, m =>
    let row1 := add (add row1 m) row2
    let row4 := xor row4 row1
    let row4 := rot16 row4
    let row3 := add row3 row4
    let row2 := xor row2 row3
    let row2 := rot12 row2
    ⟨row1, row2, row3, row4⟩

/-- sse41.rs:86-99 -/
def g2 : Rows → M128 → Rows
  | ⟨row1, row2, row3, row4⟩, m =>
    let row1 := add (add row1 m) row2
    let row4 := xor row4 row1
    let row4 := rot8 row4
    let row3 := add row3 row4
    let row2 := xor row2 row3
    let row2 := rot7 row2
    ⟨row1, row2, row3, row4⟩

/-- sse41.rs:112-116 -/
def diagonalize : Rows → Rows
  | ⟨row1, row2, row3, row4⟩ =>
    let row1 := mm_shuffle_epi32 row1 (MM_SHUFFLE 2 1 0 3)
    let row4 := mm_shuffle_epi32 row4 (MM_SHUFFLE 1 0 3 2)
    let row3 := mm_shuffle_epi32 row3 (MM_SHUFFLE 0 3 2 1)
    ⟨row1, row2, row3, row4⟩

/-- sse41.rs:119-123 -/
def undiagonalize : Rows → Rows
  | ⟨row1, row2, row3, row4⟩ =>
    let row1 := mm_shuffle_epi32 row1 (MM_SHUFFLE 0 3 2 1)
    let row4 := mm_shuffle_epi32 row4 (MM_SHUFFLE 1 0 3 2)
    let row3 := mm_shuffle_epi32 row3 (MM_SHUFFLE 2 1 0 3)
    ⟨row1, row2, row3, row4⟩

/-- `compress_inner`, round 1: sse41.rs:148-169 -/
def compress_round1 (m0 m1 m2 m3 : M128) (rows : Rows) : Rows :=
  let buf := mm_shuffle_ps m0 m1 (MM_SHUFFLE 2 0 2 0)
  let rows := g1 rows buf
  let buf := mm_shuffle_ps m0 m1 (MM_SHUFFLE 3 1 3 1)
  let rows := g2 rows buf
  let rows := diagonalize rows
  let t0 := mm_shuffle_epi32 m2 (MM_SHUFFLE 3 2 0 1)
  let t1 := mm_shuffle_epi32 m3 (MM_SHUFFLE 0 1 3 2)
  let buf := mm_blend_epi16 t0 t1 0xC3
  let rows := g1 rows buf
  let t0 := mm_blend_epi16 t0 t1 0x3C
  let buf := mm_shuffle_epi32 t0 (MM_SHUFFLE 2 3 0 1)
  let rows := g2 rows buf
  undiagonalize rows

/-- `compress_inner`, round 2: sse41.rs:171-193 -/
def compress_round2 (m0 m1 m2 m3 : M128) (rows : Rows) : Rows :=
  let t0 := mm_blend_epi16 m1 m2 0x0C
  let t1 := mm_slli_si128 m3 4
  let t2 := mm_blend_epi16 t0 t1 0xF0
  let buf := mm_shuffle_epi32 t2 (MM_SHUFFLE 2 1 0 3)
  let rows := g1 rows buf
  let t0 := mm_shuffle_epi32 m2 (MM_SHUFFLE 0 0 2 0)
  let t1 := mm_blend_epi16 m1 m3 0xC0
  let t2 := mm_blend_epi16 t0 t1 0xF0
  let buf := mm_shuffle_epi32 t2 (MM_SHUFFLE 2 3 0 1)
  let rows := g2 rows buf
  let rows := diagonalize rows
  let t0 := mm_slli_si128 m1 4
  let t1 := mm_blend_epi16 m2 t0 0x30
  let t2 := mm_blend_epi16 m0 t1 0xF0
  let buf := mm_shuffle_epi32 t2 (MM_SHUFFLE 3 0 1 2)
  let rows := g1 rows buf
  let t0 := mm_unpackhi_epi32 m0 m1
  let t1 := mm_slli_si128 m3 4
  let t2 := mm_blend_epi16 t0 t1 0x0C
  let buf := mm_shuffle_epi32 t2 (MM_SHUFFLE 3 0 1 2)
  let rows := g2 rows buf
  undiagonalize rows

/-- `compress_inner`, round 3: sse41.rs:195-217 -/
def compress_round3 (m0 m1 m2 m3 : M128) (rows : Rows) : Rows :=
  let t0 := mm_unpackhi_epi32 m2 m3
  let t1 := mm_blend_epi16 m3 m1 0x0C
  let t2 := mm_blend_epi16 t0 t1 0x0F
  let buf := mm_shuffle_epi32 t2 (MM_SHUFFLE 3 1 0 2)
  let rows := g1 rows buf
  let t0 := mm_unpacklo_epi32 m2 m0
  let t1 := mm_blend_epi16 t0 m0 0xF0
  let t2 := mm_slli_si128 m3 8
  let buf := mm_blend_epi16 t1 t2 0xC0
  let rows := g2 rows buf
  let rows := diagonalize rows
  let t0 := mm_blend_epi16 m0 m2 0x3C
  let t1 := mm_srli_si128 m1 12
  let t2 := mm_blend_epi16 t0 t1 0x03
  let buf := mm_shuffle_epi32 t2 (MM_SHUFFLE 0 3 2 1)
  let rows := g1 rows buf
  let t0 := mm_slli_si128 m3 4
  let t1 := mm_blend_epi16 m0 m1 0x33
  let t2 := mm_blend_epi16 t1 t0 0xC0
  let buf := mm_shuffle_epi32 t2 (MM_SHUFFLE 1 2 3 0)
  let rows := g2 rows buf
  undiagonalize rows

/-- `compress_inner`, round 4: sse41.rs:219-238 -/
def compress_round4 (m0 m1 m2 m3 : M128) (rows : Rows) : Rows :=
  let t0 := mm_unpackhi_epi32 m0 m1
  let t1 := mm_unpackhi_epi32 t0 m2
  let t2 := mm_blend_epi16 t1 m3 0x0C
  let buf := mm_shuffle_epi32 t2 (MM_SHUFFLE 3 1 0 2)
  let rows := g1 rows buf
  let t0 := mm_slli_si128 m2 8
  let t1 := mm_blend_epi16 m3 m0 0x0C
  let t2 := mm_blend_epi16 t1 t0 0xC0
  let buf := mm_shuffle_epi32 t2 (MM_SHUFFLE 2 0 1 3)
  let rows := g2 rows buf
  let rows := diagonalize rows
  let t0 := mm_blend_epi16 m0 m1 0x0F
  let t1 := mm_blend_epi16 t0 m3 0xC0
  let buf := mm_shuffle_epi32 t1 (MM_SHUFFLE 0 1 2 3)
  let rows := g1 rows buf
  let t0 := mm_alignr_epi8 m0 m1 4
  let buf := mm_blend_epi16 t0 m2 0x33
  let rows := g2 rows buf
  undiagonalize rows

/-- `compress_inner`, round 5: sse41.rs:240-261 -/
def compress_round5 (m0 m1 m2 m3 : M128) (rows : Rows) : Rows :=
  let t0 := mm_unpacklo_epi64 m1 m2
  let t1 := mm_unpackhi_epi64 m0 m2
  let t2 := mm_blend_epi16 t0 t1 0x33
  let buf := mm_shuffle_epi32 t2 (MM_SHUFFLE 2 0 1 3)
  let rows := g1 rows buf
  let t0 := mm_unpackhi_epi64 m1 m3
  let t1 := mm_unpacklo_epi64 m0 m1
  let buf := mm_blend_epi16 t0 t1 0x33
  let rows := g2 rows buf
  let rows := diagonalize rows
  let t0 := mm_unpackhi_epi64 m3 m1
  let t1 := mm_unpackhi_epi64 m2 m0
  let t2 := mm_blend_epi16 t1 t0 0x33
  let buf := mm_shuffle_epi32 t2 (MM_SHUFFLE 2 1 0 3)
  let rows := g1 rows buf
  let t0 := mm_blend_epi16 m0 m2 0x03
  let t1 := mm_slli_si128 t0 8
  let t2 := mm_blend_epi16 t1 m3 0x0F
  let buf := mm_shuffle_epi32 t2 (MM_SHUFFLE 2 0 3 1)
  let rows := g2 rows buf
  undiagonalize rows

/-- `compress_inner`, round 6: sse41.rs:263-283 -/
def compress_round6 (m0 m1 m2 m3 : M128) (rows : Rows) : Rows :=
  let t0 := mm_unpackhi_epi32 m0 m1
  let t1 := mm_unpacklo_epi32 m0 m2
  let buf := mm_unpacklo_epi64 t0 t1
  let rows := g1 rows buf
  let t0 := mm_srli_si128 m2 4
  let t1 := mm_blend_epi16 m0 m3 0x03
  let buf := mm_blend_epi16 t1 t0 0x3C
  let rows := g2 rows buf
  let rows := diagonalize rows
  let t0 := mm_blend_epi16 m1 m0 0x0C
  let t1 := mm_srli_si128 m3 4
  let t2 := mm_blend_epi16 t0 t1 0x30
  let buf := mm_shuffle_epi32 t2 (MM_SHUFFLE 2 3 0 1)
  let rows := g1 rows buf
  let t0 := mm_unpacklo_epi64 m2 m1
  let t1 := mm_shuffle_epi32 m3 (MM_SHUFFLE 2 0 1 0)
  let t2 := mm_srli_si128 t0 4
  let buf := mm_blend_epi16 t1 t2 0x33
  let rows := g2 rows buf
  undiagonalize rows

/-- `compress_inner`, round 7: sse41.rs:285-304 -/
def compress_round7 (m0 m1 m2 m3 : M128) (rows : Rows) : Rows :=
  let t0 := mm_slli_si128 m1 12
  let t1 := mm_blend_epi16 m0 m3 0x33
  let buf := mm_blend_epi16 t1 t0 0xC0
  let rows := g1 rows buf
  let t0 := mm_blend_epi16 m3 m2 0x30
  let t1 := mm_srli_si128 m1 4
  let t2 := mm_blend_epi16 t0 t1 0x03
  let buf := mm_shuffle_epi32 t2 (MM_SHUFFLE 2 1 3 0)
  let rows := g2 rows buf
  let rows := diagonalize rows
  let t0 := mm_unpacklo_epi64 m0 m2
  let t1 := mm_srli_si128 m1 4
  let buf := mm_shuffle_epi32 (mm_blend_epi16 t0 t1 0x0C) (MM_SHUFFLE 3 1 0 2)
  let rows := g1 rows buf
  let t0 := mm_unpackhi_epi32 m1 m2
  let t1 := mm_unpackhi_epi64 m0 t0
  let buf := mm_shuffle_epi32 t1 (MM_SHUFFLE 0 1 2 3)
  let rows := g2 rows buf
  undiagonalize rows
/-- sse41.rs:126-307 -/
def compress_inner (cv : Vector Word 8) (block : Vector Byte 64) (block_len : Byte) (offset : U64)
    (flags : Byte) : Rows :=
  let row1 := loadArr (memOfWords cv) 0
  let row2 := loadArr (memOfWords cv) 16
  let row3 := set4 IV[0] IV[1] IV[2] IV[3]
  let row4 := set4 (offset_low offset) (offset_high offset) (block_len.setWidth 32)
    (flags.setWidth 32)
  let m0 := loadArr block (0 * 4 * DEGREE)
  let m1 := loadArr block (1 * 4 * DEGREE)
  let m2 := loadArr block (2 * 4 * DEGREE)
  let m3 := loadArr block (3 * 4 * DEGREE)
  let rows := compress_round1 m0 m1 m2 m3 ⟨row1, row2, row3, row4⟩
  let rows := compress_round2 m0 m1 m2 m3 rows
  let rows := compress_round3 m0 m1 m2 m3 rows
  let rows := compress_round4 m0 m1 m2 m3 rows
  let rows := compress_round5 m0 m1 m2 m3 rows
  let rows := compress_round6 m0 m1 m2 m3 rows
  compress_round7 m0 m1 m2 m3 rows

/-- sse41.rs:310-320: the two stores fill the 32 bytes of `cv`. -/
def compress (cv : Vector Word 8) (block : Vector Byte 64) (block_len : Byte) (offset : U64)
    (flags : Byte) : Vector Word 8 :=
  let rows := compress_inner cv block block_len offset flags
  wordsOfMem ⟨(regBytes 16 (xor rows.row1 rows.row3) ++
    regBytes 16 (xor rows.row2 rows.row4)).toArray, by simp [length_regBytes]⟩

/-- sse41.rs:323-336: `transmute` of the four registers to `[u8; 64]`. -/
def compress_xof (cv : Vector Word 8) (block : Vector Byte 64) (block_len : Byte) (offset : U64)
    (flags : Byte) : Vector Byte 64 :=
  let rows := compress_inner cv block block_len offset flags
  let row0 := xor rows.row1 rows.row3
  let row1 := xor rows.row2 rows.row4
  let row2 := xor rows.row3 (loadArr (memOfWords cv) 0)
  let row3 := xor rows.row4 (loadArr (memOfWords cv) 16)
  ⟨(regBytes 16 row0 ++ regBytes 16 row1 ++ regBytes 16 row2 ++ regBytes 16 row3).toArray, by
    simp [length_regBytes]⟩

/-- sse41.rs:339-453; the elements `v[i]` of the state array are the variables `vi` -/
def round (v m : Vector M128 16) (r : Fin 7) : Vector M128 16 :=
  let v0 : M128 := v.get 0
  let v1 : M128 := v.get 1
  let v2 : M128 := v.get 2
  let v3 : M128 := v.get 3
  let v4 : M128 := v.get 4
  let v5 : M128 := v.get 5
  let v6 : M128 := v.get 6
  let v7 : M128 := v.get 7
  let v8 : M128 := v.get 8
  let v9 : M128 := v.get 9
  let v10 : M128 := v.get 10
  let v11 : M128 := v.get 11
  let v12 : M128 := v.get 12
  let v13 : M128 := v.get 13
  let v14 : M128 := v.get 14
  let v15 : M128 := v.get 15
  let v0 : M128 := add v0 (m.get ((MSG_SCHEDULE.get r).get 0))
  let v1 : M128 := add v1 (m.get ((MSG_SCHEDULE.get r).get 2))
  let v2 : M128 := add v2 (m.get ((MSG_SCHEDULE.get r).get 4))
  let v3 : M128 := add v3 (m.get ((MSG_SCHEDULE.get r).get 6))
  let v0 : M128 := add v0 v4
  let v1 : M128 := add v1 v5
  let v2 : M128 := add v2 v6
  let v3 : M128 := add v3 v7
  let v12 : M128 := xor v12 v0
  let v13 : M128 := xor v13 v1
  let v14 : M128 := xor v14 v2
  let v15 : M128 := xor v15 v3
  let v12 : M128 := rot16 v12
  let v13 : M128 := rot16 v13
  let v14 : M128 := rot16 v14
  let v15 : M128 := rot16 v15
  let v8 : M128 := add v8 v12
  let v9 : M128 := add v9 v13
  let v10 : M128 := add v10 v14
  let v11 : M128 := add v11 v15
  let v4 : M128 := xor v4 v8
  let v5 : M128 := xor v5 v9
  let v6 : M128 := xor v6 v10
  let v7 : M128 := xor v7 v11
  let v4 : M128 := rot12 v4
  let v5 : M128 := rot12 v5
  let v6 : M128 := rot12 v6
  let v7 : M128 := rot12 v7
  let v0 : M128 := add v0 (m.get ((MSG_SCHEDULE.get r).get 1))
  let v1 : M128 := add v1 (m.get ((MSG_SCHEDULE.get r).get 3))
  let v2 : M128 := add v2 (m.get ((MSG_SCHEDULE.get r).get 5))
  let v3 : M128 := add v3 (m.get ((MSG_SCHEDULE.get r).get 7))
  let v0 : M128 := add v0 v4
  let v1 : M128 := add v1 v5
  let v2 : M128 := add v2 v6
  let v3 : M128 := add v3 v7
  let v12 : M128 := xor v12 v0
  let v13 : M128 := xor v13 v1
  let v14 : M128 := xor v14 v2
  let v15 : M128 := xor v15 v3
  let v12 : M128 := rot8 v12
  let v13 : M128 := rot8 v13
  let v14 : M128 := rot8 v14
  let v15 : M128 := rot8 v15
  let v8 : M128 := add v8 v12
  let v9 : M128 := add v9 v13
  let v10 : M128 := add v10 v14
  let v11 : M128 := add v11 v15
  let v4 : M128 := xor v4 v8
  let v5 : M128 := xor v5 v9
  let v6 : M128 := xor v6 v10
  let v7 : M128 := xor v7 v11
  let v4 : M128 := rot7 v4
  let v5 : M128 := rot7 v5
  let v6 : M128 := rot7 v6
  let v7 : M128 := rot7 v7
  let v0 : M128 := add v0 (m.get ((MSG_SCHEDULE.get r).get 8))
  let v1 : M128 := add v1 (m.get ((MSG_SCHEDULE.get r).get 10))
  let v2 : M128 := add v2 (m.get ((MSG_SCHEDULE.get r).get 12))
  let v3 : M128 := add v3 (m.get ((MSG_SCHEDULE.get r).get 14))
  let v0 : M128 := add v0 v5
  let v1 : M128 := add v1 v6
  let v2 : M128 := add v2 v7
  let v3 : M128 := add v3 v4
  let v15 : M128 := xor v15 v0
  let v12 : M128 := xor v12 v1
  let v13 : M128 := xor v13 v2
  let v14 : M128 := xor v14 v3
  let v15 : M128 := rot16 v15
  let v12 : M128 := rot16 v12
  let v13 : M128 := rot16 v13
  let v14 : M128 := rot16 v14
  let v10 : M128 := add v10 v15
  let v11 : M128 := add v11 v12
  let v8 : M128 := add v8 v13
  let v9 : M128 := add v9 v14
  let v5 : M128 := xor v5 v10
  let v6 : M128 := xor v6 v11
  let v7 : M128 := xor v7 v8
  let v4 : M128 := xor v4 v9
  let v5 : M128 := rot12 v5
  let v6 : M128 := rot12 v6
  let v7 : M128 := rot12 v7
  let v4 : M128 := rot12 v4
  let v0 : M128 := add v0 (m.get ((MSG_SCHEDULE.get r).get 9))
  let v1 : M128 := add v1 (m.get ((MSG_SCHEDULE.get r).get 11))
  let v2 : M128 := add v2 (m.get ((MSG_SCHEDULE.get r).get 13))
  let v3 : M128 := add v3 (m.get ((MSG_SCHEDULE.get r).get 15))
  let v0 : M128 := add v0 v5
  let v1 : M128 := add v1 v6
  let v2 : M128 := add v2 v7
  let v3 : M128 := add v3 v4
  let v15 : M128 := xor v15 v0
  let v12 : M128 := xor v12 v1
  let v13 : M128 := xor v13 v2
  let v14 : M128 := xor v14 v3
  let v15 : M128 := rot8 v15
  let v12 : M128 := rot8 v12
  let v13 : M128 := rot8 v13
  let v14 : M128 := rot8 v14
  let v10 : M128 := add v10 v15
  let v11 : M128 := add v11 v12
  let v8 : M128 := add v8 v13
  let v9 : M128 := add v9 v14
  let v5 : M128 := xor v5 v10
  let v6 : M128 := xor v6 v11
  let v7 : M128 := xor v7 v8
  let v4 : M128 := xor v4 v9
  let v5 : M128 := rot7 v5
  let v6 : M128 := rot7 v6
  let v7 : M128 := rot7 v7
  let v4 : M128 := rot7 v4
  #v[v0, v1, v2, v3, v4, v5, v6, v7, v8, v9, v10, v11, v12, v13, v14, v15]

/-- sse41.rs:456-475 -/
def transpose_vecs (vecs : Vector M128 DEGREE) : Vector M128 DEGREE :=
  -- Interleave 32-bit lanes.
  let ab_01 := mm_unpacklo_epi32 vecs[0] vecs[1]
  let ab_23 := mm_unpackhi_epi32 vecs[0] vecs[1]
  let cd_01 := mm_unpacklo_epi32 vecs[2] vecs[3]
  let cd_23 := mm_unpackhi_epi32 vecs[2] vecs[3]
  -- Interleave 64-bit lanes.
  let abcd_0 := mm_unpacklo_epi64 ab_01 cd_01
  let abcd_1 := mm_unpackhi_epi64 ab_01 cd_01
  let abcd_2 := mm_unpacklo_epi64 ab_23 cd_23
  let abcd_3 := mm_unpackhi_epi64 ab_23 cd_23
  #v[abcd_0, abcd_1, abcd_2, abcd_3]

/-- sse41.rs:478-503.  `mut_array_refs!` splits the 16 vectors into four squares that are
transposed in place. -/
def transpose_msg_vecs (inputs : Vector Bytes DEGREE) (block_offset : Nat) : R (Vector M128 16) := do
  let v0 ← loadu inputs[0] (block_offset + 0 * 4 * DEGREE)
  let v1 ← loadu inputs[1] (block_offset + 0 * 4 * DEGREE)
  let v2 ← loadu inputs[2] (block_offset + 0 * 4 * DEGREE)
  let v3 ← loadu inputs[3] (block_offset + 0 * 4 * DEGREE)
  let v4 ← loadu inputs[0] (block_offset + 1 * 4 * DEGREE)
  let v5 ← loadu inputs[1] (block_offset + 1 * 4 * DEGREE)
  let v6 ← loadu inputs[2] (block_offset + 1 * 4 * DEGREE)
  let v7 ← loadu inputs[3] (block_offset + 1 * 4 * DEGREE)
  let v8 ← loadu inputs[0] (block_offset + 2 * 4 * DEGREE)
  let v9 ← loadu inputs[1] (block_offset + 2 * 4 * DEGREE)
  let v10 ← loadu inputs[2] (block_offset + 2 * 4 * DEGREE)
  let v11 ← loadu inputs[3] (block_offset + 2 * 4 * DEGREE)
  let v12 ← loadu inputs[0] (block_offset + 3 * 4 * DEGREE)
  let v13 ← loadu inputs[1] (block_offset + 3 * 4 * DEGREE)
  let v14 ← loadu inputs[2] (block_offset + 3 * 4 * DEGREE)
  let v15 ← loadu inputs[3] (block_offset + 3 * 4 * DEGREE)
  let squares_0 := transpose_vecs #v[v0, v1, v2, v3]
  let squares_1 := transpose_vecs #v[v4, v5, v6, v7]
  let squares_2 := transpose_vecs #v[v8, v9, v10, v11]
  let squares_3 := transpose_vecs #v[v12, v13, v14, v15]
  return squares_0 ++ squares_1 ++ squares_2 ++ squares_3

/-- `offset + i * offset_delta`, with overflow checks -/
def offset_plus (offset : U64) (i : U64) (offset_delta : U64) : R U64 := do
  let d ← mulU64 i offset_delta
  addU64 offset d

/-- sse41.rs:506-521.  The sums are written twice in the source; both copies are the same
expression. -/
def load_offsets (offset offset_delta : U64) : R (M128 × M128) := do
  let o0 ← offset_plus offset 0 offset_delta
  let o1 ← offset_plus offset 1 offset_delta
  let o2 ← offset_plus offset 2 offset_delta
  let o3 ← offset_plus offset 3 offset_delta
  return (set4 (offset_low o0) (offset_low o1) (offset_low o2) (offset_low o3),
    set4 (offset_high o0) (offset_high o1) (offset_high o2) (offset_high o3))

/-- The loop body of `hash4` after the message has been loaded, sse41.rs:556-595 -/
def hash4_block (h_vecs : Vector M128 8) (offset_low_vec offset_high_vec block_len_vec
    block_flags_vec : M128) (msg_vecs : Vector M128 16) : Vector M128 8 :=
  let v : Vector M128 16 :=
    #v[h_vecs[0], h_vecs[1], h_vecs[2], h_vecs[3], h_vecs[4], h_vecs[5], h_vecs[6], h_vecs[7],
       set1 IV[0], set1 IV[1], set1 IV[2], set1 IV[3],
       offset_low_vec, offset_high_vec, block_len_vec, block_flags_vec]
  let v := round v msg_vecs 0
  let v := round v msg_vecs 1
  let v := round v msg_vecs 2
  let v := round v msg_vecs 3
  let v := round v msg_vecs 4
  let v := round v msg_vecs 5
  let v := round v msg_vecs 6
  #v[xor v[0] v[8], xor v[1] v[9], xor v[2] v[10], xor v[3] v[11],
     xor v[4] v[12], xor v[5] v[13], xor v[6] v[14], xor v[7] v[15]]

/-- The loop `for block in 0..blocks` of `hash4`, sse41.rs:548-594; `n` iterations remain. -/
def hash4_loop (inputs : Vector Bytes DEGREE) (blocks : Nat) (offset_low_vec offset_high_vec : M128)
    (flags flags_end : Byte) : (n block : Nat) → (h_vecs : Vector M128 8) → (block_flags : Byte) →
    R (Vector M128 8)
  | 0, _, h_vecs, _ => .ok h_vecs
  | n + 1, block, h_vecs, block_flags => do
    let block_flags := if block + 1 = blocks then block_flags ||| flags_end else block_flags
    let block_len_vec := set1 (BitVec.ofNat 32 BLOCK_LEN)
    let block_flags_vec := set1 (block_flags.setWidth 32)
    let msg_vecs ← transpose_msg_vecs inputs (block * BLOCK_LEN)
    let h_vecs := hash4_block h_vecs offset_low_vec offset_high_vec block_len_vec block_flags_vec
      msg_vecs
    hash4_loop inputs blocks offset_low_vec offset_high_vec flags flags_end n (block + 1) h_vecs flags

/-- sse41.rs:524-610.  `out` is the old contents of the output; result is the new contents. -/
def hash4 (inputs : Vector Bytes DEGREE) (blocks : Nat) (key : Vector Word 8)
    (offset offset_delta : U64) (flags flags_start flags_end : Byte) (out : Bytes) : R Bytes := do
  let h_vecs : Vector M128 8 :=
    #v[set1 key[0], set1 key[1], set1 key[2], set1 key[3],
       set1 key[4], set1 key[5], set1 key[6], set1 key[7]]
  let (offset_low_vec, offset_high_vec) ← load_offsets offset offset_delta
  let h_vecs ← hash4_loop inputs blocks offset_low_vec offset_high_vec flags flags_end blocks 0 h_vecs
    (flags ||| flags_start)
  let sq0 := transpose_vecs #v[h_vecs[0], h_vecs[1], h_vecs[2], h_vecs[3]]
  let sq1 := transpose_vecs #v[h_vecs[4], h_vecs[5], h_vecs[6], h_vecs[7]]
  let out ← writeAt out (0 * 4 * DEGREE) (regBytes 16 sq0[0])
  let out ← writeAt out (1 * 4 * DEGREE) (regBytes 16 sq1[0])
  let out ← writeAt out (2 * 4 * DEGREE) (regBytes 16 sq0[1])
  let out ← writeAt out (3 * 4 * DEGREE) (regBytes 16 sq1[1])
  let out ← writeAt out (4 * 4 * DEGREE) (regBytes 16 sq0[2])
  let out ← writeAt out (5 * 4 * DEGREE) (regBytes 16 sq1[2])
  let out ← writeAt out (6 * 4 * DEGREE) (regBytes 16 sq0[3])
  let out ← writeAt out (7 * 4 * DEGREE) (regBytes 16 sq1[3])
  return out

/-- The loop of `hash1`, sse41.rs:623-639. -/
def hash1_loop (flags flags_end : Byte) (offset : U64) (cv : Vector Word 8) (block_flags : Byte)
    (slice : Bytes) : R (Vector Word 8) :=
  if _h : BLOCK_LEN ≤ slice.length then do
    let block_flags := if slice.length = BLOCK_LEN then block_flags ||| flags_end else block_flags
    let block ← arrayRef slice 0 BLOCK_LEN
    let cv := compress cv block (BitVec.ofNat 8 BLOCK_LEN) offset block_flags
    hash1_loop flags flags_end offset cv flags (slice.drop BLOCK_LEN)
  else .ok cv
termination_by slice.length
decreasing_by simp [BLOCK_LEN] at *; omega

/-- sse41.rs:613-641 -/
def hash1 (input : Bytes) (key : Vector Word 8) (offset : U64) (flags flags_start flags_end : Byte) :
    R (Vector Byte 32) := do
  assertR (input.length % BLOCK_LEN = 0)
  let cv ← hash1_loop flags flags_end offset key (flags ||| flags_start) input
  return memOfWords cv

/-- The `for` loop of `hash_many`, sse41.rs:675-686. -/
def hash_many_tail (key : Vector Word 8) (offset_delta : U64) (flags flags_start flags_end : Byte) :
    (inputs : List Bytes) → (offset : U64) → (out : Bytes) → R Bytes
  | [], _, out => .ok out
  | input :: inputs, offset, out =>
    if out.length < OUT_LEN then .ok out
    else do
      let h ← hash1 input key offset flags flags_start flags_end
      let offset ← addU64 offset offset_delta
      let rest ← hash_many_tail key offset_delta flags flags_start flags_end inputs offset
        (out.drop OUT_LEN)
      return h.toList ++ rest

/-- The `while` loop of `hash_many`, sse41.rs:655-674; `capacity` is `A::CAPACITY`. -/
def hash_many_loop (capacity : Nat) (key : Vector Word 8) (offset_delta : U64)
    (flags flags_start flags_end : Byte) (inputs : List Bytes) (offset : U64) (out : Bytes) :
    R Bytes :=
  if _h : DEGREE ≤ inputs.length ∧ DEGREE * OUT_LEN ≤ out.length then do
    let input_ptrs ← arrayRef inputs 0 DEGREE
    let blocks := capacity / BLOCK_LEN
    let o ← hash4 input_ptrs blocks key offset offset_delta flags flags_start flags_end
      (out.take (DEGREE * OUT_LEN))
    let offset ← offset_plus offset (BitVec.ofNat 64 DEGREE) offset_delta
    let rest ← hash_many_loop capacity key offset_delta flags flags_start flags_end
      (inputs.drop DEGREE) offset (out.drop (DEGREE * OUT_LEN))
    return o ++ rest
  else hash_many_tail key offset_delta flags flags_start flags_end inputs offset out
termination_by inputs.length
decreasing_by simp [DEGREE] at *; omega

/-- sse41.rs:644-687 -/
def hash_many (capacity : Nat) (inputs : List Bytes) (key : Vector Word 8) (offset offset_delta : U64)
    (flags flags_start flags_end : Byte) (out : Bytes) : R Bytes := do
  assertR (inputs.length * OUT_LEN ≤ out.length)
  hash_many_loop capacity key offset_delta flags flags_start flags_end inputs offset out

end Sse41
end Baokeshed.Model
