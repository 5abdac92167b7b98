import Verif.Model.C.Impl
import Verif.Model.Simd512

/-!
# Model of /repo/c/baokeshed_avx512.c

Line by line; see `Verif.Model.C.Impl` for the conventions.
-/

namespace Baokeshed.Model.C.Avx512
open Baokeshed.Model

/-- the four row variables of `compress_avx512` -/
abbrev Rows := Model.Sse41.Rows

/-- baokeshed_avx512.c:5-7 -/
def loadu_128 (src : Bytes) (off : Nat) : R M128 := mm_loadu_si128 src off

/-- baokeshed_avx512.c:9-11 -/
def loadu_256 (src : Bytes) (off : Nat) : R M256 := mm256_loadu_si256 src off

/-- baokeshed_avx512.c:13-15 -/
def loadu_512 (src : Bytes) (off : Nat) : R M512 := mm512_loadu_si512 src off

/-- baokeshed_avx512.c:17-19 -/
def storeu_128 (src : M128) (dest : Bytes) (off : Nat) : R Bytes := cStore dest off (regBytes 16 src)

/-- baokeshed_avx512.c:21-23 -/
def storeu_256 (src : M256) (dest : Bytes) (off : Nat) : R Bytes := cStore dest off (regBytes 32 src)

/-- baokeshed_avx512.c:25 -/
def add_128 (a b : M128) : M128 := mm_add_epi32 a b

/-- baokeshed_avx512.c:27 -/
def add_256 (a b : M256) : M256 := mm256_add_epi32 a b

/-- baokeshed_avx512.c:29 -/
def add_512 (a b : M512) : M512 := mm512_add_epi32 a b

/-- baokeshed_avx512.c:31 -/
def xor_128 (a b : M128) : M128 := mm_xor_si128 a b

/-- baokeshed_avx512.c:33 -/
def xor_256 (a b : M256) : M256 := mm256_xor_si256 a b

/-- baokeshed_avx512.c:35 -/
def xor_512 (a b : M512) : M512 := mm512_xor_si512 a b

/-- baokeshed_avx512.c:37 -/
def set1_128 (x : Word) : M128 := mm_set1_epi32 x

/-- baokeshed_avx512.c:39 -/
def set1_256 (x : Word) : M256 := mm256_set1_epi32 x

/-- baokeshed_avx512.c:41 -/
def set1_512 (x : Word) : M512 := mm512_set1_epi32 x

/-- baokeshed_avx512.c:43-45 -/
def set4 (a b c d : Word) : M128 := mm_setr_epi32 a b c d

/-- baokeshed_avx512.c:47 -/
def rot16_128 (x : M128) : M128 := mm_ror_epi32 x 16

/-- baokeshed_avx512.c:49 -/
def rot16_256 (x : M256) : M256 := mm256_ror_epi32 x 16

/-- baokeshed_avx512.c:51 -/
def rot16_512 (x : M512) : M512 := mm512_ror_epi32 x 16

/-- baokeshed_avx512.c:53 -/
def rot12_128 (x : M128) : M128 := mm_ror_epi32 x 12

/-- baokeshed_avx512.c:55 -/
def rot12_256 (x : M256) : M256 := mm256_ror_epi32 x 12

/-- baokeshed_avx512.c:57 -/
def rot12_512 (x : M512) : M512 := mm512_ror_epi32 x 12

/-- baokeshed_avx512.c:59 -/
def rot8_128 (x : M128) : M128 := mm_ror_epi32 x 8

/-- baokeshed_avx512.c:61 -/
def rot8_256 (x : M256) : M256 := mm256_ror_epi32 x 8

/-- baokeshed_avx512.c:63 -/
def rot8_512 (x : M512) : M512 := mm512_ror_epi32 x 8

/-- baokeshed_avx512.c:65 -/
def rot7_128 (x : M128) : M128 := mm_ror_epi32 x 7

/-- baokeshed_avx512.c:67 -/
def rot7_256 (x : M256) : M256 := mm256_ror_epi32 x 7

/-- baokeshed_avx512.c:69 -/
def rot7_512 (x : M512) : M512 := mm512_ror_epi32 x 7

/-- baokeshed_avx512.c:77-85 -/
def g1 : Rows → M128 → Rows
  | ⟨row1, row2, row3, row4⟩, m =>
    let row1 := add_128 (add_128 row1 m) row2
    let row4 := xor_128 row4 row1
    let row4 := rot16_128 row4
    let row3 := add_128 row3 row4
    let row2 := xor_128 row2 row3
    let row2 := rot12_128 row2
    ⟨row1, row2, row3, row4⟩

/-- baokeshed_avx512.c:87-95 -/
def g2 : Rows → M128 → Rows
  | ⟨row1, row2, row3, row4⟩, m =>
    let row1 := add_128 (add_128 row1 m) row2
    let row4 := xor_128 row4 row1
    let row4 := rot8_128 row4
    let row3 := add_128 row3 row4
    let row2 := xor_128 row2 row3
    let row2 := rot7_128 row2
    ⟨row1, row2, row3, row4⟩

/-- baokeshed_avx512.c:100-104 -/
def diagonalize : Rows → Rows
  | ⟨row1, row2, row3, row4⟩ =>
    let row1 := mm_shuffle_epi32 row1 (MM_SHUFFLE 2 1 0 3)
    let row4 := mm_shuffle_epi32 row4 (MM_SHUFFLE 1 0 3 2)
    let row3 := mm_shuffle_epi32 row3 (MM_SHUFFLE 0 3 2 1)
    ⟨row1, row2, row3, row4⟩

/-- baokeshed_avx512.c:106-110 -/
def undiagonalize : Rows → Rows
  | ⟨row1, row2, row3, row4⟩ =>
    let row1 := mm_shuffle_epi32 row1 (MM_SHUFFLE 0 3 2 1)
    let row4 := mm_shuffle_epi32 row4 (MM_SHUFFLE 1 0 3 2)
    let row3 := mm_shuffle_epi32 row3 (MM_SHUFFLE 2 1 0 3)
    ⟨row1, row2, row3, row4⟩

/-- `compress_avx512`, round 1: baokeshed_avx512.c:128-142 -/
def compress_round1 (m0 m1 m2 m3 : M128) (rows : Rows) : Rows :=
  let buf := mm_shuffle_ps m0 m1 (MM_SHUFFLE 2 0 2 0)
  let rows := g1 rows buf
  let buf := mm_shuffle_ps m0 m1 (MM_SHUFFLE 3 1 3 1)
  let rows := g2 rows buf
  let rows := diagonalize rows
  let t0 := mm_shuffle_epi32 m2 (MM_SHUFFLE 3 2 0 1)
  let t1 := mm_shuffle_epi32 m3 (MM_SHUFFLE 0 1 3 2)
  let buf := mm_blend_epi16 t0 t1 0xC3
  let rows := g1 rows buf
  let t0 := mm_blend_epi16 t0 t1 0x3C
  let buf := mm_shuffle_epi32 t0 (MM_SHUFFLE 2 3 0 1)
  let rows := g2 rows buf
  undiagonalize rows

/-- `compress_avx512`, round 2: baokeshed_avx512.c:145-166 -/
def compress_round2 (m0 m1 m2 m3 : M128) (rows : Rows) : Rows :=
  let t0 := mm_blend_epi16 m1 m2 0x0C
  let t1 := mm_slli_si128 m3 4
  let t2 := mm_blend_epi16 t0 t1 0xF0
  let buf := mm_shuffle_epi32 t2 (MM_SHUFFLE 2 1 0 3)
  let rows := g1 rows buf
  let t0 := mm_shuffle_epi32 m2 (MM_SHUFFLE 0 0 2 0)
  let t1 := mm_blend_epi16 m1 m3 0xC0
  let t2 := mm_blend_epi16 t0 t1 0xF0
  let buf := mm_shuffle_epi32 t2 (MM_SHUFFLE 2 3 0 1)
  let rows := g2 rows buf
  let rows := diagonalize rows
  let t0 := mm_slli_si128 m1 4
  let t1 := mm_blend_epi16 m2 t0 0x30
  let t2 := mm_blend_epi16 m0 t1 0xF0
  let buf := mm_shuffle_epi32 t2 (MM_SHUFFLE 3 0 1 2)
  let rows := g1 rows buf
  let t0 := mm_unpackhi_epi32 m0 m1
  let t1 := mm_slli_si128 m3 4
  let t2 := mm_blend_epi16 t0 t1 0x0C
  let buf := mm_shuffle_epi32 t2 (MM_SHUFFLE 3 0 1 2)
  let rows := g2 rows buf
  undiagonalize rows

/-- `compress_avx512`, round 3: baokeshed_avx512.c:169-190 -/
def compress_round3 (m0 m1 m2 m3 : M128) (rows : Rows) : Rows :=
  let t0 := mm_unpackhi_epi32 m2 m3
  let t1 := mm_blend_epi16 m3 m1 0x0C
  let t2 := mm_blend_epi16 t0 t1 0x0F
  let buf := mm_shuffle_epi32 t2 (MM_SHUFFLE 3 1 0 2)
  let rows := g1 rows buf
  let t0 := mm_unpacklo_epi32 m2 m0
  let t1 := mm_blend_epi16 t0 m0 0xF0
  let t2 := mm_slli_si128 m3 8
  let buf := mm_blend_epi16 t1 t2 0xC0
  let rows := g2 rows buf
  let rows := diagonalize rows
  let t0 := mm_blend_epi16 m0 m2 0x3C
  let t1 := mm_srli_si128 m1 12
  let t2 := mm_blend_epi16 t0 t1 0x03
  let buf := mm_shuffle_epi32 t2 (MM_SHUFFLE 0 3 2 1)
  let rows := g1 rows buf
  let t0 := mm_slli_si128 m3 4
  let t1 := mm_blend_epi16 m0 m1 0x33
  let t2 := mm_blend_epi16 t1 t0 0xC0
  let buf := mm_shuffle_epi32 t2 (MM_SHUFFLE 1 2 3 0)
  let rows := g2 rows buf
  undiagonalize rows

/-- `compress_avx512`, round 4: baokeshed_avx512.c:193-211 -/
def compress_round4 (m0 m1 m2 m3 : M128) (rows : Rows) : Rows :=
  let t0 := mm_unpackhi_epi32 m0 m1
  let t1 := mm_unpackhi_epi32 t0 m2
  let t2 := mm_blend_epi16 t1 m3 0x0C
  let buf := mm_shuffle_epi32 t2 (MM_SHUFFLE 3 1 0 2)
  let rows := g1 rows buf
  let t0 := mm_slli_si128 m2 8
  let t1 := mm_blend_epi16 m3 m0 0x0C
  let t2 := mm_blend_epi16 t1 t0 0xC0
  let buf := mm_shuffle_epi32 t2 (MM_SHUFFLE 2 0 1 3)
  let rows := g2 rows buf
  let rows := diagonalize rows
  let t0 := mm_blend_epi16 m0 m1 0x0F
  let t1 := mm_blend_epi16 t0 m3 0xC0
  let buf := mm_shuffle_epi32 t1 (MM_SHUFFLE 0 1 2 3)
  let rows := g1 rows buf
  let t0 := mm_alignr_epi8 m0 m1 4
  let buf := mm_blend_epi16 t0 m2 0x33
  let rows := g2 rows buf
  undiagonalize rows

/-- `compress_avx512`, round 5: baokeshed_avx512.c:214-234 -/
def compress_round5 (m0 m1 m2 m3 : M128) (rows : Rows) : Rows :=
  let t0 := mm_unpacklo_epi64 m1 m2
  let t1 := mm_unpackhi_epi64 m0 m2
  let t2 := mm_blend_epi16 t0 t1 0x33
  let buf := mm_shuffle_epi32 t2 (MM_SHUFFLE 2 0 1 3)
  let rows := g1 rows buf
  let t0 := mm_unpackhi_epi64 m1 m3
  let t1 := mm_unpacklo_epi64 m0 m1
  let buf := mm_blend_epi16 t0 t1 0x33
  let rows := g2 rows buf
  let rows := diagonalize rows
  let t0 := mm_unpackhi_epi64 m3 m1
  let t1 := mm_unpackhi_epi64 m2 m0
  let t2 := mm_blend_epi16 t1 t0 0x33
  let buf := mm_shuffle_epi32 t2 (MM_SHUFFLE 2 1 0 3)
  let rows := g1 rows buf
  let t0 := mm_blend_epi16 m0 m2 0x03
  let t1 := mm_slli_si128 t0 8
  let t2 := mm_blend_epi16 t1 m3 0x0F
  let buf := mm_shuffle_epi32 t2 (MM_SHUFFLE 2 0 3 1)
  let rows := g2 rows buf
  undiagonalize rows

/-- `compress_avx512`, round 6: baokeshed_avx512.c:237-256 -/
def compress_round6 (m0 m1 m2 m3 : M128) (rows : Rows) : Rows :=
  let t0 := mm_unpackhi_epi32 m0 m1
  let t1 := mm_unpacklo_epi32 m0 m2
  let buf := mm_unpacklo_epi64 t0 t1
  let rows := g1 rows buf
  let t0 := mm_srli_si128 m2 4
  let t1 := mm_blend_epi16 m0 m3 0x03
  let buf := mm_blend_epi16 t1 t0 0x3C
  let rows := g2 rows buf
  let rows := diagonalize rows
  let t0 := mm_blend_epi16 m1 m0 0x0C
  let t1 := mm_srli_si128 m3 4
  let t2 := mm_blend_epi16 t0 t1 0x30
  let buf := mm_shuffle_epi32 t2 (MM_SHUFFLE 2 3 0 1)
  let rows := g1 rows buf
  let t0 := mm_unpacklo_epi64 m2 m1
  let t1 := mm_shuffle_epi32 m3 (MM_SHUFFLE 2 0 1 0)
  let t2 := mm_srli_si128 t0 4
  let buf := mm_blend_epi16 t1 t2 0x33
  let rows := g2 rows buf
  undiagonalize rows

/-- `compress_avx512`, round 7: baokeshed_avx512.c:259-278 -/
def compress_round7 (m0 m1 m2 m3 : M128) (rows : Rows) : Rows :=
  let t0 := mm_slli_si128 m1 12
  let t1 := mm_blend_epi16 m0 m3 0x33
  let buf := mm_blend_epi16 t1 t0 0xC0
  let rows := g1 rows buf
  let t0 := mm_blend_epi16 m3 m2 0x30
  let t1 := mm_srli_si128 m1 4
  let t2 := mm_blend_epi16 t0 t1 0x03
  let buf := mm_shuffle_epi32 t2 (MM_SHUFFLE 2 1 3 0)
  let rows := g2 rows buf
  let rows := diagonalize rows
  let t0 := mm_unpacklo_epi64 m0 m2
  let t1 := mm_srli_si128 m1 4
  let buf := mm_shuffle_epi32 (mm_blend_epi16 t0 t1 0x0C) (MM_SHUFFLE 3 1 0 2)
  let rows := g1 rows buf
  let t0 := mm_unpackhi_epi32 m1 m2
  let t1 := mm_unpackhi_epi64 m0 t0
  let buf := mm_shuffle_epi32 t1 (MM_SHUFFLE 0 1 2 3)
  let rows := g2 rows buf
  undiagonalize rows

/-- the two stores at the end of `compress_avx512`, baokeshed_avx512.c:280-281: the new contents of `state` -/
def store_state (lo hi : M128) : Vector Word 8 :=
  wordsOfMem ⟨(regBytes 16 lo ++ regBytes 16 hi).toArray, by simp [length_regBytes]⟩

/-- baokeshed_avx512.c:112-282.  `state` is read and written as 32 bytes of memory. -/
def compress_avx512 (state : Vector Word 8) (block : Bytes) (block_len : Byte) (offset : U64) (flags : Byte) :
    R (Vector Word 8) := do
  let row1 := loadArr (memOfWords state) 0
  let row2 := loadArr (memOfWords state) 16
  let row3 := set4 IV[0] IV[1] IV[2] IV[3]
  let row4 := set4 (offset_low offset) (offset_high offset) (block_len.setWidth 32) (flags.setWidth 32)
  let m0 ← loadu_128 block (16 * 0)
  let m1 ← loadu_128 block (16 * 1)
  let m2 ← loadu_128 block (16 * 2)
  let m3 ← loadu_128 block (16 * 3)
  let rows := compress_round1 m0 m1 m2 m3 ⟨row1, row2, row3, row4⟩
  let rows := compress_round2 m0 m1 m2 m3 rows
  let rows := compress_round3 m0 m1 m2 m3 rows
  let rows := compress_round4 m0 m1 m2 m3 rows
  let rows := compress_round5 m0 m1 m2 m3 rows
  let rows := compress_round6 m0 m1 m2 m3 rows
  let rows := compress_round7 m0 m1 m2 m3 rows
  return store_state (xor_128 rows.row1 rows.row3) (xor_128 rows.row2 rows.row4)

/-- baokeshed_avx512.c:290-404; the elements `v[i]` of the state array are the variables `vi` -/
def round_fn4 (v m : Vector M128 16) (r : Fin 7) : Vector M128 16 :=
  let v0 : M128 := v.get 0
  let v1 : M128 := v.get 1
  let v2 : M128 := v.get 2
  let v3 : M128 := v.get 3
  let v4 : M128 := v.get 4
  let v5 : M128 := v.get 5
  let v6 : M128 := v.get 6
  let v7 : M128 := v.get 7
  let v8 : M128 := v.get 8
  let v9 : M128 := v.get 9
  let v10 : M128 := v.get 10
  let v11 : M128 := v.get 11
  let v12 : M128 := v.get 12
  let v13 : M128 := v.get 13
  let v14 : M128 := v.get 14
  let v15 : M128 := v.get 15
  let v0 : M128 := add_128 v0 (m.get ((MSG_SCHEDULE.get r).get 0))
  let v1 : M128 := add_128 v1 (m.get ((MSG_SCHEDULE.get r).get 2))
  let v2 : M128 := add_128 v2 (m.get ((MSG_SCHEDULE.get r).get 4))
  let v3 : M128 := add_128 v3 (m.get ((MSG_SCHEDULE.get r).get 6))
  let v0 : M128 := add_128 v0 v4
  let v1 : M128 := add_128 v1 v5
  let v2 : M128 := add_128 v2 v6
  let v3 : M128 := add_128 v3 v7
  let v12 : M128 := xor_128 v12 v0
  let v13 : M128 := xor_128 v13 v1
  let v14 : M128 := xor_128 v14 v2
  let v15 : M128 := xor_128 v15 v3
  let v12 : M128 := rot16_128 v12
  let v13 : M128 := rot16_128 v13
  let v14 : M128 := rot16_128 v14
  let v15 : M128 := rot16_128 v15
  let v8 : M128 := add_128 v8 v12
  let v9 : M128 := add_128 v9 v13
  let v10 : M128 := add_128 v10 v14
  let v11 : M128 := add_128 v11 v15
  let v4 : M128 := xor_128 v4 v8
  let v5 : M128 := xor_128 v5 v9
  let v6 : M128 := xor_128 v6 v10
  let v7 : M128 := xor_128 v7 v11
  let v4 : M128 := rot12_128 v4
  let v5 : M128 := rot12_128 v5
  let v6 : M128 := rot12_128 v6
  let v7 : M128 := rot12_128 v7
  let v0 : M128 := add_128 v0 (m.get ((MSG_SCHEDULE.get r).get 1))
  let v1 : M128 := add_128 v1 (m.get ((MSG_SCHEDULE.get r).get 3))
  let v2 : M128 := add_128 v2 (m.get ((MSG_SCHEDULE.get r).get 5))
  let v3 : M128 := add_128 v3 (m.get ((MSG_SCHEDULE.get r).get 7))
  let v0 : M128 := add_128 v0 v4
  let v1 : M128 := add_128 v1 v5
  let v2 : M128 := add_128 v2 v6
  let v3 : M128 := add_128 v3 v7
  let v12 : M128 := xor_128 v12 v0
  let v13 : M128 := xor_128 v13 v1
  let v14 : M128 := xor_128 v14 v2
  let v15 : M128 := xor_128 v15 v3
  let v12 : M128 := rot8_128 v12
  let v13 : M128 := rot8_128 v13
  let v14 : M128 := rot8_128 v14
  let v15 : M128 := rot8_128 v15
  let v8 : M128 := add_128 v8 v12
  let v9 : M128 := add_128 v9 v13
  let v10 : M128 := add_128 v10 v14
  let v11 : M128 := add_128 v11 v15
  let v4 : M128 := xor_128 v4 v8
  let v5 : M128 := xor_128 v5 v9
  let v6 : M128 := xor_128 v6 v10
  let v7 : M128 := xor_128 v7 v11
  let v4 : M128 := rot7_128 v4
  let v5 : M128 := rot7_128 v5
  let v6 : M128 := rot7_128 v6
  let v7 : M128 := rot7_128 v7
  let v0 : M128 := add_128 v0 (m.get ((MSG_SCHEDULE.get r).get 8))
  let v1 : M128 := add_128 v1 (m.get ((MSG_SCHEDULE.get r).get 10))
  let v2 : M128 := add_128 v2 (m.get ((MSG_SCHEDULE.get r).get 12))
  let v3 : M128 := add_128 v3 (m.get ((MSG_SCHEDULE.get r).get 14))
  let v0 : M128 := add_128 v0 v5
  let v1 : M128 := add_128 v1 v6
  let v2 : M128 := add_128 v2 v7
  let v3 : M128 := add_128 v3 v4
  let v15 : M128 := xor_128 v15 v0
  let v12 : M128 := xor_128 v12 v1
  let v13 : M128 := xor_128 v13 v2
  let v14 : M128 := xor_128 v14 v3
  let v15 : M128 := rot16_128 v15
  let v12 : M128 := rot16_128 v12
  let v13 : M128 := rot16_128 v13
  let v14 : M128 := rot16_128 v14
  let v10 : M128 := add_128 v10 v15
  let v11 : M128 := add_128 v11 v12
  let v8 : M128 := add_128 v8 v13
  let v9 : M128 := add_128 v9 v14
  let v5 : M128 := xor_128 v5 v10
  let v6 : M128 := xor_128 v6 v11
  let v7 : M128 := xor_128 v7 v8
  let v4 : M128 := xor_128 v4 v9
  let v5 : M128 := rot12_128 v5
  let v6 : M128 := rot12_128 v6
  let v7 : M128 := rot12_128 v7
  let v4 : M128 := rot12_128 v4
  let v0 : M128 := add_128 v0 (m.get ((MSG_SCHEDULE.get r).get 9))
  let v1 : M128 := add_128 v1 (m.get ((MSG_SCHEDULE.get r).get 11))
  let v2 : M128 := add_128 v2 (m.get ((MSG_SCHEDULE.get r).get 13))
  let v3 : M128 := add_128 v3 (m.get ((MSG_SCHEDULE.get r).get 15))
  let v0 : M128 := add_128 v0 v5
  let v1 : M128 := add_128 v1 v6
  let v2 : M128 := add_128 v2 v7
  let v3 : M128 := add_128 v3 v4
  let v15 : M128 := xor_128 v15 v0
  let v12 : M128 := xor_128 v12 v1
  let v13 : M128 := xor_128 v13 v2
  let v14 : M128 := xor_128 v14 v3
  let v15 : M128 := rot8_128 v15
  let v12 : M128 := rot8_128 v12
  let v13 : M128 := rot8_128 v13
  let v14 : M128 := rot8_128 v14
  let v10 : M128 := add_128 v10 v15
  let v11 : M128 := add_128 v11 v12
  let v8 : M128 := add_128 v8 v13
  let v9 : M128 := add_128 v9 v14
  let v5 : M128 := xor_128 v5 v10
  let v6 : M128 := xor_128 v6 v11
  let v7 : M128 := xor_128 v7 v8
  let v4 : M128 := xor_128 v4 v9
  let v5 : M128 := rot7_128 v5
  let v6 : M128 := rot7_128 v6
  let v7 : M128 := rot7_128 v7
  let v4 : M128 := rot7_128 v4
  #v[v0, v1, v2, v3, v4, v5, v6, v7, v8, v9, v10, v11, v12, v13, v14, v15]

/-- baokeshed_avx512.c:406-425 -/
def transpose_vecs_128 (vecs : Vector M128 4) : Vector M128 4 :=
  let ab_01 := mm_unpacklo_epi32 vecs[0] vecs[1]
  let ab_23 := mm_unpackhi_epi32 vecs[0] vecs[1]
  let cd_01 := mm_unpacklo_epi32 vecs[2] vecs[3]
  let cd_23 := mm_unpackhi_epi32 vecs[2] vecs[3]
  let abcd_0 := mm_unpacklo_epi64 ab_01 cd_01
  let abcd_1 := mm_unpackhi_epi64 ab_01 cd_01
  let abcd_2 := mm_unpacklo_epi64 ab_23 cd_23
  let abcd_3 := mm_unpackhi_epi64 ab_23 cd_23
  #v[abcd_0,
     abcd_1,
     abcd_2,
     abcd_3]

/-- baokeshed_avx512.c:427-449 -/
def transpose_msg_vecs4 (inputs : List Bytes) (block_offset : Nat) : R (Vector M128 16) := do
  let out0 ← loadu_128 (← cIndex inputs 0) (block_offset + 0 * 16)
  let out1 ← loadu_128 (← cIndex inputs 1) (block_offset + 0 * 16)
  let out2 ← loadu_128 (← cIndex inputs 2) (block_offset + 0 * 16)
  let out3 ← loadu_128 (← cIndex inputs 3) (block_offset + 0 * 16)
  let out4 ← loadu_128 (← cIndex inputs 0) (block_offset + 1 * 16)
  let out5 ← loadu_128 (← cIndex inputs 1) (block_offset + 1 * 16)
  let out6 ← loadu_128 (← cIndex inputs 2) (block_offset + 1 * 16)
  let out7 ← loadu_128 (← cIndex inputs 3) (block_offset + 1 * 16)
  let out8 ← loadu_128 (← cIndex inputs 0) (block_offset + 2 * 16)
  let out9 ← loadu_128 (← cIndex inputs 1) (block_offset + 2 * 16)
  let out10 ← loadu_128 (← cIndex inputs 2) (block_offset + 2 * 16)
  let out11 ← loadu_128 (← cIndex inputs 3) (block_offset + 2 * 16)
  let out12 ← loadu_128 (← cIndex inputs 0) (block_offset + 3 * 16)
  let out13 ← loadu_128 (← cIndex inputs 1) (block_offset + 3 * 16)
  let out14 ← loadu_128 (← cIndex inputs 2) (block_offset + 3 * 16)
  let out15 ← loadu_128 (← cIndex inputs 3) (block_offset + 3 * 16)
  let sq0 := transpose_vecs_128 #v[out0, out1, out2, out3]
  let sq1 := transpose_vecs_128 #v[out4, out5, out6, out7]
  let sq2 := transpose_vecs_128 #v[out8, out9, out10, out11]
  let sq3 := transpose_vecs_128 #v[out12, out13, out14, out15]
  return sq0 ++ sq1 ++ sq2 ++ sq3

/-- baokeshed_avx512.c:451-457 -/
def load_offsets4 (offset : U64) (deltas : List U64) : R (M128 × M128) := do
  let a := mm256_add_epi64 (mm256_set1_epi64x offset) (← loadU64s 4 deltas 0)
  let out_lo := mm256_cvtepi64_epi32 a
  let out_hi := mm256_cvtepi64_epi32 (mm256_srli_epi64 a 32)
  return (out_lo, out_hi)

/-- The loop body of `hash4_avx512` after the message has been loaded, baokeshed_avx512.c:481-501 -/
def hash4_avx512_block (h_vecs : Vector M128 8) (offset_low_vec offset_high_vec block_len_vec
    block_flags_vec : M128) (msg_vecs : Vector M128 16) : Vector M128 8 :=
  let v : Vector M128 16 :=
    #v[h_vecs[0], h_vecs[1], h_vecs[2], h_vecs[3], h_vecs[4], h_vecs[5], h_vecs[6], h_vecs[7],
       set1_128 IV[0], set1_128 IV[1], set1_128 IV[2], set1_128 IV[3],
       offset_low_vec, offset_high_vec, block_len_vec, block_flags_vec]
  let v := round_fn4 v msg_vecs 0
  let v := round_fn4 v msg_vecs 1
  let v := round_fn4 v msg_vecs 2
  let v := round_fn4 v msg_vecs 3
  let v := round_fn4 v msg_vecs 4
  let v := round_fn4 v msg_vecs 5
  let v := round_fn4 v msg_vecs 6
  #v[xor_128 v[0] v[8], xor_128 v[1] v[9], xor_128 v[2] v[10], xor_128 v[3] v[11],
     xor_128 v[4] v[12], xor_128 v[5] v[13], xor_128 v[6] v[14], xor_128 v[7] v[15]]

/-- The loop of `hash4_avx512`, baokeshed_avx512.c:472-504; `n` iterations remain. -/
def hash4_avx512_loop (inputs : List Bytes) (blocks : Nat) (offset_low_vec offset_high_vec : M128)
    (flags flags_end : Byte) : (n block : Nat) → (h_vecs : Vector M128 8) → (block_flags : Byte) →
    R (Vector M128 8)
  | 0, _, h_vecs, _ => .ok h_vecs
  | n + 1, block, h_vecs, block_flags => do
    let block_flags := if block + 1 = blocks then block_flags ||| flags_end else block_flags
    let block_len_vec := set1_128 (BitVec.ofNat 32 BLOCK_LEN)
    let block_flags_vec := set1_128 (block_flags.setWidth 32)
    let msg_vecs ← transpose_msg_vecs4 inputs (block * BLOCK_LEN)
    let h_vecs := hash4_avx512_block h_vecs offset_low_vec offset_high_vec block_len_vec block_flags_vec msg_vecs
    hash4_avx512_loop inputs blocks offset_low_vec offset_high_vec flags flags_end n (block + 1) h_vecs flags

/-- The end of `hash4_avx512`, baokeshed_avx512.c:506-517: `out` is the memory behind the pointer, the result its
new contents. -/
def hash4_avx512_store (h_vecs : Vector M128 8) (out : Bytes) : R Bytes := do
  let sq0 := transpose_vecs_128 #v[h_vecs[0], h_vecs[1], h_vecs[2], h_vecs[3]]
  let sq1 := transpose_vecs_128 #v[h_vecs[4], h_vecs[5], h_vecs[6], h_vecs[7]]
  let out ← storeu_128 sq0[0] out (0 * 16)
  let out ← storeu_128 sq1[0] out (1 * 16)
  let out ← storeu_128 sq0[1] out (2 * 16)
  let out ← storeu_128 sq1[1] out (3 * 16)
  let out ← storeu_128 sq0[2] out (4 * 16)
  let out ← storeu_128 sq1[2] out (5 * 16)
  let out ← storeu_128 sq0[3] out (6 * 16)
  let out ← storeu_128 sq1[3] out (7 * 16)
  return out

/-- baokeshed_avx512.c:459-518 -/
def hash4_avx512 (inputs : List Bytes) (blocks : Nat) (key_words : Vector Word 8) (offset : U64)
    (offset_deltas : List U64) (flags flags_start flags_end : Byte) (out : Bytes) : R Bytes := do
  let h_vecs : Vector M128 8 :=
    #v[set1_128 key_words[0], set1_128 key_words[1], set1_128 key_words[2], set1_128 key_words[3],
       set1_128 key_words[4], set1_128 key_words[5], set1_128 key_words[6], set1_128 key_words[7]]
  let (offset_low_vec, offset_high_vec) ← load_offsets4 offset offset_deltas
  let h_vecs ← hash4_avx512_loop inputs blocks offset_low_vec offset_high_vec flags flags_end blocks 0 h_vecs
    (flags ||| flags_start)
  hash4_avx512_store h_vecs out

/-- baokeshed_avx512.c:526-640; the elements `v[i]` of the state array are the variables `vi` -/
def round_fn8 (v m : Vector M256 16) (r : Fin 7) : Vector M256 16 :=
  let v0 : M256 := v.get 0
  let v1 : M256 := v.get 1
  let v2 : M256 := v.get 2
  let v3 : M256 := v.get 3
  let v4 : M256 := v.get 4
  let v5 : M256 := v.get 5
  let v6 : M256 := v.get 6
  let v7 : M256 := v.get 7
  let v8 : M256 := v.get 8
  let v9 : M256 := v.get 9
  let v10 : M256 := v.get 10
  let v11 : M256 := v.get 11
  let v12 : M256 := v.get 12
  let v13 : M256 := v.get 13
  let v14 : M256 := v.get 14
  let v15 : M256 := v.get 15
  let v0 : M256 := add_256 v0 (m.get ((MSG_SCHEDULE.get r).get 0))
  let v1 : M256 := add_256 v1 (m.get ((MSG_SCHEDULE.get r).get 2))
  let v2 : M256 := add_256 v2 (m.get ((MSG_SCHEDULE.get r).get 4))
  let v3 : M256 := add_256 v3 (m.get ((MSG_SCHEDULE.get r).get 6))
  let v0 : M256 := add_256 v0 v4
  let v1 : M256 := add_256 v1 v5
  let v2 : M256 := add_256 v2 v6
  let v3 : M256 := add_256 v3 v7
  let v12 : M256 := xor_256 v12 v0
  let v13 : M256 := xor_256 v13 v1
  let v14 : M256 := xor_256 v14 v2
  let v15 : M256 := xor_256 v15 v3
  let v12 : M256 := rot16_256 v12
  let v13 : M256 := rot16_256 v13
  let v14 : M256 := rot16_256 v14
  let v15 : M256 := rot16_256 v15
  let v8 : M256 := add_256 v8 v12
  let v9 : M256 := add_256 v9 v13
  let v10 : M256 := add_256 v10 v14
  let v11 : M256 := add_256 v11 v15
  let v4 : M256 := xor_256 v4 v8
  let v5 : M256 := xor_256 v5 v9
  let v6 : M256 := xor_256 v6 v10
  let v7 : M256 := xor_256 v7 v11
  let v4 : M256 := rot12_256 v4
  let v5 : M256 := rot12_256 v5
  let v6 : M256 := rot12_256 v6
  let v7 : M256 := rot12_256 v7
  let v0 : M256 := add_256 v0 (m.get ((MSG_SCHEDULE.get r).get 1))
  let v1 : M256 := add_256 v1 (m.get ((MSG_SCHEDULE.get r).get 3))
  let v2 : M256 := add_256 v2 (m.get ((MSG_SCHEDULE.get r).get 5))
  let v3 : M256 := add_256 v3 (m.get ((MSG_SCHEDULE.get r).get 7))
  let v0 : M256 := add_256 v0 v4
  let v1 : M256 := add_256 v1 v5
  let v2 : M256 := add_256 v2 v6
  let v3 : M256 := add_256 v3 v7
  let v12 : M256 := xor_256 v12 v0
  let v13 : M256 := xor_256 v13 v1
  let v14 : M256 := xor_256 v14 v2
  let v15 : M256 := xor_256 v15 v3
  let v12 : M256 := rot8_256 v12
  let v13 : M256 := rot8_256 v13
  let v14 : M256 := rot8_256 v14
  let v15 : M256 := rot8_256 v15
  let v8 : M256 := add_256 v8 v12
  let v9 : M256 := add_256 v9 v13
  let v10 : M256 := add_256 v10 v14
  let v11 : M256 := add_256 v11 v15
  let v4 : M256 := xor_256 v4 v8
  let v5 : M256 := xor_256 v5 v9
  let v6 : M256 := xor_256 v6 v10
  let v7 : M256 := xor_256 v7 v11
  let v4 : M256 := rot7_256 v4
  let v5 : M256 := rot7_256 v5
  let v6 : M256 := rot7_256 v6
  let v7 : M256 := rot7_256 v7
  let v0 : M256 := add_256 v0 (m.get ((MSG_SCHEDULE.get r).get 8))
  let v1 : M256 := add_256 v1 (m.get ((MSG_SCHEDULE.get r).get 10))
  let v2 : M256 := add_256 v2 (m.get ((MSG_SCHEDULE.get r).get 12))
  let v3 : M256 := add_256 v3 (m.get ((MSG_SCHEDULE.get r).get 14))
  let v0 : M256 := add_256 v0 v5
  let v1 : M256 := add_256 v1 v6
  let v2 : M256 := add_256 v2 v7
  let v3 : M256 := add_256 v3 v4
  let v15 : M256 := xor_256 v15 v0
  let v12 : M256 := xor_256 v12 v1
  let v13 : M256 := xor_256 v13 v2
  let v14 : M256 := xor_256 v14 v3
  let v15 : M256 := rot16_256 v15
  let v12 : M256 := rot16_256 v12
  let v13 : M256 := rot16_256 v13
  let v14 : M256 := rot16_256 v14
  let v10 : M256 := add_256 v10 v15
  let v11 : M256 := add_256 v11 v12
  let v8 : M256 := add_256 v8 v13
  let v9 : M256 := add_256 v9 v14
  let v5 : M256 := xor_256 v5 v10
  let v6 : M256 := xor_256 v6 v11
  let v7 : M256 := xor_256 v7 v8
  let v4 : M256 := xor_256 v4 v9
  let v5 : M256 := rot12_256 v5
  let v6 : M256 := rot12_256 v6
  let v7 : M256 := rot12_256 v7
  let v4 : M256 := rot12_256 v4
  let v0 : M256 := add_256 v0 (m.get ((MSG_SCHEDULE.get r).get 9))
  let v1 : M256 := add_256 v1 (m.get ((MSG_SCHEDULE.get r).get 11))
  let v2 : M256 := add_256 v2 (m.get ((MSG_SCHEDULE.get r).get 13))
  let v3 : M256 := add_256 v3 (m.get ((MSG_SCHEDULE.get r).get 15))
  let v0 : M256 := add_256 v0 v5
  let v1 : M256 := add_256 v1 v6
  let v2 : M256 := add_256 v2 v7
  let v3 : M256 := add_256 v3 v4
  let v15 : M256 := xor_256 v15 v0
  let v12 : M256 := xor_256 v12 v1
  let v13 : M256 := xor_256 v13 v2
  let v14 : M256 := xor_256 v14 v3
  let v15 : M256 := rot8_256 v15
  let v12 : M256 := rot8_256 v12
  let v13 : M256 := rot8_256 v13
  let v14 : M256 := rot8_256 v14
  let v10 : M256 := add_256 v10 v15
  let v11 : M256 := add_256 v11 v12
  let v8 : M256 := add_256 v8 v13
  let v9 : M256 := add_256 v9 v14
  let v5 : M256 := xor_256 v5 v10
  let v6 : M256 := xor_256 v6 v11
  let v7 : M256 := xor_256 v7 v8
  let v4 : M256 := xor_256 v4 v9
  let v5 : M256 := rot7_256 v5
  let v6 : M256 := rot7_256 v6
  let v7 : M256 := rot7_256 v7
  let v4 : M256 := rot7_256 v4
  #v[v0, v1, v2, v3, v4, v5, v6, v7, v8, v9, v10, v11, v12, v13, v14, v15]

/-- baokeshed_avx512.c:642-674 -/
def transpose_vecs_256 (vecs : Vector M256 8) : Vector M256 8 :=
  let ab_0145 := mm256_unpacklo_epi32 vecs[0] vecs[1]
  let ab_2367 := mm256_unpackhi_epi32 vecs[0] vecs[1]
  let cd_0145 := mm256_unpacklo_epi32 vecs[2] vecs[3]
  let cd_2367 := mm256_unpackhi_epi32 vecs[2] vecs[3]
  let ef_0145 := mm256_unpacklo_epi32 vecs[4] vecs[5]
  let ef_2367 := mm256_unpackhi_epi32 vecs[4] vecs[5]
  let gh_0145 := mm256_unpacklo_epi32 vecs[6] vecs[7]
  let gh_2367 := mm256_unpackhi_epi32 vecs[6] vecs[7]
  let abcd_04 := mm256_unpacklo_epi64 ab_0145 cd_0145
  let abcd_15 := mm256_unpackhi_epi64 ab_0145 cd_0145
  let abcd_26 := mm256_unpacklo_epi64 ab_2367 cd_2367
  let abcd_37 := mm256_unpackhi_epi64 ab_2367 cd_2367
  let efgh_04 := mm256_unpacklo_epi64 ef_0145 gh_0145
  let efgh_15 := mm256_unpackhi_epi64 ef_0145 gh_0145
  let efgh_26 := mm256_unpacklo_epi64 ef_2367 gh_2367
  let efgh_37 := mm256_unpackhi_epi64 ef_2367 gh_2367
  #v[mm256_permute2x128_si256 abcd_04 efgh_04 0x20,
     mm256_permute2x128_si256 abcd_15 efgh_15 0x20,
     mm256_permute2x128_si256 abcd_26 efgh_26 0x20,
     mm256_permute2x128_si256 abcd_37 efgh_37 0x20,
     mm256_permute2x128_si256 abcd_04 efgh_04 0x31,
     mm256_permute2x128_si256 abcd_15 efgh_15 0x31,
     mm256_permute2x128_si256 abcd_26 efgh_26 0x31,
     mm256_permute2x128_si256 abcd_37 efgh_37 0x31]

/-- baokeshed_avx512.c:676-696 -/
def transpose_msg_vecs8 (inputs : List Bytes) (block_offset : Nat) : R (Vector M256 16) := do
  let out0 ← loadu_256 (← cIndex inputs 0) (block_offset + 0 * 32)
  let out1 ← loadu_256 (← cIndex inputs 1) (block_offset + 0 * 32)
  let out2 ← loadu_256 (← cIndex inputs 2) (block_offset + 0 * 32)
  let out3 ← loadu_256 (← cIndex inputs 3) (block_offset + 0 * 32)
  let out4 ← loadu_256 (← cIndex inputs 4) (block_offset + 0 * 32)
  let out5 ← loadu_256 (← cIndex inputs 5) (block_offset + 0 * 32)
  let out6 ← loadu_256 (← cIndex inputs 6) (block_offset + 0 * 32)
  let out7 ← loadu_256 (← cIndex inputs 7) (block_offset + 0 * 32)
  let out8 ← loadu_256 (← cIndex inputs 0) (block_offset + 1 * 32)
  let out9 ← loadu_256 (← cIndex inputs 1) (block_offset + 1 * 32)
  let out10 ← loadu_256 (← cIndex inputs 2) (block_offset + 1 * 32)
  let out11 ← loadu_256 (← cIndex inputs 3) (block_offset + 1 * 32)
  let out12 ← loadu_256 (← cIndex inputs 4) (block_offset + 1 * 32)
  let out13 ← loadu_256 (← cIndex inputs 5) (block_offset + 1 * 32)
  let out14 ← loadu_256 (← cIndex inputs 6) (block_offset + 1 * 32)
  let out15 ← loadu_256 (← cIndex inputs 7) (block_offset + 1 * 32)
  let sq0 := transpose_vecs_256 #v[out0, out1, out2, out3, out4, out5, out6, out7]
  let sq1 := transpose_vecs_256 #v[out8, out9, out10, out11, out12, out13, out14, out15]
  return sq0 ++ sq1

/-- baokeshed_avx512.c:698-704 -/
def load_offsets8 (offset : U64) (deltas : List U64) : R (M256 × M256) := do
  let a := mm512_add_epi64 (mm512_set1_epi64 offset) (← loadU64s 8 deltas 0)
  let out_lo := mm512_cvtepi64_epi32 a
  let out_hi := mm512_cvtepi64_epi32 (mm512_srli_epi64 a 32)
  return (out_lo, out_hi)

/-- The loop body of `hash8_avx512` after the message has been loaded, baokeshed_avx512.c:728-748 -/
def hash8_avx512_block (h_vecs : Vector M256 8) (offset_low_vec offset_high_vec block_len_vec
    block_flags_vec : M256) (msg_vecs : Vector M256 16) : Vector M256 8 :=
  let v : Vector M256 16 :=
    #v[h_vecs[0], h_vecs[1], h_vecs[2], h_vecs[3], h_vecs[4], h_vecs[5], h_vecs[6], h_vecs[7],
       set1_256 IV[0], set1_256 IV[1], set1_256 IV[2], set1_256 IV[3],
       offset_low_vec, offset_high_vec, block_len_vec, block_flags_vec]
  let v := round_fn8 v msg_vecs 0
  let v := round_fn8 v msg_vecs 1
  let v := round_fn8 v msg_vecs 2
  let v := round_fn8 v msg_vecs 3
  let v := round_fn8 v msg_vecs 4
  let v := round_fn8 v msg_vecs 5
  let v := round_fn8 v msg_vecs 6
  #v[xor_256 v[0] v[8], xor_256 v[1] v[9], xor_256 v[2] v[10], xor_256 v[3] v[11],
     xor_256 v[4] v[12], xor_256 v[5] v[13], xor_256 v[6] v[14], xor_256 v[7] v[15]]

/-- The loop of `hash8_avx512`, baokeshed_avx512.c:719-751; `n` iterations remain. -/
def hash8_avx512_loop (inputs : List Bytes) (blocks : Nat) (offset_low_vec offset_high_vec : M256)
    (flags flags_end : Byte) : (n block : Nat) → (h_vecs : Vector M256 8) → (block_flags : Byte) →
    R (Vector M256 8)
  | 0, _, h_vecs, _ => .ok h_vecs
  | n + 1, block, h_vecs, block_flags => do
    let block_flags := if block + 1 = blocks then block_flags ||| flags_end else block_flags
    let block_len_vec := set1_256 (BitVec.ofNat 32 BLOCK_LEN)
    let block_flags_vec := set1_256 (block_flags.setWidth 32)
    let msg_vecs ← transpose_msg_vecs8 inputs (block * BLOCK_LEN)
    let h_vecs := hash8_avx512_block h_vecs offset_low_vec offset_high_vec block_len_vec block_flags_vec msg_vecs
    hash8_avx512_loop inputs blocks offset_low_vec offset_high_vec flags flags_end n (block + 1) h_vecs flags

/-- The end of `hash8_avx512`, baokeshed_avx512.c:753-761: `out` is the memory behind the pointer, the result its
new contents. -/
def hash8_avx512_store (h_vecs : Vector M256 8) (out : Bytes) : R Bytes := do
  let h_vecs := transpose_vecs_256 h_vecs
  let out ← storeu_256 h_vecs[0] out (0 * 32)
  let out ← storeu_256 h_vecs[1] out (1 * 32)
  let out ← storeu_256 h_vecs[2] out (2 * 32)
  let out ← storeu_256 h_vecs[3] out (3 * 32)
  let out ← storeu_256 h_vecs[4] out (4 * 32)
  let out ← storeu_256 h_vecs[5] out (5 * 32)
  let out ← storeu_256 h_vecs[6] out (6 * 32)
  let out ← storeu_256 h_vecs[7] out (7 * 32)
  return out

/-- baokeshed_avx512.c:706-762 -/
def hash8_avx512 (inputs : List Bytes) (blocks : Nat) (key_words : Vector Word 8) (offset : U64)
    (offset_deltas : List U64) (flags flags_start flags_end : Byte) (out : Bytes) : R Bytes := do
  let h_vecs : Vector M256 8 :=
    #v[set1_256 key_words[0], set1_256 key_words[1], set1_256 key_words[2], set1_256 key_words[3],
       set1_256 key_words[4], set1_256 key_words[5], set1_256 key_words[6], set1_256 key_words[7]]
  let (offset_low_vec, offset_high_vec) ← load_offsets8 offset offset_deltas
  let h_vecs ← hash8_avx512_loop inputs blocks offset_low_vec offset_high_vec flags flags_end blocks 0 h_vecs
    (flags ||| flags_start)
  hash8_avx512_store h_vecs out

/-- baokeshed_avx512.c:770-884; the elements `v[i]` of the state array are the variables `vi` -/
def round_fn16 (v m : Vector M512 16) (r : Fin 7) : Vector M512 16 :=
  let v0 : M512 := v.get 0
  let v1 : M512 := v.get 1
  let v2 : M512 := v.get 2
  let v3 : M512 := v.get 3
  let v4 : M512 := v.get 4
  let v5 : M512 := v.get 5
  let v6 : M512 := v.get 6
  let v7 : M512 := v.get 7
  let v8 : M512 := v.get 8
  let v9 : M512 := v.get 9
  let v10 : M512 := v.get 10
  let v11 : M512 := v.get 11
  let v12 : M512 := v.get 12
  let v13 : M512 := v.get 13
  let v14 : M512 := v.get 14
  let v15 : M512 := v.get 15
  let v0 : M512 := add_512 v0 (m.get ((MSG_SCHEDULE.get r).get 0))
  let v1 : M512 := add_512 v1 (m.get ((MSG_SCHEDULE.get r).get 2))
  let v2 : M512 := add_512 v2 (m.get ((MSG_SCHEDULE.get r).get 4))
  let v3 : M512 := add_512 v3 (m.get ((MSG_SCHEDULE.get r).get 6))
  let v0 : M512 := add_512 v0 v4
  let v1 : M512 := add_512 v1 v5
  let v2 : M512 := add_512 v2 v6
  let v3 : M512 := add_512 v3 v7
  let v12 : M512 := xor_512 v12 v0
  let v13 : M512 := xor_512 v13 v1
  let v14 : M512 := xor_512 v14 v2
  let v15 : M512 := xor_512 v15 v3
  let v12 : M512 := rot16_512 v12
  let v13 : M512 := rot16_512 v13
  let v14 : M512 := rot16_512 v14
  let v15 : M512 := rot16_512 v15
  let v8 : M512 := add_512 v8 v12
  let v9 : M512 := add_512 v9 v13
  let v10 : M512 := add_512 v10 v14
  let v11 : M512 := add_512 v11 v15
  let v4 : M512 := xor_512 v4 v8
  let v5 : M512 := xor_512 v5 v9
  let v6 : M512 := xor_512 v6 v10
  let v7 : M512 := xor_512 v7 v11
  let v4 : M512 := rot12_512 v4
  let v5 : M512 := rot12_512 v5
  let v6 : M512 := rot12_512 v6
  let v7 : M512 := rot12_512 v7
  let v0 : M512 := add_512 v0 (m.get ((MSG_SCHEDULE.get r).get 1))
  let v1 : M512 := add_512 v1 (m.get ((MSG_SCHEDULE.get r).get 3))
  let v2 : M512 := add_512 v2 (m.get ((MSG_SCHEDULE.get r).get 5))
  let v3 : M512 := add_512 v3 (m.get ((MSG_SCHEDULE.get r).get 7))
  let v0 : M512 := add_512 v0 v4
  let v1 : M512 := add_512 v1 v5
  let v2 : M512 := add_512 v2 v6
  let v3 : M512 := add_512 v3 v7
  let v12 : M512 := xor_512 v12 v0
  let v13 : M512 := xor_512 v13 v1
  let v14 : M512 := xor_512 v14 v2
  let v15 : M512 := xor_512 v15 v3
  let v12 : M512 := rot8_512 v12
  let v13 : M512 := rot8_512 v13
  let v14 : M512 := rot8_512 v14
  let v15 : M512 := rot8_512 v15
  let v8 : M512 := add_512 v8 v12
  let v9 : M512 := add_512 v9 v13
  let v10 : M512 := add_512 v10 v14
  let v11 : M512 := add_512 v11 v15
  let v4 : M512 := xor_512 v4 v8
  let v5 : M512 := xor_512 v5 v9
  let v6 : M512 := xor_512 v6 v10
  let v7 : M512 := xor_512 v7 v11
  let v4 : M512 := rot7_512 v4
  let v5 : M512 := rot7_512 v5
  let v6 : M512 := rot7_512 v6
  let v7 : M512 := rot7_512 v7
  let v0 : M512 := add_512 v0 (m.get ((MSG_SCHEDULE.get r).get 8))
  let v1 : M512 := add_512 v1 (m.get ((MSG_SCHEDULE.get r).get 10))
  let v2 : M512 := add_512 v2 (m.get ((MSG_SCHEDULE.get r).get 12))
  let v3 : M512 := add_512 v3 (m.get ((MSG_SCHEDULE.get r).get 14))
  let v0 : M512 := add_512 v0 v5
  let v1 : M512 := add_512 v1 v6
  let v2 : M512 := add_512 v2 v7
  let v3 : M512 := add_512 v3 v4
  let v15 : M512 := xor_512 v15 v0
  let v12 : M512 := xor_512 v12 v1
  let v13 : M512 := xor_512 v13 v2
  let v14 : M512 := xor_512 v14 v3
  let v15 : M512 := rot16_512 v15
  let v12 : M512 := rot16_512 v12
  let v13 : M512 := rot16_512 v13
  let v14 : M512 := rot16_512 v14
  let v10 : M512 := add_512 v10 v15
  let v11 : M512 := add_512 v11 v12
  let v8 : M512 := add_512 v8 v13
  let v9 : M512 := add_512 v9 v14
  let v5 : M512 := xor_512 v5 v10
  let v6 : M512 := xor_512 v6 v11
  let v7 : M512 := xor_512 v7 v8
  let v4 : M512 := xor_512 v4 v9
  let v5 : M512 := rot12_512 v5
  let v6 : M512 := rot12_512 v6
  let v7 : M512 := rot12_512 v7
  let v4 : M512 := rot12_512 v4
  let v0 : M512 := add_512 v0 (m.get ((MSG_SCHEDULE.get r).get 9))
  let v1 : M512 := add_512 v1 (m.get ((MSG_SCHEDULE.get r).get 11))
  let v2 : M512 := add_512 v2 (m.get ((MSG_SCHEDULE.get r).get 13))
  let v3 : M512 := add_512 v3 (m.get ((MSG_SCHEDULE.get r).get 15))
  let v0 : M512 := add_512 v0 v5
  let v1 : M512 := add_512 v1 v6
  let v2 : M512 := add_512 v2 v7
  let v3 : M512 := add_512 v3 v4
  let v15 : M512 := xor_512 v15 v0
  let v12 : M512 := xor_512 v12 v1
  let v13 : M512 := xor_512 v13 v2
  let v14 : M512 := xor_512 v14 v3
  let v15 : M512 := rot8_512 v15
  let v12 : M512 := rot8_512 v12
  let v13 : M512 := rot8_512 v13
  let v14 : M512 := rot8_512 v14
  let v10 : M512 := add_512 v10 v15
  let v11 : M512 := add_512 v11 v12
  let v8 : M512 := add_512 v8 v13
  let v9 : M512 := add_512 v9 v14
  let v5 : M512 := xor_512 v5 v10
  let v6 : M512 := xor_512 v6 v11
  let v7 : M512 := xor_512 v7 v8
  let v4 : M512 := xor_512 v4 v9
  let v5 : M512 := rot7_512 v5
  let v6 : M512 := rot7_512 v6
  let v7 : M512 := rot7_512 v7
  let v4 : M512 := rot7_512 v4
  #v[v0, v1, v2, v3, v4, v5, v6, v7, v8, v9, v10, v11, v12, v13, v14, v15]

/-- baokeshed_avx512.c:889-891 -/
def unpack_lo_128 (a b : M512) : M512 := mm512_shuffle_i32x4 a b 0x88

/-- baokeshed_avx512.c:896-898 -/
def unpack_hi_128 (a b : M512) : M512 := mm512_shuffle_i32x4 a b 0xdd

/-- baokeshed_avx512.c:900-980 -/
def transpose_vecs_512 (vecs : Vector M512 16) : Vector M512 16 :=
  let ab_0 := mm512_unpacklo_epi32 vecs[0] vecs[1]
  let ab_2 := mm512_unpackhi_epi32 vecs[0] vecs[1]
  let cd_0 := mm512_unpacklo_epi32 vecs[2] vecs[3]
  let cd_2 := mm512_unpackhi_epi32 vecs[2] vecs[3]
  let ef_0 := mm512_unpacklo_epi32 vecs[4] vecs[5]
  let ef_2 := mm512_unpackhi_epi32 vecs[4] vecs[5]
  let gh_0 := mm512_unpacklo_epi32 vecs[6] vecs[7]
  let gh_2 := mm512_unpackhi_epi32 vecs[6] vecs[7]
  let ij_0 := mm512_unpacklo_epi32 vecs[8] vecs[9]
  let ij_2 := mm512_unpackhi_epi32 vecs[8] vecs[9]
  let kl_0 := mm512_unpacklo_epi32 vecs[10] vecs[11]
  let kl_2 := mm512_unpackhi_epi32 vecs[10] vecs[11]
  let mn_0 := mm512_unpacklo_epi32 vecs[12] vecs[13]
  let mn_2 := mm512_unpackhi_epi32 vecs[12] vecs[13]
  let op_0 := mm512_unpacklo_epi32 vecs[14] vecs[15]
  let op_2 := mm512_unpackhi_epi32 vecs[14] vecs[15]
  let abcd_0 := mm512_unpacklo_epi64 ab_0 cd_0
  let abcd_1 := mm512_unpackhi_epi64 ab_0 cd_0
  let abcd_2 := mm512_unpacklo_epi64 ab_2 cd_2
  let abcd_3 := mm512_unpackhi_epi64 ab_2 cd_2
  let efgh_0 := mm512_unpacklo_epi64 ef_0 gh_0
  let efgh_1 := mm512_unpackhi_epi64 ef_0 gh_0
  let efgh_2 := mm512_unpacklo_epi64 ef_2 gh_2
  let efgh_3 := mm512_unpackhi_epi64 ef_2 gh_2
  let ijkl_0 := mm512_unpacklo_epi64 ij_0 kl_0
  let ijkl_1 := mm512_unpackhi_epi64 ij_0 kl_0
  let ijkl_2 := mm512_unpacklo_epi64 ij_2 kl_2
  let ijkl_3 := mm512_unpackhi_epi64 ij_2 kl_2
  let mnop_0 := mm512_unpacklo_epi64 mn_0 op_0
  let mnop_1 := mm512_unpackhi_epi64 mn_0 op_0
  let mnop_2 := mm512_unpacklo_epi64 mn_2 op_2
  let mnop_3 := mm512_unpackhi_epi64 mn_2 op_2
  let abcdefgh_0 := unpack_lo_128 abcd_0 efgh_0
  let abcdefgh_1 := unpack_lo_128 abcd_1 efgh_1
  let abcdefgh_2 := unpack_lo_128 abcd_2 efgh_2
  let abcdefgh_3 := unpack_lo_128 abcd_3 efgh_3
  let abcdefgh_4 := unpack_hi_128 abcd_0 efgh_0
  let abcdefgh_5 := unpack_hi_128 abcd_1 efgh_1
  let abcdefgh_6 := unpack_hi_128 abcd_2 efgh_2
  let abcdefgh_7 := unpack_hi_128 abcd_3 efgh_3
  let ijklmnop_0 := unpack_lo_128 ijkl_0 mnop_0
  let ijklmnop_1 := unpack_lo_128 ijkl_1 mnop_1
  let ijklmnop_2 := unpack_lo_128 ijkl_2 mnop_2
  let ijklmnop_3 := unpack_lo_128 ijkl_3 mnop_3
  let ijklmnop_4 := unpack_hi_128 ijkl_0 mnop_0
  let ijklmnop_5 := unpack_hi_128 ijkl_1 mnop_1
  let ijklmnop_6 := unpack_hi_128 ijkl_2 mnop_2
  let ijklmnop_7 := unpack_hi_128 ijkl_3 mnop_3
  #v[unpack_lo_128 abcdefgh_0 ijklmnop_0,
     unpack_lo_128 abcdefgh_1 ijklmnop_1,
     unpack_lo_128 abcdefgh_2 ijklmnop_2,
     unpack_lo_128 abcdefgh_3 ijklmnop_3,
     unpack_lo_128 abcdefgh_4 ijklmnop_4,
     unpack_lo_128 abcdefgh_5 ijklmnop_5,
     unpack_lo_128 abcdefgh_6 ijklmnop_6,
     unpack_lo_128 abcdefgh_7 ijklmnop_7,
     unpack_hi_128 abcdefgh_0 ijklmnop_0,
     unpack_hi_128 abcdefgh_1 ijklmnop_1,
     unpack_hi_128 abcdefgh_2 ijklmnop_2,
     unpack_hi_128 abcdefgh_3 ijklmnop_3,
     unpack_hi_128 abcdefgh_4 ijklmnop_4,
     unpack_hi_128 abcdefgh_5 ijklmnop_5,
     unpack_hi_128 abcdefgh_6 ijklmnop_6,
     unpack_hi_128 abcdefgh_7 ijklmnop_7]

/-- baokeshed_avx512.c:982-1001 -/
def transpose_msg_vecs16 (inputs : List Bytes) (block_offset : Nat) : R (Vector M512 16) := do
  let out0 ← loadu_512 (← cIndex inputs 0) block_offset
  let out1 ← loadu_512 (← cIndex inputs 1) block_offset
  let out2 ← loadu_512 (← cIndex inputs 2) block_offset
  let out3 ← loadu_512 (← cIndex inputs 3) block_offset
  let out4 ← loadu_512 (← cIndex inputs 4) block_offset
  let out5 ← loadu_512 (← cIndex inputs 5) block_offset
  let out6 ← loadu_512 (← cIndex inputs 6) block_offset
  let out7 ← loadu_512 (← cIndex inputs 7) block_offset
  let out8 ← loadu_512 (← cIndex inputs 8) block_offset
  let out9 ← loadu_512 (← cIndex inputs 9) block_offset
  let out10 ← loadu_512 (← cIndex inputs 10) block_offset
  let out11 ← loadu_512 (← cIndex inputs 11) block_offset
  let out12 ← loadu_512 (← cIndex inputs 12) block_offset
  let out13 ← loadu_512 (← cIndex inputs 13) block_offset
  let out14 ← loadu_512 (← cIndex inputs 14) block_offset
  let out15 ← loadu_512 (← cIndex inputs 15) block_offset
  let sq0 := transpose_vecs_512 #v[out0, out1, out2, out3, out4, out5, out6, out7, out8, out9, out10, out11, out12, out13, out14, out15]
  return sq0

/-- baokeshed_avx512.c:1003-1015 -/
def load_offsets16 (offset : U64) (deltas : List U64) : R (M512 × M512) := do
  let a := mm512_add_epi64 (mm512_set1_epi64 offset) (← loadU64s 8 deltas 0)
  let b := mm512_add_epi64 (mm512_set1_epi64 offset) (← loadU64s 8 deltas 8)
  let lo_indexes := mm512_setr_epi32 #v[0, 2, 4, 6, 8, 10, 12, 14, 16, 18, 20, 22, 24, 26, 28, 30]
  let hi_indexes := mm512_setr_epi32 #v[1, 3, 5, 7, 9, 11, 13, 15, 17, 19, 21, 23, 25, 27, 29, 31]
  let out_lo := mm512_permutex2var_epi32 a lo_indexes b
  let out_hi := mm512_permutex2var_epi32 a hi_indexes b
  return (out_lo, out_hi)

/-- The loop body of `hash16_avx512` after the message has been loaded, baokeshed_avx512.c:1039-1059 -/
def hash16_avx512_block (h_vecs : Vector M512 8) (offset_low_vec offset_high_vec block_len_vec
    block_flags_vec : M512) (msg_vecs : Vector M512 16) : Vector M512 8 :=
  let v : Vector M512 16 :=
    #v[h_vecs[0], h_vecs[1], h_vecs[2], h_vecs[3], h_vecs[4], h_vecs[5], h_vecs[6], h_vecs[7],
       set1_512 IV[0], set1_512 IV[1], set1_512 IV[2], set1_512 IV[3],
       offset_low_vec, offset_high_vec, block_len_vec, block_flags_vec]
  let v := round_fn16 v msg_vecs 0
  let v := round_fn16 v msg_vecs 1
  let v := round_fn16 v msg_vecs 2
  let v := round_fn16 v msg_vecs 3
  let v := round_fn16 v msg_vecs 4
  let v := round_fn16 v msg_vecs 5
  let v := round_fn16 v msg_vecs 6
  #v[xor_512 v[0] v[8], xor_512 v[1] v[9], xor_512 v[2] v[10], xor_512 v[3] v[11],
     xor_512 v[4] v[12], xor_512 v[5] v[13], xor_512 v[6] v[14], xor_512 v[7] v[15]]

/-- The loop of `hash16_avx512`, baokeshed_avx512.c:1030-1062; `n` iterations remain. -/
def hash16_avx512_loop (inputs : List Bytes) (blocks : Nat) (offset_low_vec offset_high_vec : M512)
    (flags flags_end : Byte) : (n block : Nat) → (h_vecs : Vector M512 8) → (block_flags : Byte) →
    R (Vector M512 8)
  | 0, _, h_vecs, _ => .ok h_vecs
  | n + 1, block, h_vecs, block_flags => do
    let block_flags := if block + 1 = blocks then block_flags ||| flags_end else block_flags
    let block_len_vec := set1_512 (BitVec.ofNat 32 BLOCK_LEN)
    let block_flags_vec := set1_512 (block_flags.setWidth 32)
    let msg_vecs ← transpose_msg_vecs16 inputs (block * BLOCK_LEN)
    let h_vecs := hash16_avx512_block h_vecs offset_low_vec offset_high_vec block_len_vec block_flags_vec msg_vecs
    hash16_avx512_loop inputs blocks offset_low_vec offset_high_vec flags flags_end n (block + 1) h_vecs flags

/-- The end of `hash16_avx512`, baokeshed_avx512.c:1064-1089: `out` is the memory behind the pointer, the result its
new contents. -/
def hash16_avx512_store (h_vecs : Vector M512 8) (out : Bytes) : R Bytes := do
  let padded : Vector M512 16 :=
    #v[h_vecs[0], h_vecs[1], h_vecs[2], h_vecs[3], h_vecs[4], h_vecs[5], h_vecs[6], h_vecs[7],
       set1_512 0, set1_512 0, set1_512 0, set1_512 0, set1_512 0, set1_512 0, set1_512 0, set1_512 0]
  let padded := transpose_vecs_512 padded
  let out ← storeu_256 (mm512_castsi512_si256 padded[0]) out (0 * 32)
  let out ← storeu_256 (mm512_castsi512_si256 padded[1]) out (1 * 32)
  let out ← storeu_256 (mm512_castsi512_si256 padded[2]) out (2 * 32)
  let out ← storeu_256 (mm512_castsi512_si256 padded[3]) out (3 * 32)
  let out ← storeu_256 (mm512_castsi512_si256 padded[4]) out (4 * 32)
  let out ← storeu_256 (mm512_castsi512_si256 padded[5]) out (5 * 32)
  let out ← storeu_256 (mm512_castsi512_si256 padded[6]) out (6 * 32)
  let out ← storeu_256 (mm512_castsi512_si256 padded[7]) out (7 * 32)
  let out ← storeu_256 (mm512_castsi512_si256 padded[8]) out (8 * 32)
  let out ← storeu_256 (mm512_castsi512_si256 padded[9]) out (9 * 32)
  let out ← storeu_256 (mm512_castsi512_si256 padded[10]) out (10 * 32)
  let out ← storeu_256 (mm512_castsi512_si256 padded[11]) out (11 * 32)
  let out ← storeu_256 (mm512_castsi512_si256 padded[12]) out (12 * 32)
  let out ← storeu_256 (mm512_castsi512_si256 padded[13]) out (13 * 32)
  let out ← storeu_256 (mm512_castsi512_si256 padded[14]) out (14 * 32)
  let out ← storeu_256 (mm512_castsi512_si256 padded[15]) out (15 * 32)
  return out

/-- baokeshed_avx512.c:1017-1090 -/
def hash16_avx512 (inputs : List Bytes) (blocks : Nat) (key_words : Vector Word 8) (offset : U64)
    (offset_deltas : List U64) (flags flags_start flags_end : Byte) (out : Bytes) : R Bytes := do
  let h_vecs : Vector M512 8 :=
    #v[set1_512 key_words[0], set1_512 key_words[1], set1_512 key_words[2], set1_512 key_words[3],
       set1_512 key_words[4], set1_512 key_words[5], set1_512 key_words[6], set1_512 key_words[7]]
  let (offset_low_vec, offset_high_vec) ← load_offsets16 offset offset_deltas
  let h_vecs ← hash16_avx512_loop inputs blocks offset_low_vec offset_high_vec flags flags_end blocks 0 h_vecs
    (flags ||| flags_start)
  hash16_avx512_store h_vecs out

/-- The loop of `hash_one_avx512`, baokeshed_avx512.c:1105-1113 -/
def hash_one_avx512_loop (flags flags_end : Byte) (offset : U64) : (blocks : Nat) → (state : Vector Word 8) →
    (input : Bytes) → (block_flags : Byte) → R (Vector Word 8)
  | 0, state, _, _ => .ok state
  | blocks + 1, state, input, block_flags => do
    let block_flags := if blocks + 1 = 1 then block_flags ||| flags_end else block_flags
    let state ← compress_avx512 state input (BitVec.ofNat 8 BLOCK_LEN) offset block_flags
    let input ← cAdvance input BLOCK_LEN
    hash_one_avx512_loop flags flags_end offset blocks state input flags

/-- baokeshed_avx512.c:1098-1115 -/
def hash_one_avx512 (input : Bytes) (blocks : Nat) (key_words : Vector Word 8) (offset : U64)
    (flags flags_start flags_end : Byte) (out : Bytes) : R Bytes := do
  let state ← hash_one_avx512_loop flags flags_end offset blocks key_words input (flags ||| flags_start)
  cStore out 0 (memOfWords state).toList

/-- The last loop of `hash_many_avx512`, baokeshed_avx512.c:1146-1153 -/
def hash_many_avx512_loop1 (blocks : Nat) (key_words : Vector Word 8) (offset_deltas : List U64) (flags flags_start flags_end : Byte) :
    (num_inputs : Nat) → (inputs : List Bytes) → (offset : U64) → (out : Bytes) → R Bytes
  | 0, _, _, out => .ok out
  | num_inputs + 1, inputs, offset, out => do
    let out ← hash_one_avx512 (← cIndex inputs 0) blocks key_words offset flags flags_start flags_end out
    let inputs ← cAdvance inputs 1
    let offset := offset + (← cIndex offset_deltas 1)
    let rest ← cAdvance out OUT_LEN
    let rest ← hash_many_avx512_loop1 blocks key_words offset_deltas flags flags_start flags_end num_inputs inputs offset rest
    return out.take OUT_LEN ++ rest

/-- The loop of `hash_many_avx512` for batches of 4, baokeshed_avx512.c:1138-1145, and what follows it -/
def hash_many_avx512_loop4 (blocks : Nat) (key_words : Vector Word 8) (offset_deltas : List U64) (flags flags_start flags_end : Byte)
    (num_inputs : Nat) (inputs : List Bytes) (offset : U64) (out : Bytes) : R Bytes :=
  if _h : 4 ≤ num_inputs then do
    let out ← hash4_avx512 inputs blocks key_words offset offset_deltas flags flags_start flags_end out
    let inputs ← cAdvance inputs 4
    let offset := offset + (← cIndex offset_deltas 4)
    let rest ← cAdvance out (4 * OUT_LEN)
    let rest ← hash_many_avx512_loop4 blocks key_words offset_deltas flags flags_start flags_end (num_inputs - 4) inputs offset rest
    return out.take (4 * OUT_LEN) ++ rest
  else hash_many_avx512_loop1 blocks key_words offset_deltas flags flags_start flags_end num_inputs inputs offset out
termination_by num_inputs
decreasing_by omega

/-- The loop of `hash_many_avx512` for batches of 8, baokeshed_avx512.c:1130-1137, and what follows it -/
def hash_many_avx512_loop8 (blocks : Nat) (key_words : Vector Word 8) (offset_deltas : List U64) (flags flags_start flags_end : Byte)
    (num_inputs : Nat) (inputs : List Bytes) (offset : U64) (out : Bytes) : R Bytes :=
  if _h : 8 ≤ num_inputs then do
    let out ← hash8_avx512 inputs blocks key_words offset offset_deltas flags flags_start flags_end out
    let inputs ← cAdvance inputs 8
    let offset := offset + (← cIndex offset_deltas 8)
    let rest ← cAdvance out (8 * OUT_LEN)
    let rest ← hash_many_avx512_loop8 blocks key_words offset_deltas flags flags_start flags_end (num_inputs - 8) inputs offset rest
    return out.take (8 * OUT_LEN) ++ rest
  else hash_many_avx512_loop4 blocks key_words offset_deltas flags flags_start flags_end num_inputs inputs offset out
termination_by num_inputs
decreasing_by omega

/-- The loop of `hash_many_avx512` for batches of 16, baokeshed_avx512.c:1122-1129, and what follows it -/
def hash_many_avx512_loop16 (blocks : Nat) (key_words : Vector Word 8) (offset_deltas : List U64) (flags flags_start flags_end : Byte)
    (num_inputs : Nat) (inputs : List Bytes) (offset : U64) (out : Bytes) : R Bytes :=
  if _h : 16 ≤ num_inputs then do
    let out ← hash16_avx512 inputs blocks key_words offset offset_deltas flags flags_start flags_end out
    let inputs ← cAdvance inputs 16
    let offset := offset + (← cIndex offset_deltas 16)
    let rest ← cAdvance out (16 * OUT_LEN)
    let rest ← hash_many_avx512_loop16 blocks key_words offset_deltas flags flags_start flags_end (num_inputs - 16) inputs offset rest
    return out.take (16 * OUT_LEN) ++ rest
  else hash_many_avx512_loop8 blocks key_words offset_deltas flags flags_start flags_end num_inputs inputs offset out
termination_by num_inputs
decreasing_by omega

/-- baokeshed_avx512.c:1117-1154 -/
def hash_many_avx512 (inputs : List Bytes) (num_inputs blocks : Nat) (key_words : Vector Word 8) (offset : U64)
    (offset_deltas : List U64) (flags flags_start flags_end : Byte) (out : Bytes) : R Bytes :=
  hash_many_avx512_loop16 blocks key_words offset_deltas flags flags_start flags_end num_inputs inputs offset out

end Baokeshed.Model.C.Avx512
