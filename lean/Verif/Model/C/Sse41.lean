import Verif.Model.C.Impl

/-!
# Model of /repo/c/baokeshed_sse41.c

Line by line; see `Verif.Model.C.Impl` for the conventions.
-/

namespace Baokeshed.Model.C.Sse41
open Baokeshed.Model

/-- the four row variables of `compress_sse41` -/
abbrev Rows := Model.Sse41.Rows

/-- baokeshed_sse41.c:5 -/
abbrev DEGREE : Nat := 4

/-- baokeshed_sse41.c:7-9 -/
def loadu (src : Bytes) (off : Nat) : R M128 := mm_loadu_si128 src off

/-- baokeshed_sse41.c:11-13 -/
def storeu (src : M128) (dest : Bytes) (off : Nat) : R Bytes := cStore dest off (regBytes 16 src)

/-- baokeshed_sse41.c:15 -/
def addv (a b : M128) : M128 := mm_add_epi32 a b

/-- baokeshed_sse41.c:18 -/
def xorv (a b : M128) : M128 := mm_xor_si128 a b

/-- baokeshed_sse41.c:20 -/
def set1 (x : Word) : M128 := mm_set1_epi32 x

/-- baokeshed_sse41.c:22-24 -/
def set4 (a b c d : Word) : M128 := mm_setr_epi32 a b c d

/-- baokeshed_sse41.c:26-29 -/
def rot16 (x : M128) : M128 := 
  mm_shuffle_epi8 x (mm_set_epi8 #v[13, 12, 15, 14, 9, 8, 11, 10, 5, 4, 7, 6, 1, 0, 3, 2])

/-- baokeshed_sse41.c:31-33 -/
def rot12 (x : M128) : M128 := xorv (mm_srli_epi32 x 12) (mm_slli_epi32 x (32 - 12))

/-- baokeshed_sse41.c:35-38 -/
def rot8 (x : M128) : M128 := 
  mm_shuffle_epi8 x (mm_set_epi8 #v[12, 15, 14, 13, 8, 11, 10, 9, 4, 7, 6, 5, 0, 3, 2, 1])

/-- baokeshed_sse41.c:40-42 -/
def rot7 (x : M128) : M128 := xorv (mm_srli_epi32 x 7) (mm_slli_epi32 x (32 - 7))

/-- baokeshed_sse41.c:44-52 -/
def g1 : Rows → M128 → Rows
  | ⟨row1, row2, row3, row4⟩, m =>
    let row1 := addv (addv row1 m) row2
    let row4 := xorv row4 row1
    let row4 := rot16 row4
    let row3 := addv row3 row4
    let row2 := xorv row2 row3
    let row2 := rot12 row2
    ⟨row1, row2, row3, row4⟩

/-- baokeshed_sse41.c:54-62 -/
def g2 : Rows → M128 → Rows
  | ⟨row1, row2, row3, row4⟩, m =>
    let row1 := addv (addv row1 m) row2
    let row4 := xorv row4 row1
    let row4 := rot8 row4
    let row3 := addv row3 row4
    let row2 := xorv row2 row3
    let row2 := rot7 row2
    ⟨row1, row2, row3, row4⟩

/-- baokeshed_sse41.c:67-71 -/
def diagonalize : Rows → Rows
  | ⟨row1, row2, row3, row4⟩ =>
    let row1 := mm_shuffle_epi32 row1 (MM_SHUFFLE 2 1 0 3)
    let row4 := mm_shuffle_epi32 row4 (MM_SHUFFLE 1 0 3 2)
    let row3 := mm_shuffle_epi32 row3 (MM_SHUFFLE 0 3 2 1)
    ⟨row1, row2, row3, row4⟩

/-- baokeshed_sse41.c:73-77 -/
def undiagonalize : Rows → Rows
  | ⟨row1, row2, row3, row4⟩ =>
    let row1 := mm_shuffle_epi32 row1 (MM_SHUFFLE 0 3 2 1)
    let row4 := mm_shuffle_epi32 row4 (MM_SHUFFLE 1 0 3 2)
    let row3 := mm_shuffle_epi32 row3 (MM_SHUFFLE 2 1 0 3)
    ⟨row1, row2, row3, row4⟩

/-- `compress_sse41`, round 1: baokeshed_sse41.c:95-109 -/
def compress_round1 (m0 m1 m2 m3 : M128) (rows : Rows) : Rows :=
  let buf := mm_shuffle_ps m0 m1 (MM_SHUFFLE 2 0 2 0)
  let rows := g1 rows buf
  let buf := mm_shuffle_ps m0 m1 (MM_SHUFFLE 3 1 3 1)
  let rows := g2 rows buf
  let rows := diagonalize rows
  let t0 := mm_shuffle_epi32 m2 (MM_SHUFFLE 3 2 0 1)
  let t1 := mm_shuffle_epi32 m3 (MM_SHUFFLE 0 1 3 2)
  let buf := mm_blend_epi16 t0 t1 0xC3
  let rows := g1 rows buf
  let t0 := mm_blend_epi16 t0 t1 0x3C
  let buf := mm_shuffle_epi32 t0 (MM_SHUFFLE 2 3 0 1)
  let rows := g2 rows buf
  undiagonalize rows

/-- `compress_sse41`, round 2: baokeshed_sse41.c:112-133 -/
def compress_round2 (m0 m1 m2 m3 : M128) (rows : Rows) : Rows :=
  let t0 := mm_blend_epi16 m1 m2 0x0C
  let t1 := mm_slli_si128 m3 4
  let t2 := mm_blend_epi16 t0 t1 0xF0
  let buf := mm_shuffle_epi32 t2 (MM_SHUFFLE 2 1 0 3)
  let rows := g1 rows buf
  let t0 := mm_shuffle_epi32 m2 (MM_SHUFFLE 0 0 2 0)
  let t1 := mm_blend_epi16 m1 m3 0xC0
  let t2 := mm_blend_epi16 t0 t1 0xF0
  let buf := mm_shuffle_epi32 t2 (MM_SHUFFLE 2 3 0 1)
  let rows := g2 rows buf
  let rows := diagonalize rows
  let t0 := mm_slli_si128 m1 4
  let t1 := mm_blend_epi16 m2 t0 0x30
  let t2 := mm_blend_epi16 m0 t1 0xF0
  let buf := mm_shuffle_epi32 t2 (MM_SHUFFLE 3 0 1 2)
  let rows := g1 rows buf
  let t0 := mm_unpackhi_epi32 m0 m1
  let t1 := mm_slli_si128 m3 4
  let t2 := mm_blend_epi16 t0 t1 0x0C
  let buf := mm_shuffle_epi32 t2 (MM_SHUFFLE 3 0 1 2)
  let rows := g2 rows buf
  undiagonalize rows

/-- `compress_sse41`, round 3: baokeshed_sse41.c:136-157 -/
def compress_round3 (m0 m1 m2 m3 : M128) (rows : Rows) : Rows :=
  let t0 := mm_unpackhi_epi32 m2 m3
  let t1 := mm_blend_epi16 m3 m1 0x0C
  let t2 := mm_blend_epi16 t0 t1 0x0F
  let buf := mm_shuffle_epi32 t2 (MM_SHUFFLE 3 1 0 2)
  let rows := g1 rows buf
  let t0 := mm_unpacklo_epi32 m2 m0
  let t1 := mm_blend_epi16 t0 m0 0xF0
  let t2 := mm_slli_si128 m3 8
  let buf := mm_blend_epi16 t1 t2 0xC0
  let rows := g2 rows buf
  let rows := diagonalize rows
  let t0 := mm_blend_epi16 m0 m2 0x3C
  let t1 := mm_srli_si128 m1 12
  let t2 := mm_blend_epi16 t0 t1 0x03
  let buf := mm_shuffle_epi32 t2 (MM_SHUFFLE 0 3 2 1)
  let rows := g1 rows buf
  let t0 := mm_slli_si128 m3 4
  let t1 := mm_blend_epi16 m0 m1 0x33
  let t2 := mm_blend_epi16 t1 t0 0xC0
  let buf := mm_shuffle_epi32 t2 (MM_SHUFFLE 1 2 3 0)
  let rows := g2 rows buf
  undiagonalize rows

/-- `compress_sse41`, round 4: baokeshed_sse41.c:160-178 -/
def compress_round4 (m0 m1 m2 m3 : M128) (rows : Rows) : Rows :=
  let t0 := mm_unpackhi_epi32 m0 m1
  let t1 := mm_unpackhi_epi32 t0 m2
  let t2 := mm_blend_epi16 t1 m3 0x0C
  let buf := mm_shuffle_epi32 t2 (MM_SHUFFLE 3 1 0 2)
  let rows := g1 rows buf
  let t0 := mm_slli_si128 m2 8
  let t1 := mm_blend_epi16 m3 m0 0x0C
  let t2 := mm_blend_epi16 t1 t0 0xC0
  let buf := mm_shuffle_epi32 t2 (MM_SHUFFLE 2 0 1 3)
  let rows := g2 rows buf
  let rows := diagonalize rows
  let t0 := mm_blend_epi16 m0 m1 0x0F
  let t1 := mm_blend_epi16 t0 m3 0xC0
  let buf := mm_shuffle_epi32 t1 (MM_SHUFFLE 0 1 2 3)
  let rows := g1 rows buf
  let t0 := mm_alignr_epi8 m0 m1 4
  let buf := mm_blend_epi16 t0 m2 0x33
  let rows := g2 rows buf
  undiagonalize rows

/-- `compress_sse41`, round 5: baokeshed_sse41.c:181-201 -/
def compress_round5 (m0 m1 m2 m3 : M128) (rows : Rows) : Rows :=
  let t0 := mm_unpacklo_epi64 m1 m2
  let t1 := mm_unpackhi_epi64 m0 m2
  let t2 := mm_blend_epi16 t0 t1 0x33
  let buf := mm_shuffle_epi32 t2 (MM_SHUFFLE 2 0 1 3)
  let rows := g1 rows buf
  let t0 := mm_unpackhi_epi64 m1 m3
  let t1 := mm_unpacklo_epi64 m0 m1
  let buf := mm_blend_epi16 t0 t1 0x33
  let rows := g2 rows buf
  let rows := diagonalize rows
  let t0 := mm_unpackhi_epi64 m3 m1
  let t1 := mm_unpackhi_epi64 m2 m0
  let t2 := mm_blend_epi16 t1 t0 0x33
  let buf := mm_shuffle_epi32 t2 (MM_SHUFFLE 2 1 0 3)
  let rows := g1 rows buf
  let t0 := mm_blend_epi16 m0 m2 0x03
  let t1 := mm_slli_si128 t0 8
  let t2 := mm_blend_epi16 t1 m3 0x0F
  let buf := mm_shuffle_epi32 t2 (MM_SHUFFLE 2 0 3 1)
  let rows := g2 rows buf
  undiagonalize rows

/-- `compress_sse41`, round 6: baokeshed_sse41.c:204-223 -/
def compress_round6 (m0 m1 m2 m3 : M128) (rows : Rows) : Rows :=
  let t0 := mm_unpackhi_epi32 m0 m1
  let t1 := mm_unpacklo_epi32 m0 m2
  let buf := mm_unpacklo_epi64 t0 t1
  let rows := g1 rows buf
  let t0 := mm_srli_si128 m2 4
  let t1 := mm_blend_epi16 m0 m3 0x03
  let buf := mm_blend_epi16 t1 t0 0x3C
  let rows := g2 rows buf
  let rows := diagonalize rows
  let t0 := mm_blend_epi16 m1 m0 0x0C
  let t1 := mm_srli_si128 m3 4
  let t2 := mm_blend_epi16 t0 t1 0x30
  let buf := mm_shuffle_epi32 t2 (MM_SHUFFLE 2 3 0 1)
  let rows := g1 rows buf
  let t0 := mm_unpacklo_epi64 m2 m1
  let t1 := mm_shuffle_epi32 m3 (MM_SHUFFLE 2 0 1 0)
  let t2 := mm_srli_si128 t0 4
  let buf := mm_blend_epi16 t1 t2 0x33
  let rows := g2 rows buf
  undiagonalize rows

/-- `compress_sse41`, round 7: baokeshed_sse41.c:226-245 -/
def compress_round7 (m0 m1 m2 m3 : M128) (rows : Rows) : Rows :=
  let t0 := mm_slli_si128 m1 12
  let t1 := mm_blend_epi16 m0 m3 0x33
  let buf := mm_blend_epi16 t1 t0 0xC0
  let rows := g1 rows buf
  let t0 := mm_blend_epi16 m3 m2 0x30
  let t1 := mm_srli_si128 m1 4
  let t2 := mm_blend_epi16 t0 t1 0x03
  let buf := mm_shuffle_epi32 t2 (MM_SHUFFLE 2 1 3 0)
  let rows := g2 rows buf
  let rows := diagonalize rows
  let t0 := mm_unpacklo_epi64 m0 m2
  let t1 := mm_srli_si128 m1 4
  let buf := mm_shuffle_epi32 (mm_blend_epi16 t0 t1 0x0C) (MM_SHUFFLE 3 1 0 2)
  let rows := g1 rows buf
  let t0 := mm_unpackhi_epi32 m1 m2
  let t1 := mm_unpackhi_epi64 m0 t0
  let buf := mm_shuffle_epi32 t1 (MM_SHUFFLE 0 1 2 3)
  let rows := g2 rows buf
  undiagonalize rows

/-- the two stores at the end of `compress_sse41`, baokeshed_sse41.c:247-248: the new contents of `state` -/
def store_state (lo hi : M128) : Vector Word 8 :=
  wordsOfMem ⟨(regBytes 16 lo ++ regBytes 16 hi).toArray, by simp [length_regBytes]⟩

/-- baokeshed_sse41.c:79-249.  `state` is read and written as 32 bytes of memory. -/
def compress_sse41 (state : Vector Word 8) (block : Bytes) (block_len : Byte) (offset : U64) (flags : Byte) :
    R (Vector Word 8) := do
  let row1 := loadArr (memOfWords state) 0
  let row2 := loadArr (memOfWords state) 16
  let row3 := set4 IV[0] IV[1] IV[2] IV[3]
  let row4 := set4 (offset_low offset) (offset_high offset) (block_len.setWidth 32) (flags.setWidth 32)
  let m0 ← loadu block (16 * 0)
  let m1 ← loadu block (16 * 1)
  let m2 ← loadu block (16 * 2)
  let m3 ← loadu block (16 * 3)
  let rows := compress_round1 m0 m1 m2 m3 ⟨row1, row2, row3, row4⟩
  let rows := compress_round2 m0 m1 m2 m3 rows
  let rows := compress_round3 m0 m1 m2 m3 rows
  let rows := compress_round4 m0 m1 m2 m3 rows
  let rows := compress_round5 m0 m1 m2 m3 rows
  let rows := compress_round6 m0 m1 m2 m3 rows
  let rows := compress_round7 m0 m1 m2 m3 rows
  return store_state (xorv rows.row1 rows.row3) (xorv rows.row2 rows.row4)

/-- baokeshed_sse41.c:251-365; the elements `v[i]` of the state array are the variables `vi` -/
def round_fn (v m : Vector M128 16) (r : Fin 7) : Vector M128 16 :=
  let v0 : M128 := v.get 0
  let v1 : M128 := v.get 1
  let v2 : M128 := v.get 2
  let v3 : M128 := v.get 3
  let v4 : M128 := v.get 4
  let v5 : M128 := v.get 5
  let v6 : M128 := v.get 6
  let v7 : M128 := v.get 7
  let v8 : M128 := v.get 8
  let v9 : M128 := v.get 9
  let v10 : M128 := v.get 10
  let v11 : M128 := v.get 11
  let v12 : M128 := v.get 12
  let v13 : M128 := v.get 13
  let v14 : M128 := v.get 14
  let v15 : M128 := v.get 15
  let v0 : M128 := addv v0 (m.get ((MSG_SCHEDULE.get r).get 0))
  let v1 : M128 := addv v1 (m.get ((MSG_SCHEDULE.get r).get 2))
  let v2 : M128 := addv v2 (m.get ((MSG_SCHEDULE.get r).get 4))
  let v3 : M128 := addv v3 (m.get ((MSG_SCHEDULE.get r).get 6))
  let v0 : M128 := addv v0 v4
  let v1 : M128 := addv v1 v5
  let v2 : M128 := addv v2 v6
  let v3 : M128 := addv v3 v7
  let v12 : M128 := xorv v12 v0
  let v13 : M128 := xorv v13 v1
  let v14 : M128 := xorv v14 v2
  let v15 : M128 := xorv v15 v3
  let v12 : M128 := rot16 v12
  let v13 : M128 := rot16 v13
  let v14 : M128 := rot16 v14
  let v15 : M128 := rot16 v15
  let v8 : M128 := addv v8 v12
  let v9 : M128 := addv v9 v13
  let v10 : M128 := addv v10 v14
  let v11 : M128 := addv v11 v15
  let v4 : M128 := xorv v4 v8
  let v5 : M128 := xorv v5 v9
  let v6 : M128 := xorv v6 v10
  let v7 : M128 := xorv v7 v11
  let v4 : M128 := rot12 v4
  let v5 : M128 := rot12 v5
  let v6 : M128 := rot12 v6
  let v7 : M128 := rot12 v7
  let v0 : M128 := addv v0 (m.get ((MSG_SCHEDULE.get r).get 1))
  let v1 : M128 := addv v1 (m.get ((MSG_SCHEDULE.get r).get 3))
  let v2 : M128 := addv v2 (m.get ((MSG_SCHEDULE.get r).get 5))
  let v3 : M128 := addv v3 (m.get ((MSG_SCHEDULE.get r).get 7))
  let v0 : M128 := addv v0 v4
  let v1 : M128 := addv v1 v5
  let v2 : M128 := addv v2 v6
  let v3 : M128 := addv v3 v7
  let v12 : M128 := xorv v12 v0
  let v13 : M128 := xorv v13 v1
  let v14 : M128 := xorv v14 v2
  let v15 : M128 := xorv v15 v3
  let v12 : M128 := rot8 v12
  let v13 : M128 := rot8 v13
  let v14 : M128 := rot8 v14
  let v15 : M128 := rot8 v15
  let v8 : M128 := addv v8 v12
  let v9 : M128 := addv v9 v13
  let v10 : M128 := addv v10 v14
  let v11 : M128 := addv v11 v15
  let v4 : M128 := xorv v4 v8
  let v5 : M128 := xorv v5 v9
  let v6 : M128 := xorv v6 v10
  let v7 : M128 := xorv v7 v11
  let v4 : M128 := rot7 v4
  let v5 : M128 := rot7 v5
  let v6 : M128 := rot7 v6
  let v7 : M128 := rot7 v7
  let v0 : M128 := addv v0 (m.get ((MSG_SCHEDULE.get r).get 8))
  let v1 : M128 := addv v1 (m.get ((MSG_SCHEDULE.get r).get 10))
  let v2 : M128 := addv v2 (m.get ((MSG_SCHEDULE.get r).get 12))
  let v3 : M128 := addv v3 (m.get ((MSG_SCHEDULE.get r).get 14))
  let v0 : M128 := addv v0 v5
  let v1 : M128 := addv v1 v6
  let v2 : M128 := addv v2 v7
  let v3 : M128 := addv v3 v4
  let v15 : M128 := xorv v15 v0
  let v12 : M128 := xorv v12 v1
  let v13 : M128 := xorv v13 v2
  let v14 : M128 := xorv v14 v3
  let v15 : M128 := rot16 v15
  let v12 : M128 := rot16 v12
  let v13 : M128 := rot16 v13
  let v14 : M128 := rot16 v14
  let v10 : M128 := addv v10 v15
  let v11 : M128 := addv v11 v12
  let v8 : M128 := addv v8 v13
  let v9 : M128 := addv v9 v14
  let v5 : M128 := xorv v5 v10
  let v6 : M128 := xorv v6 v11
  let v7 : M128 := xorv v7 v8
  let v4 : M128 := xorv v4 v9
  let v5 : M128 := rot12 v5
  let v6 : M128 := rot12 v6
  let v7 : M128 := rot12 v7
  let v4 : M128 := rot12 v4
  let v0 : M128 := addv v0 (m.get ((MSG_SCHEDULE.get r).get 9))
  let v1 : M128 := addv v1 (m.get ((MSG_SCHEDULE.get r).get 11))
  let v2 : M128 := addv v2 (m.get ((MSG_SCHEDULE.get r).get 13))
  let v3 : M128 := addv v3 (m.get ((MSG_SCHEDULE.get r).get 15))
  let v0 : M128 := addv v0 v5
  let v1 : M128 := addv v1 v6
  let v2 : M128 := addv v2 v7
  let v3 : M128 := addv v3 v4
  let v15 : M128 := xorv v15 v0
  let v12 : M128 := xorv v12 v1
  let v13 : M128 := xorv v13 v2
  let v14 : M128 := xorv v14 v3
  let v15 : M128 := rot8 v15
  let v12 : M128 := rot8 v12
  let v13 : M128 := rot8 v13
  let v14 : M128 := rot8 v14
  let v10 : M128 := addv v10 v15
  let v11 : M128 := addv v11 v12
  let v8 : M128 := addv v8 v13
  let v9 : M128 := addv v9 v14
  let v5 : M128 := xorv v5 v10
  let v6 : M128 := xorv v6 v11
  let v7 : M128 := xorv v7 v8
  let v4 : M128 := xorv v4 v9
  let v5 : M128 := rot7 v5
  let v6 : M128 := rot7 v6
  let v7 : M128 := rot7 v7
  let v4 : M128 := rot7 v4
  #v[v0, v1, v2, v3, v4, v5, v6, v7, v8, v9, v10, v11, v12, v13, v14, v15]

/-- baokeshed_sse41.c:367-386 -/
def transpose_vecs (vecs : Vector M128 4) : Vector M128 4 :=
  let ab_01 := mm_unpacklo_epi32 vecs[0] vecs[1]
  let ab_23 := mm_unpackhi_epi32 vecs[0] vecs[1]
  let cd_01 := mm_unpacklo_epi32 vecs[2] vecs[3]
  let cd_23 := mm_unpackhi_epi32 vecs[2] vecs[3]
  let abcd_0 := mm_unpacklo_epi64 ab_01 cd_01
  let abcd_1 := mm_unpackhi_epi64 ab_01 cd_01
  let abcd_2 := mm_unpacklo_epi64 ab_23 cd_23
  let abcd_3 := mm_unpackhi_epi64 ab_23 cd_23
  #v[abcd_0,
     abcd_1,
     abcd_2,
     abcd_3]

/-- baokeshed_sse41.c:388-410 -/
def transpose_msg_vecs (inputs : List Bytes) (block_offset : Nat) : R (Vector M128 16) := do
  let out0 ← loadu (← cIndex inputs 0) (block_offset + 0 * 16)
  let out1 ← loadu (← cIndex inputs 1) (block_offset + 0 * 16)
  let out2 ← loadu (← cIndex inputs 2) (block_offset + 0 * 16)
  let out3 ← loadu (← cIndex inputs 3) (block_offset + 0 * 16)
  let out4 ← loadu (← cIndex inputs 0) (block_offset + 1 * 16)
  let out5 ← loadu (← cIndex inputs 1) (block_offset + 1 * 16)
  let out6 ← loadu (← cIndex inputs 2) (block_offset + 1 * 16)
  let out7 ← loadu (← cIndex inputs 3) (block_offset + 1 * 16)
  let out8 ← loadu (← cIndex inputs 0) (block_offset + 2 * 16)
  let out9 ← loadu (← cIndex inputs 1) (block_offset + 2 * 16)
  let out10 ← loadu (← cIndex inputs 2) (block_offset + 2 * 16)
  let out11 ← loadu (← cIndex inputs 3) (block_offset + 2 * 16)
  let out12 ← loadu (← cIndex inputs 0) (block_offset + 3 * 16)
  let out13 ← loadu (← cIndex inputs 1) (block_offset + 3 * 16)
  let out14 ← loadu (← cIndex inputs 2) (block_offset + 3 * 16)
  let out15 ← loadu (← cIndex inputs 3) (block_offset + 3 * 16)
  let sq0 := transpose_vecs #v[out0, out1, out2, out3]
  let sq1 := transpose_vecs #v[out4, out5, out6, out7]
  let sq2 := transpose_vecs #v[out8, out9, out10, out11]
  let sq3 := transpose_vecs #v[out12, out13, out14, out15]
  return sq0 ++ sq1 ++ sq2 ++ sq3

/-- baokeshed_sse41.c:412-422.  The additions wrap. -/
def load_offsets (offset : U64) (offset_deltas : List U64) : R (M128 × M128) := do
  let d0 ← cIndex offset_deltas 0
  let d1 ← cIndex offset_deltas 1
  let d2 ← cIndex offset_deltas 2
  let d3 ← cIndex offset_deltas 3
  let out_low := set4 (offset_low (offset + d0)) (offset_low (offset + d1)) (offset_low (offset + d2)) (offset_low (offset + d3))
  let out_high := set4 (offset_high (offset + d0)) (offset_high (offset + d1)) (offset_high (offset + d2)) (offset_high (offset + d3))
  return (out_low, out_high)

/-- The loop body of `hash4_sse41` after the message has been loaded, baokeshed_sse41.c:446-466 -/
def hash4_sse41_block (h_vecs : Vector M128 8) (offset_low_vec offset_high_vec block_len_vec
    block_flags_vec : M128) (msg_vecs : Vector M128 16) : Vector M128 8 :=
  let v : Vector M128 16 :=
    #v[h_vecs[0], h_vecs[1], h_vecs[2], h_vecs[3], h_vecs[4], h_vecs[5], h_vecs[6], h_vecs[7],
       set1 IV[0], set1 IV[1], set1 IV[2], set1 IV[3],
       offset_low_vec, offset_high_vec, block_len_vec, block_flags_vec]
  let v := round_fn v msg_vecs 0
  let v := round_fn v msg_vecs 1
  let v := round_fn v msg_vecs 2
  let v := round_fn v msg_vecs 3
  let v := round_fn v msg_vecs 4
  let v := round_fn v msg_vecs 5
  let v := round_fn v msg_vecs 6
  #v[xorv v[0] v[8], xorv v[1] v[9], xorv v[2] v[10], xorv v[3] v[11],
     xorv v[4] v[12], xorv v[5] v[13], xorv v[6] v[14], xorv v[7] v[15]]

/-- The loop of `hash4_sse41`, baokeshed_sse41.c:437-469; `n` iterations remain. -/
def hash4_sse41_loop (inputs : List Bytes) (blocks : Nat) (offset_low_vec offset_high_vec : M128)
    (flags flags_end : Byte) : (n block : Nat) → (h_vecs : Vector M128 8) → (block_flags : Byte) →
    R (Vector M128 8)
  | 0, _, h_vecs, _ => .ok h_vecs
  | n + 1, block, h_vecs, block_flags => do
    let block_flags := if block + 1 = blocks then block_flags ||| flags_end else block_flags
    let block_len_vec := set1 (BitVec.ofNat 32 BLOCK_LEN)
    let block_flags_vec := set1 (block_flags.setWidth 32)
    let msg_vecs ← transpose_msg_vecs inputs (block * BLOCK_LEN)
    let h_vecs := hash4_sse41_block h_vecs offset_low_vec offset_high_vec block_len_vec block_flags_vec msg_vecs
    hash4_sse41_loop inputs blocks offset_low_vec offset_high_vec flags flags_end n (block + 1) h_vecs flags

/-- The end of `hash4_sse41`, baokeshed_sse41.c:471-482: `out` is the memory behind the pointer, the result its
new contents. -/
def hash4_sse41_store (h_vecs : Vector M128 8) (out : Bytes) : R Bytes := do
  let sq0 := transpose_vecs #v[h_vecs[0], h_vecs[1], h_vecs[2], h_vecs[3]]
  let sq1 := transpose_vecs #v[h_vecs[4], h_vecs[5], h_vecs[6], h_vecs[7]]
  let out ← storeu sq0[0] out (0 * 16)
  let out ← storeu sq1[0] out (1 * 16)
  let out ← storeu sq0[1] out (2 * 16)
  let out ← storeu sq1[1] out (3 * 16)
  let out ← storeu sq0[2] out (4 * 16)
  let out ← storeu sq1[2] out (5 * 16)
  let out ← storeu sq0[3] out (6 * 16)
  let out ← storeu sq1[3] out (7 * 16)
  return out

/-- baokeshed_sse41.c:424-483 -/
def hash4_sse41 (inputs : List Bytes) (blocks : Nat) (key_words : Vector Word 8) (offset : U64)
    (offset_deltas : List U64) (flags flags_start flags_end : Byte) (out : Bytes) : R Bytes := do
  let h_vecs : Vector M128 8 :=
    #v[set1 key_words[0], set1 key_words[1], set1 key_words[2], set1 key_words[3],
       set1 key_words[4], set1 key_words[5], set1 key_words[6], set1 key_words[7]]
  let (offset_low_vec, offset_high_vec) ← load_offsets offset offset_deltas
  let h_vecs ← hash4_sse41_loop inputs blocks offset_low_vec offset_high_vec flags flags_end blocks 0 h_vecs
    (flags ||| flags_start)
  hash4_sse41_store h_vecs out

/-- The loop of `hash_one_sse41`, baokeshed_sse41.c:492-500 -/
def hash_one_sse41_loop (flags flags_end : Byte) (offset : U64) : (blocks : Nat) → (state : Vector Word 8) →
    (input : Bytes) → (block_flags : Byte) → R (Vector Word 8)
  | 0, state, _, _ => .ok state
  | blocks + 1, state, input, block_flags => do
    let block_flags := if blocks + 1 = 1 then block_flags ||| flags_end else block_flags
    let state ← compress_sse41 state input (BitVec.ofNat 8 BLOCK_LEN) offset block_flags
    let input ← cAdvance input BLOCK_LEN
    hash_one_sse41_loop flags flags_end offset blocks state input flags

/-- baokeshed_sse41.c:485-502 -/
def hash_one_sse41 (input : Bytes) (blocks : Nat) (key_words : Vector Word 8) (offset : U64)
    (flags flags_start flags_end : Byte) (out : Bytes) : R Bytes := do
  let state ← hash_one_sse41_loop flags flags_end offset blocks key_words input (flags ||| flags_start)
  cStore out 0 (memOfWords state).toList

/-- The last loop of `hash_many_sse41`, baokeshed_sse41.c:517-524 -/
def hash_many_sse41_loop1 (blocks : Nat) (key_words : Vector Word 8) (offset_deltas : List U64) (flags flags_start flags_end : Byte) :
    (num_inputs : Nat) → (inputs : List Bytes) → (offset : U64) → (out : Bytes) → R Bytes
  | 0, _, _, out => .ok out
  | num_inputs + 1, inputs, offset, out => do
    let out ← hash_one_sse41 (← cIndex inputs 0) blocks key_words offset flags flags_start flags_end out
    let inputs ← cAdvance inputs 1
    let offset := offset + (← cIndex offset_deltas 1)
    let rest ← cAdvance out OUT_LEN
    let rest ← hash_many_sse41_loop1 blocks key_words offset_deltas flags flags_start flags_end num_inputs inputs offset rest
    return out.take OUT_LEN ++ rest

/-- The loop of `hash_many_sse41` for batches of 4, baokeshed_sse41.c:509-516, and what follows it -/
def hash_many_sse41_loop4 (blocks : Nat) (key_words : Vector Word 8) (offset_deltas : List U64) (flags flags_start flags_end : Byte)
    (num_inputs : Nat) (inputs : List Bytes) (offset : U64) (out : Bytes) : R Bytes :=
  if _h : 4 ≤ num_inputs then do
    let out ← hash4_sse41 inputs blocks key_words offset offset_deltas flags flags_start flags_end out
    let inputs ← cAdvance inputs 4
    let offset := offset + (← cIndex offset_deltas 4)
    let rest ← cAdvance out (4 * OUT_LEN)
    let rest ← hash_many_sse41_loop4 blocks key_words offset_deltas flags flags_start flags_end (num_inputs - 4) inputs offset rest
    return out.take (4 * OUT_LEN) ++ rest
  else hash_many_sse41_loop1 blocks key_words offset_deltas flags flags_start flags_end num_inputs inputs offset out
termination_by num_inputs
decreasing_by omega

/-- baokeshed_sse41.c:504-525 -/
def hash_many_sse41 (inputs : List Bytes) (num_inputs blocks : Nat) (key_words : Vector Word 8) (offset : U64)
    (offset_deltas : List U64) (flags flags_start flags_end : Byte) (out : Bytes) : R Bytes :=
  hash_many_sse41_loop4 blocks key_words offset_deltas flags flags_start flags_end num_inputs inputs offset out

end Baokeshed.Model.C.Sse41
