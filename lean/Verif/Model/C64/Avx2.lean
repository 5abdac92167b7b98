import Verif.Model.C64.Sse41

/-!
# Model of /repo/c64/baokeshed64_avx2.c

Line by line; see `Verif.Model.C.Impl` for the conventions.
-/

namespace Baokeshed.Model.C64.Avx2
open Baokeshed.Model
open Baokeshed.Model.C (cIndex cAdvance cStore)

/-- baokeshed64_avx2.c:5 -/
abbrev DEGREE : Nat := 4

/-- baokeshed64_avx2.c:7-9 -/
def loadu (src : Bytes) (off : Nat) : R M256 := mm256_loadu_si256 src off

/-- baokeshed64_avx2.c:11-13 -/
def storeu (src : M256) (dest : Bytes) (off : Nat) : R Bytes := cStore dest off (regBytes 32 src)

/-- baokeshed64_avx2.c:15 -/
def addv (a b : M256) : M256 := mm256_add_epi64 a b

/-- baokeshed64_avx2.c:18 -/
def xorv (a b : M256) : M256 := mm256_xor_si256 a b

/-- baokeshed64_avx2.c:20 -/
def set1 (x : U64) : M256 := mm256_set1_epi64x x

/-- baokeshed64_avx2.c:22-24 -/
def set4 (a b c d : U64) : M256 := mm256_setr_epi64x a b c d

/-- baokeshed64_avx2.c:26-28 -/
def rot32 (x : M256) : M256 := mm256_shuffle_epi32 x (MM_SHUFFLE 2 3 0 1)

/-- baokeshed64_avx2.c:30-35 -/
def rot24 (x : M256) : M256 :=
  mm256_shuffle_epi8 x (mm256_setr_epi8 #v[3, 4, 5, 6, 7, 0, 1, 2, 11, 12, 13, 14, 15, 8, 9, 10,
    3, 4, 5, 6, 7, 0, 1, 2, 11, 12, 13, 14, 15, 8, 9, 10])

/-- baokeshed64_avx2.c:37-42 -/
def rot16 (x : M256) : M256 :=
  mm256_shuffle_epi8 x (mm256_setr_epi8 #v[2, 3, 4, 5, 6, 7, 0, 1, 10, 11, 12, 13, 14, 15, 8, 9,
    2, 3, 4, 5, 6, 7, 0, 1, 10, 11, 12, 13, 14, 15, 8, 9])

/-- baokeshed64_avx2.c:44-46 -/
def rot63 (x : M256) : M256 := mm256_or_si256 (mm256_srli_epi64 x 63) (mm256_add_epi64 x x)

/-- the four row variables of `compress_avx2` -/
structure Rows where
  (a b c d : M256)

/-- baokeshed64_avx2.c:48-56 -/
def g1 : Rows → M256 → Rows
  | ⟨a, b, c, d⟩, m =>
    let a := addv a m
    let a := addv a b
    let d := xorv d a
    let d := rot32 d
    let c := addv c d
    let b := xorv b c
    let b := rot24 b
    ⟨a, b, c, d⟩

/-- baokeshed64_avx2.c:58-66 -/
def g2 : Rows → M256 → Rows
  | ⟨a, b, c, d⟩, m =>
    let a := addv a m
    let a := addv a b
    let d := xorv d a
    let d := rot16 d
    let c := addv c d
    let b := xorv b c
    let b := rot63 b
    ⟨a, b, c, d⟩

/-- baokeshed64_avx2.c:71-76 -/
def diagonalize : Rows → Rows
  | ⟨a, b, c, d⟩ =>
    let a := mm256_permute4x64_epi64 a (MM_SHUFFLE 2 1 0 3)
    let d := mm256_permute4x64_epi64 d (MM_SHUFFLE 1 0 3 2)
    let c := mm256_permute4x64_epi64 c (MM_SHUFFLE 0 3 2 1)
    ⟨a, b, c, d⟩

/-- baokeshed64_avx2.c:78-83 -/
def undiagonalize : Rows → Rows
  | ⟨a, b, c, d⟩ =>
    let a := mm256_permute4x64_epi64 a (MM_SHUFFLE 0 3 2 1)
    let d := mm256_permute4x64_epi64 d (MM_SHUFFLE 1 0 3 2)
    let c := mm256_permute4x64_epi64 c (MM_SHUFFLE 2 1 0 3)
    ⟨a, b, c, d⟩

/-- `compress_avx2`, round 1: baokeshed64_avx2.c:115-133 -/
def compress_round1 (m0 m1 m2 m3 m4 m5 m6 m7 : M256) (rows : Rows) : Rows :=
  let t0 := mm256_unpacklo_epi64 m0 m1
  let t1 := mm256_unpacklo_epi64 m2 m3
  let b0 := mm256_blend_epi32 t0 t1 0xF0
  let rows := g1 rows b0
  let t0 := mm256_unpackhi_epi64 m0 m1
  let t1 := mm256_unpackhi_epi64 m2 m3
  let b0 := mm256_blend_epi32 t0 t1 0xF0
  let rows := g2 rows b0
  let rows := diagonalize rows
  let t0 := mm256_unpacklo_epi64 m7 m4
  let t1 := mm256_unpacklo_epi64 m5 m6
  let b0 := mm256_blend_epi32 t0 t1 0xF0
  let rows := g1 rows b0
  let t0 := mm256_unpackhi_epi64 m7 m4
  let t1 := mm256_unpackhi_epi64 m5 m6
  let b0 := mm256_blend_epi32 t0 t1 0xF0
  let rows := g2 rows b0
  let rows := undiagonalize rows
  rows

/-- `compress_avx2`, round 2: baokeshed64_avx2.c:135-153 -/
def compress_round2 (m0 m1 m2 m3 m4 m5 m6 m7 : M256) (rows : Rows) : Rows :=
  let t0 := mm256_unpacklo_epi64 m7 m2
  let t1 := mm256_unpackhi_epi64 m4 m6
  let b0 := mm256_blend_epi32 t0 t1 0xF0
  let rows := g1 rows b0
  let t0 := mm256_unpacklo_epi64 m5 m4
  let t1 := mm256_alignr_epi8 m3 m7 8
  let b0 := mm256_blend_epi32 t0 t1 0xF0
  let rows := g2 rows b0
  let rows := diagonalize rows
  let t0 := mm256_unpackhi_epi64 m2 m0
  let t1 := mm256_blend_epi32 m5 m0 0x33
  let b0 := mm256_blend_epi32 t0 t1 0xF0
  let rows := g1 rows b0
  let t0 := mm256_alignr_epi8 m6 m1 8
  let t1 := mm256_blend_epi32 m3 m1 0x33
  let b0 := mm256_blend_epi32 t0 t1 0xF0
  let rows := g2 rows b0
  let rows := undiagonalize rows
  rows

/-- `compress_avx2`, round 3: baokeshed64_avx2.c:155-173 -/
def compress_round3 (m0 m1 m2 m3 m4 m5 m6 m7 : M256) (rows : Rows) : Rows :=
  let t0 := mm256_alignr_epi8 m6 m5 8
  let t1 := mm256_unpackhi_epi64 m2 m7
  let b0 := mm256_blend_epi32 t0 t1 0xF0
  let rows := g1 rows b0
  let t0 := mm256_unpacklo_epi64 m4 m0
  let t1 := mm256_blend_epi32 m6 m1 0x33
  let b0 := mm256_blend_epi32 t0 t1 0xF0
  let rows := g2 rows b0
  let rows := diagonalize rows
  let t0 := mm256_alignr_epi8 m5 m4 8
  let t1 := mm256_unpackhi_epi64 m1 m3
  let b0 := mm256_blend_epi32 t0 t1 0xF0
  let rows := g1 rows b0
  let t0 := mm256_unpacklo_epi64 m2 m7
  let t1 := mm256_blend_epi32 m0 m3 0x33
  let b0 := mm256_blend_epi32 t0 t1 0xF0
  let rows := g2 rows b0
  let rows := undiagonalize rows
  rows

/-- `compress_avx2`, round 4: baokeshed64_avx2.c:175-193 -/
def compress_round4 (m0 m1 m2 m3 m4 m5 m6 m7 : M256) (rows : Rows) : Rows :=
  let t0 := mm256_unpackhi_epi64 m3 m1
  let t1 := mm256_unpackhi_epi64 m6 m5
  let b0 := mm256_blend_epi32 t0 t1 0xF0
  let rows := g1 rows b0
  let t0 := mm256_unpackhi_epi64 m4 m0
  let t1 := mm256_unpacklo_epi64 m6 m7
  let b0 := mm256_blend_epi32 t0 t1 0xF0
  let rows := g2 rows b0
  let rows := diagonalize rows
  let t0 := mm256_alignr_epi8 m1 m7 8
  let t1 := mm256_shuffle_epi32 m2 (MM_SHUFFLE 1 0 3 2)
  let b0 := mm256_blend_epi32 t0 t1 0xF0
  let rows := g1 rows b0
  let t0 := mm256_unpacklo_epi64 m4 m3
  let t1 := mm256_unpacklo_epi64 m5 m0
  let b0 := mm256_blend_epi32 t0 t1 0xF0
  let rows := g2 rows b0
  let rows := undiagonalize rows
  rows

/-- `compress_avx2`, round 5: baokeshed64_avx2.c:195-213 -/
def compress_round5 (m0 m1 m2 m3 m4 m5 m6 m7 : M256) (rows : Rows) : Rows :=
  let t0 := mm256_unpackhi_epi64 m4 m2
  let t1 := mm256_unpacklo_epi64 m1 m5
  let b0 := mm256_blend_epi32 t0 t1 0xF0
  let rows := g1 rows b0
  let t0 := mm256_blend_epi32 m3 m0 0x33
  let t1 := mm256_blend_epi32 m7 m2 0x33
  let b0 := mm256_blend_epi32 t0 t1 0xF0
  let rows := g2 rows b0
  let rows := diagonalize rows
  let t0 := mm256_alignr_epi8 m7 m1 8
  let t1 := mm256_alignr_epi8 m3 m5 8
  let b0 := mm256_blend_epi32 t0 t1 0xF0
  let rows := g1 rows b0
  let t0 := mm256_unpackhi_epi64 m6 m0
  let t1 := mm256_unpacklo_epi64 m6 m4
  let b0 := mm256_blend_epi32 t0 t1 0xF0
  let rows := g2 rows b0
  let rows := undiagonalize rows
  rows

/-- `compress_avx2`, round 6: baokeshed64_avx2.c:215-233 -/
def compress_round6 (m0 m1 m2 m3 m4 m5 m6 m7 : M256) (rows : Rows) : Rows :=
  let t0 := mm256_unpacklo_epi64 m1 m3
  let t1 := mm256_unpacklo_epi64 m0 m4
  let b0 := mm256_blend_epi32 t0 t1 0xF0
  let rows := g1 rows b0
  let t0 := mm256_unpacklo_epi64 m6 m5
  let t1 := mm256_unpackhi_epi64 m5 m1
  let b0 := mm256_blend_epi32 t0 t1 0xF0
  let rows := g2 rows b0
  let rows := diagonalize rows
  let t0 := mm256_alignr_epi8 m2 m0 8
  let t1 := mm256_unpackhi_epi64 m3 m7
  let b0 := mm256_blend_epi32 t0 t1 0xF0
  let rows := g1 rows b0
  let t0 := mm256_unpackhi_epi64 m4 m6
  let t1 := mm256_alignr_epi8 m7 m2 8
  let b0 := mm256_blend_epi32 t0 t1 0xF0
  let rows := g2 rows b0
  let rows := undiagonalize rows
  rows

/-- `compress_avx2`, round 7: baokeshed64_avx2.c:235-253 -/
def compress_round7 (m0 m1 m2 m3 m4 m5 m6 m7 : M256) (rows : Rows) : Rows :=
  let t0 := mm256_blend_epi32 m0 m6 0x33
  let t1 := mm256_unpacklo_epi64 m7 m2
  let b0 := mm256_blend_epi32 t0 t1 0xF0
  let rows := g1 rows b0
  let t0 := mm256_unpackhi_epi64 m2 m7
  let t1 := mm256_alignr_epi8 m5 m6 8
  let b0 := mm256_blend_epi32 t0 t1 0xF0
  let rows := g2 rows b0
  let rows := diagonalize rows
  let t0 := mm256_unpacklo_epi64 m4 m0
  let t1 := mm256_blend_epi32 m4 m3 0x33
  let b0 := mm256_blend_epi32 t0 t1 0xF0
  let rows := g1 rows b0
  let t0 := mm256_unpackhi_epi64 m5 m3
  let t1 := mm256_shuffle_epi32 m1 (MM_SHUFFLE 1 0 3 2)
  let b0 := mm256_blend_epi32 t0 t1 0xF0
  let rows := g2 rows b0
  let rows := undiagonalize rows
  rows

/-- `compress_avx2`, round 8: baokeshed64_avx2.c:255-273 -/
def compress_round8 (m0 m1 m2 m3 m4 m5 m6 m7 : M256) (rows : Rows) : Rows :=
  let t0 := mm256_unpackhi_epi64 m6 m3
  let t1 := mm256_blend_epi32 m1 m6 0x33
  let b0 := mm256_blend_epi32 t0 t1 0xF0
  let rows := g1 rows b0
  let t0 := mm256_alignr_epi8 m7 m5 8
  let t1 := mm256_unpackhi_epi64 m0 m4
  let b0 := mm256_blend_epi32 t0 t1 0xF0
  let rows := g2 rows b0
  let rows := diagonalize rows
  let t0 := mm256_blend_epi32 m2 m1 0x33
  let t1 := mm256_alignr_epi8 m4 m7 8
  let b0 := mm256_blend_epi32 t0 t1 0xF0
  let rows := g1 rows b0
  let t0 := mm256_unpacklo_epi64 m5 m0
  let t1 := mm256_unpacklo_epi64 m2 m3
  let b0 := mm256_blend_epi32 t0 t1 0xF0
  let rows := g2 rows b0
  let rows := undiagonalize rows
  rows

/-- baokeshed64_avx2.c:85-276 -/
def compress_avx2 (state : Vector U64 4) (block : Bytes) (block_len : Byte) (offset : U64) (flags : Byte) :
    R (Vector U64 4) := do
  let a ← loadU64s 4 state.toList 0
  let b ← loadU64s 4 IV.toList 4
  let c ← loadU64s 4 IV.toList 0
  let d := set4 offset IV[5] (block_len.setWidth 64) (flags.setWidth 64)
  let m0 := mm256_broadcastsi128_si256 (← mm_loadu_si128 block (0 * 16))
  let m1 := mm256_broadcastsi128_si256 (← mm_loadu_si128 block (1 * 16))
  let m2 := mm256_broadcastsi128_si256 (← mm_loadu_si128 block (2 * 16))
  let m3 := mm256_broadcastsi128_si256 (← mm_loadu_si128 block (3 * 16))
  let m4 := mm256_broadcastsi128_si256 (← mm_loadu_si128 block (4 * 16))
  let m5 := mm256_broadcastsi128_si256 (← mm_loadu_si128 block (5 * 16))
  let m6 := mm256_broadcastsi128_si256 (← mm_loadu_si128 block (6 * 16))
  let m7 := mm256_broadcastsi128_si256 (← mm_loadu_si128 block (7 * 16))
  let rows : Rows := ⟨a, b, c, d⟩
  let rows := compress_round1 m0 m1 m2 m3 m4 m5 m6 m7 rows
  let rows := compress_round2 m0 m1 m2 m3 m4 m5 m6 m7 rows
  let rows := compress_round3 m0 m1 m2 m3 m4 m5 m6 m7 rows
  let rows := compress_round4 m0 m1 m2 m3 m4 m5 m6 m7 rows
  let rows := compress_round5 m0 m1 m2 m3 m4 m5 m6 m7 rows
  let rows := compress_round6 m0 m1 m2 m3 m4 m5 m6 m7 rows
  let rows := compress_round7 m0 m1 m2 m3 m4 m5 m6 m7 rows
  let rows := compress_round8 m0 m1 m2 m3 m4 m5 m6 m7 rows
  return u64s4 (xorv rows.a rows.b)

/-- baokeshed64_avx2.c:278-392; the elements `v[i]` of the state array are the variables `vi` -/
def round_fn (v m : Vector M256 16) (r : Fin 8) : Vector M256 16 :=
  let v0 : M256 := v.get 0
  let v1 : M256 := v.get 1
  let v2 : M256 := v.get 2
  let v3 : M256 := v.get 3
  let v4 : M256 := v.get 4
  let v5 : M256 := v.get 5
  let v6 : M256 := v.get 6
  let v7 : M256 := v.get 7
  let v8 : M256 := v.get 8
  let v9 : M256 := v.get 9
  let v10 : M256 := v.get 10
  let v11 : M256 := v.get 11
  let v12 : M256 := v.get 12
  let v13 : M256 := v.get 13
  let v14 : M256 := v.get 14
  let v15 : M256 := v.get 15
  let v0 : M256 := addv v0 (m.get ((MSG_SCHEDULE.get r).get 0))
  let v1 : M256 := addv v1 (m.get ((MSG_SCHEDULE.get r).get 2))
  let v2 : M256 := addv v2 (m.get ((MSG_SCHEDULE.get r).get 4))
  let v3 : M256 := addv v3 (m.get ((MSG_SCHEDULE.get r).get 6))
  let v0 : M256 := addv v0 v4
  let v1 : M256 := addv v1 v5
  let v2 : M256 := addv v2 v6
  let v3 : M256 := addv v3 v7
  let v12 : M256 := xorv v12 v0
  let v13 : M256 := xorv v13 v1
  let v14 : M256 := xorv v14 v2
  let v15 : M256 := xorv v15 v3
  let v12 : M256 := rot32 v12
  let v13 : M256 := rot32 v13
  let v14 : M256 := rot32 v14
  let v15 : M256 := rot32 v15
  let v8 : M256 := addv v8 v12
  let v9 : M256 := addv v9 v13
  let v10 : M256 := addv v10 v14
  let v11 : M256 := addv v11 v15
  let v4 : M256 := xorv v4 v8
  let v5 : M256 := xorv v5 v9
  let v6 : M256 := xorv v6 v10
  let v7 : M256 := xorv v7 v11
  let v4 : M256 := rot24 v4
  let v5 : M256 := rot24 v5
  let v6 : M256 := rot24 v6
  let v7 : M256 := rot24 v7
  let v0 : M256 := addv v0 (m.get ((MSG_SCHEDULE.get r).get 1))
  let v1 : M256 := addv v1 (m.get ((MSG_SCHEDULE.get r).get 3))
  let v2 : M256 := addv v2 (m.get ((MSG_SCHEDULE.get r).get 5))
  let v3 : M256 := addv v3 (m.get ((MSG_SCHEDULE.get r).get 7))
  let v0 : M256 := addv v0 v4
  let v1 : M256 := addv v1 v5
  let v2 : M256 := addv v2 v6
  let v3 : M256 := addv v3 v7
  let v12 : M256 := xorv v12 v0
  let v13 : M256 := xorv v13 v1
  let v14 : M256 := xorv v14 v2
  let v15 : M256 := xorv v15 v3
  let v12 : M256 := rot16 v12
  let v13 : M256 := rot16 v13
  let v14 : M256 := rot16 v14
  let v15 : M256 := rot16 v15
  let v8 : M256 := addv v8 v12
  let v9 : M256 := addv v9 v13
  let v10 : M256 := addv v10 v14
  let v11 : M256 := addv v11 v15
  let v4 : M256 := xorv v4 v8
  let v5 : M256 := xorv v5 v9
  let v6 : M256 := xorv v6 v10
  let v7 : M256 := xorv v7 v11
  let v4 : M256 := rot63 v4
  let v5 : M256 := rot63 v5
  let v6 : M256 := rot63 v6
  let v7 : M256 := rot63 v7
  let v0 : M256 := addv v0 (m.get ((MSG_SCHEDULE.get r).get 8))
  let v1 : M256 := addv v1 (m.get ((MSG_SCHEDULE.get r).get 10))
  let v2 : M256 := addv v2 (m.get ((MSG_SCHEDULE.get r).get 12))
  let v3 : M256 := addv v3 (m.get ((MSG_SCHEDULE.get r).get 14))
  let v0 : M256 := addv v0 v5
  let v1 : M256 := addv v1 v6
  let v2 : M256 := addv v2 v7
  let v3 : M256 := addv v3 v4
  let v15 : M256 := xorv v15 v0
  let v12 : M256 := xorv v12 v1
  let v13 : M256 := xorv v13 v2
  let v14 : M256 := xorv v14 v3
  let v15 : M256 := rot32 v15
  let v12 : M256 := rot32 v12
  let v13 : M256 := rot32 v13
  let v14 : M256 := rot32 v14
  let v10 : M256 := addv v10 v15
  let v11 : M256 := addv v11 v12
  let v8 : M256 := addv v8 v13
  let v9 : M256 := addv v9 v14
  let v5 : M256 := xorv v5 v10
  let v6 : M256 := xorv v6 v11
  let v7 : M256 := xorv v7 v8
  let v4 : M256 := xorv v4 v9
  let v5 : M256 := rot24 v5
  let v6 : M256 := rot24 v6
  let v7 : M256 := rot24 v7
  let v4 : M256 := rot24 v4
  let v0 : M256 := addv v0 (m.get ((MSG_SCHEDULE.get r).get 9))
  let v1 : M256 := addv v1 (m.get ((MSG_SCHEDULE.get r).get 11))
  let v2 : M256 := addv v2 (m.get ((MSG_SCHEDULE.get r).get 13))
  let v3 : M256 := addv v3 (m.get ((MSG_SCHEDULE.get r).get 15))
  let v0 : M256 := addv v0 v5
  let v1 : M256 := addv v1 v6
  let v2 : M256 := addv v2 v7
  let v3 : M256 := addv v3 v4
  let v15 : M256 := xorv v15 v0
  let v12 : M256 := xorv v12 v1
  let v13 : M256 := xorv v13 v2
  let v14 : M256 := xorv v14 v3
  let v15 : M256 := rot16 v15
  let v12 : M256 := rot16 v12
  let v13 : M256 := rot16 v13
  let v14 : M256 := rot16 v14
  let v10 : M256 := addv v10 v15
  let v11 : M256 := addv v11 v12
  let v8 : M256 := addv v8 v13
  let v9 : M256 := addv v9 v14
  let v5 : M256 := xorv v5 v10
  let v6 : M256 := xorv v6 v11
  let v7 : M256 := xorv v7 v8
  let v4 : M256 := xorv v4 v9
  let v5 : M256 := rot63 v5
  let v6 : M256 := rot63 v6
  let v7 : M256 := rot63 v7
  let v4 : M256 := rot63 v4
  #v[v0, v1, v2, v3, v4, v5, v6, v7, v8, v9, v10, v11, v12, v13, v14, v15]

/-- baokeshed64_avx2.c:394-407 -/
def transpose_vecs (vecs : Vector M256 DEGREE) : Vector M256 DEGREE :=
  let ab_02 := mm256_unpacklo_epi64 vecs[0] vecs[1]
  let ab_13 := mm256_unpackhi_epi64 vecs[0] vecs[1]
  let cd_02 := mm256_unpacklo_epi64 vecs[2] vecs[3]
  let cd_13 := mm256_unpackhi_epi64 vecs[2] vecs[3]
  #v[mm256_permute2x128_si256 ab_02 cd_02 0x20,
     mm256_permute2x128_si256 ab_13 cd_13 0x20,
     mm256_permute2x128_si256 ab_02 cd_02 0x31,
     mm256_permute2x128_si256 ab_13 cd_13 0x31]

/-- baokeshed64_avx2.c:409-431 -/
def transpose_msg_vecs (inputs : List Bytes) (block_offset : Nat) : R (Vector M256 16) := do
  let out0 ← loadu (← cIndex inputs 0) (block_offset + 0 * 32)
  let out1 ← loadu (← cIndex inputs 1) (block_offset + 0 * 32)
  let out2 ← loadu (← cIndex inputs 2) (block_offset + 0 * 32)
  let out3 ← loadu (← cIndex inputs 3) (block_offset + 0 * 32)
  let out4 ← loadu (← cIndex inputs 0) (block_offset + 1 * 32)
  let out5 ← loadu (← cIndex inputs 1) (block_offset + 1 * 32)
  let out6 ← loadu (← cIndex inputs 2) (block_offset + 1 * 32)
  let out7 ← loadu (← cIndex inputs 3) (block_offset + 1 * 32)
  let out8 ← loadu (← cIndex inputs 0) (block_offset + 2 * 32)
  let out9 ← loadu (← cIndex inputs 1) (block_offset + 2 * 32)
  let out10 ← loadu (← cIndex inputs 2) (block_offset + 2 * 32)
  let out11 ← loadu (← cIndex inputs 3) (block_offset + 2 * 32)
  let out12 ← loadu (← cIndex inputs 0) (block_offset + 3 * 32)
  let out13 ← loadu (← cIndex inputs 1) (block_offset + 3 * 32)
  let out14 ← loadu (← cIndex inputs 2) (block_offset + 3 * 32)
  let out15 ← loadu (← cIndex inputs 3) (block_offset + 3 * 32)
  let sq0 := transpose_vecs #v[out0, out1, out2, out3]
  let sq1 := transpose_vecs #v[out4, out5, out6, out7]
  let sq2 := transpose_vecs #v[out8, out9, out10, out11]
  let sq3 := transpose_vecs #v[out12, out13, out14, out15]
  return sq0 ++ sq1 ++ sq2 ++ sq3

/-- baokeshed64_avx2.c:433-436 -/
def load_offsets (offset : U64) (offset_deltas : List U64) : R M256 := do
  return addv (set1 offset) (← loadU64s 4 offset_deltas 0)

/-- The loop body of `hash4_avx2` after the message has been loaded, baokeshed64_avx2.c:462-479 -/
def hash4_avx2_block (h_vecs : Vector M256 4) (offset_vec block_len_vec block_flags_vec : M256)
    (msg_vecs : Vector M256 16) : Vector M256 4 :=
  let v : Vector M256 16 :=
    #v[h_vecs[0], h_vecs[1], h_vecs[2], h_vecs[3], set1 IV[4], set1 IV[5], set1 IV[6], set1 IV[7],
       set1 IV[0], set1 IV[1], set1 IV[2], set1 IV[3], offset_vec, set1 IV[5], block_len_vec, block_flags_vec]
  let v := round_fn v msg_vecs 0
  let v := round_fn v msg_vecs 1
  let v := round_fn v msg_vecs 2
  let v := round_fn v msg_vecs 3
  let v := round_fn v msg_vecs 4
  let v := round_fn v msg_vecs 5
  let v := round_fn v msg_vecs 6
  let v := round_fn v msg_vecs 7
  #v[xorv v[0] v[4], xorv v[1] v[5], xorv v[2] v[6], xorv v[3] v[7]]

/-- The loop of `hash4_avx2`, baokeshed64_avx2.c:453-482; `n` iterations remain. -/
def hash4_avx2_loop (inputs : List Bytes) (blocks : Nat) (offset_vec : M256) (flags flags_end : Byte) :
    (n block : Nat) → (h_vecs : Vector M256 4) → (block_flags : Byte) → R (Vector M256 4)
  | 0, _, h_vecs, _ => .ok h_vecs
  | n + 1, block, h_vecs, block_flags => do
    let block_flags := if block + 1 = blocks then block_flags ||| flags_end else block_flags
    let block_len_vec := set1 (BitVec.ofNat 64 BLOCK_LEN)
    let block_flags_vec := set1 (block_flags.setWidth 64)
    let msg_vecs ← transpose_msg_vecs inputs (block * BLOCK_LEN)
    let h_vecs := hash4_avx2_block h_vecs offset_vec block_len_vec block_flags_vec msg_vecs
    hash4_avx2_loop inputs blocks offset_vec flags flags_end n (block + 1) h_vecs flags

/-- The end of `hash4_avx2`, baokeshed64_avx2.c:484-488: `out` is the memory behind the pointer, the result its
new contents. -/
def hash4_avx2_store (h_vecs : Vector M256 4) (out : Bytes) : R Bytes := do
  let h_vecs := transpose_vecs h_vecs
  let out ← storeu h_vecs[0] out (0 * 32)
  let out ← storeu h_vecs[1] out (1 * 32)
  let out ← storeu h_vecs[2] out (2 * 32)
  let out ← storeu h_vecs[3] out (3 * 32)
  return out

/-- baokeshed64_avx2.c:438-489 -/
def hash4_avx2 (inputs : List Bytes) (blocks : Nat) (key_words : Vector U64 4) (offset : U64)
    (offset_deltas : List U64) (flags flags_start flags_end : Byte) (out : Bytes) : R Bytes := do
  let h_vecs : Vector M256 4 := #v[set1 key_words[0], set1 key_words[1], set1 key_words[2], set1 key_words[3]]
  let offset_vec ← load_offsets offset offset_deltas
  let h_vecs ← hash4_avx2_loop inputs blocks offset_vec flags flags_end blocks 0 h_vecs (flags ||| flags_start)
  hash4_avx2_store h_vecs out

/-- The loop of `hash_many_avx2` for batches of 4, baokeshed64_avx2.c:497-504, and what follows it -/
def hash_many_avx2_loop (blocks : Nat) (key_words : Vector U64 4) (offset_deltas : List U64) (flags flags_start flags_end : Byte)
    (num_inputs : Nat) (inputs : List Bytes) (offset : U64) (out : Bytes) : R Bytes :=
  if _h : DEGREE ≤ num_inputs then do
    let out ← hash4_avx2 inputs blocks key_words offset offset_deltas flags flags_start flags_end out
    let inputs ← cAdvance inputs DEGREE
    let offset := offset + (← cIndex offset_deltas DEGREE)
    let rest ← cAdvance out (DEGREE * OUT_LEN)
    let rest ← hash_many_avx2_loop blocks key_words offset_deltas flags flags_start flags_end (num_inputs - DEGREE) inputs offset rest
    return out.take (DEGREE * OUT_LEN) ++ rest
  else Sse41.hash_many_sse41 inputs num_inputs blocks key_words offset offset_deltas flags flags_start flags_end out
termination_by num_inputs
decreasing_by simp [DEGREE] at *; omega

/-- baokeshed64_avx2.c:491-508 -/
def hash_many_avx2 (inputs : List Bytes) (num_inputs blocks : Nat) (key_words : Vector U64 4) (offset : U64)
    (offset_deltas : List U64) (flags flags_start flags_end : Byte) (out : Bytes) : R Bytes :=
  hash_many_avx2_loop blocks key_words offset_deltas flags flags_start flags_end num_inputs inputs offset out

end Baokeshed.Model.C64.Avx2
