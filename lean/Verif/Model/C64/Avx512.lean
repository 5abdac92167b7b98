import Verif.Model.C64.Impl

/-!
# Model of /repo/c64/baokeshed64_avx512.c

Line by line; see `Verif.Model.C.Impl` for the conventions.
-/

namespace Baokeshed.Model.C64.Avx512
open Baokeshed.Model
open Baokeshed.Model.C (cIndex cAdvance cStore)

/-- baokeshed64_avx512.c:5-7 -/
def loadu_128 (src : Bytes) (off : Nat) : R M128 := mm_loadu_si128 src off

/-- baokeshed64_avx512.c:17-19 -/
def storeu_128 (src : M128) (dest : Bytes) (off : Nat) : R Bytes := cStore dest off (regBytes 16 src)

/-- baokeshed64_avx512.c:25 -/
def add_128 (a b : M128) : M128 := mm_add_epi64 a b

/-- baokeshed64_avx512.c:31 -/
def xor_128 (a b : M128) : M128 := mm_xor_si128 a b

/-- baokeshed64_avx512.c:37 -/
def set1_128 (x : U64) : M128 := mm_set1_epi64x x

/-- baokeshed64_avx512.c:52 -/
def rot32_128 (x : M128) : M128 := mm_ror_epi64 x 32

/-- baokeshed64_avx512.c:58 -/
def rot24_128 (x : M128) : M128 := mm_ror_epi64 x 24

/-- baokeshed64_avx512.c:64 -/
def rot16_128 (x : M128) : M128 := mm_ror_epi64 x 16

/-- baokeshed64_avx512.c:70 -/
def rot63_128 (x : M128) : M128 := mm_ror_epi64 x 63

/-- baokeshed64_avx512.c:9-11 -/
def loadu_256 (src : Bytes) (off : Nat) : R M256 := mm256_loadu_si256 src off

/-- baokeshed64_avx512.c:21-23 -/
def storeu_256 (src : M256) (dest : Bytes) (off : Nat) : R Bytes := cStore dest off (regBytes 32 src)

/-- baokeshed64_avx512.c:27 -/
def add_256 (a b : M256) : M256 := mm256_add_epi64 a b

/-- baokeshed64_avx512.c:33 -/
def xor_256 (a b : M256) : M256 := mm256_xor_si256 a b

/-- baokeshed64_avx512.c:39 -/
def set1_256 (x : U64) : M256 := mm256_set1_epi64x x

/-- baokeshed64_avx512.c:54 -/
def rot32_256 (x : M256) : M256 := mm256_ror_epi64 x 32

/-- baokeshed64_avx512.c:60 -/
def rot24_256 (x : M256) : M256 := mm256_ror_epi64 x 24

/-- baokeshed64_avx512.c:66 -/
def rot16_256 (x : M256) : M256 := mm256_ror_epi64 x 16

/-- baokeshed64_avx512.c:72 -/
def rot63_256 (x : M256) : M256 := mm256_ror_epi64 x 63

/-- baokeshed64_avx512.c:13-15 -/
def loadu_512 (src : Bytes) (off : Nat) : R M512 := mm512_loadu_si512 src off

/-- baokeshed64_avx512.c:29 -/
def add_512 (a b : M512) : M512 := mm512_add_epi64 a b

/-- baokeshed64_avx512.c:35 -/
def xor_512 (a b : M512) : M512 := mm512_xor_si512 a b

/-- baokeshed64_avx512.c:41 -/
def set1_512 (x : U64) : M512 := mm512_set1_epi64 x

/-- baokeshed64_avx512.c:56 -/
def rot32_512 (x : M512) : M512 := mm512_ror_epi64 x 32

/-- baokeshed64_avx512.c:62 -/
def rot24_512 (x : M512) : M512 := mm512_ror_epi64 x 24

/-- baokeshed64_avx512.c:68 -/
def rot16_512 (x : M512) : M512 := mm512_ror_epi64 x 16

/-- baokeshed64_avx512.c:74 -/
def rot63_512 (x : M512) : M512 := mm512_ror_epi64 x 63

/-- baokeshed64_avx512.c:43-46 -/
def set2 (a b : U64) : M128 := mm_set_epi64x b a

/-- baokeshed64_avx512.c:48-50 -/
def set4 (a b c d : U64) : M256 := mm256_setr_epi64x a b c d

/-- the four row variables of `compress_avx512` -/
structure Rows where
  (a b c d : M256)

/-- baokeshed64_avx512.c:82-90 -/
def g1 : Rows → M256 → Rows
  | ⟨a, b, c, d⟩, m =>
    let a := add_256 a m
    let a := add_256 a b
    let d := xor_256 d a
    let d := rot32_256 d
    let c := add_256 c d
    let b := xor_256 b c
    let b := rot24_256 b
    ⟨a, b, c, d⟩

/-- baokeshed64_avx512.c:92-100 -/
def g2 : Rows → M256 → Rows
  | ⟨a, b, c, d⟩, m =>
    let a := add_256 a m
    let a := add_256 a b
    let d := xor_256 d a
    let d := rot16_256 d
    let c := add_256 c d
    let b := xor_256 b c
    let b := rot63_256 b
    ⟨a, b, c, d⟩

/-- baokeshed64_avx512.c:105-110 -/
def diagonalize : Rows → Rows
  | ⟨a, b, c, d⟩ =>
    let a := mm256_permute4x64_epi64 a (MM_SHUFFLE 2 1 0 3)
    let d := mm256_permute4x64_epi64 d (MM_SHUFFLE 1 0 3 2)
    let c := mm256_permute4x64_epi64 c (MM_SHUFFLE 0 3 2 1)
    ⟨a, b, c, d⟩

/-- baokeshed64_avx512.c:112-117 -/
def undiagonalize : Rows → Rows
  | ⟨a, b, c, d⟩ =>
    let a := mm256_permute4x64_epi64 a (MM_SHUFFLE 0 3 2 1)
    let d := mm256_permute4x64_epi64 d (MM_SHUFFLE 1 0 3 2)
    let c := mm256_permute4x64_epi64 c (MM_SHUFFLE 2 1 0 3)
    ⟨a, b, c, d⟩

/-- `compress_avx512`, round 1: baokeshed64_avx512.c:149-167 -/
def compress_round1 (m0 m1 m2 m3 m4 m5 m6 m7 : M256) (rows : Rows) : Rows :=
  let t0 := mm256_unpacklo_epi64 m0 m1
  let t1 := mm256_unpacklo_epi64 m2 m3
  let b0 := mm256_blend_epi32 t0 t1 0xF0
  let rows := g1 rows b0
  let t0 := mm256_unpackhi_epi64 m0 m1
  let t1 := mm256_unpackhi_epi64 m2 m3
  let b0 := mm256_blend_epi32 t0 t1 0xF0
  let rows := g2 rows b0
  let rows := diagonalize rows
  let t0 := mm256_unpacklo_epi64 m7 m4
  let t1 := mm256_unpacklo_epi64 m5 m6
  let b0 := mm256_blend_epi32 t0 t1 0xF0
  let rows := g1 rows b0
  let t0 := mm256_unpackhi_epi64 m7 m4
  let t1 := mm256_unpackhi_epi64 m5 m6
  let b0 := mm256_blend_epi32 t0 t1 0xF0
  let rows := g2 rows b0
  let rows := undiagonalize rows
  rows

/-- `compress_avx512`, round 2: baokeshed64_avx512.c:169-187 -/
def compress_round2 (m0 m1 m2 m3 m4 m5 m6 m7 : M256) (rows : Rows) : Rows :=
  let t0 := mm256_unpacklo_epi64 m7 m2
  let t1 := mm256_unpackhi_epi64 m4 m6
  let b0 := mm256_blend_epi32 t0 t1 0xF0
  let rows := g1 rows b0
  let t0 := mm256_unpacklo_epi64 m5 m4
  let t1 := mm256_alignr_epi8 m3 m7 8
  let b0 := mm256_blend_epi32 t0 t1 0xF0
  let rows := g2 rows b0
  let rows := diagonalize rows
  let t0 := mm256_unpackhi_epi64 m2 m0
  let t1 := mm256_blend_epi32 m5 m0 0x33
  let b0 := mm256_blend_epi32 t0 t1 0xF0
  let rows := g1 rows b0
  let t0 := mm256_alignr_epi8 m6 m1 8
  let t1 := mm256_blend_epi32 m3 m1 0x33
  let b0 := mm256_blend_epi32 t0 t1 0xF0
  let rows := g2 rows b0
  let rows := undiagonalize rows
  rows

/-- `compress_avx512`, round 3: baokeshed64_avx512.c:189-207 -/
def compress_round3 (m0 m1 m2 m3 m4 m5 m6 m7 : M256) (rows : Rows) : Rows :=
  let t0 := mm256_alignr_epi8 m6 m5 8
  let t1 := mm256_unpackhi_epi64 m2 m7
  let b0 := mm256_blend_epi32 t0 t1 0xF0
  let rows := g1 rows b0
  let t0 := mm256_unpacklo_epi64 m4 m0
  let t1 := mm256_blend_epi32 m6 m1 0x33
  let b0 := mm256_blend_epi32 t0 t1 0xF0
  let rows := g2 rows b0
  let rows := diagonalize rows
  let t0 := mm256_alignr_epi8 m5 m4 8
  let t1 := mm256_unpackhi_epi64 m1 m3
  let b0 := mm256_blend_epi32 t0 t1 0xF0
  let rows := g1 rows b0
  let t0 := mm256_unpacklo_epi64 m2 m7
  let t1 := mm256_blend_epi32 m0 m3 0x33
  let b0 := mm256_blend_epi32 t0 t1 0xF0
  let rows := g2 rows b0
  let rows := undiagonalize rows
  rows

/-- `compress_avx512`, round 4: baokeshed64_avx512.c:209-227 -/
def compress_round4 (m0 m1 m2 m3 m4 m5 m6 m7 : M256) (rows : Rows) : Rows :=
  let t0 := mm256_unpackhi_epi64 m3 m1
  let t1 := mm256_unpackhi_epi64 m6 m5
  let b0 := mm256_blend_epi32 t0 t1 0xF0
  let rows := g1 rows b0
  let t0 := mm256_unpackhi_epi64 m4 m0
  let t1 := mm256_unpacklo_epi64 m6 m7
  let b0 := mm256_blend_epi32 t0 t1 0xF0
  let rows := g2 rows b0
  let rows := diagonalize rows
  let t0 := mm256_alignr_epi8 m1 m7 8
  let t1 := mm256_shuffle_epi32 m2 (MM_SHUFFLE 1 0 3 2)
  let b0 := mm256_blend_epi32 t0 t1 0xF0
  let rows := g1 rows b0
  let t0 := mm256_unpacklo_epi64 m4 m3
  let t1 := mm256_unpacklo_epi64 m5 m0
  let b0 := mm256_blend_epi32 t0 t1 0xF0
  let rows := g2 rows b0
  let rows := undiagonalize rows
  rows

/-- `compress_avx512`, round 5: baokeshed64_avx512.c:229-247 -/
def compress_round5 (m0 m1 m2 m3 m4 m5 m6 m7 : M256) (rows : Rows) : Rows :=
  let t0 := mm256_unpackhi_epi64 m4 m2
  let t1 := mm256_unpacklo_epi64 m1 m5
  let b0 := mm256_blend_epi32 t0 t1 0xF0
  let rows := g1 rows b0
  let t0 := mm256_blend_epi32 m3 m0 0x33
  let t1 := mm256_blend_epi32 m7 m2 0x33
  let b0 := mm256_blend_epi32 t0 t1 0xF0
  let rows := g2 rows b0
  let rows := diagonalize rows
  let t0 := mm256_alignr_epi8 m7 m1 8
  let t1 := mm256_alignr_epi8 m3 m5 8
  let b0 := mm256_blend_epi32 t0 t1 0xF0
  let rows := g1 rows b0
  let t0 := mm256_unpackhi_epi64 m6 m0
  let t1 := mm256_unpacklo_epi64 m6 m4
  let b0 := mm256_blend_epi32 t0 t1 0xF0
  let rows := g2 rows b0
  let rows := undiagonalize rows
  rows

/-- `compress_avx512`, round 6: baokeshed64_avx512.c:249-267 -/
def compress_round6 (m0 m1 m2 m3 m4 m5 m6 m7 : M256) (rows : Rows) : Rows :=
  let t0 := mm256_unpacklo_epi64 m1 m3
  let t1 := mm256_unpacklo_epi64 m0 m4
  let b0 := mm256_blend_epi32 t0 t1 0xF0
  let rows := g1 rows b0
  let t0 := mm256_unpacklo_epi64 m6 m5
  let t1 := mm256_unpackhi_epi64 m5 m1
  let b0 := mm256_blend_epi32 t0 t1 0xF0
  let rows := g2 rows b0
  let rows := diagonalize rows
  let t0 := mm256_alignr_epi8 m2 m0 8
  let t1 := mm256_unpackhi_epi64 m3 m7
  let b0 := mm256_blend_epi32 t0 t1 0xF0
  let rows := g1 rows b0
  let t0 := mm256_unpackhi_epi64 m4 m6
  let t1 := mm256_alignr_epi8 m7 m2 8
  let b0 := mm256_blend_epi32 t0 t1 0xF0
  let rows := g2 rows b0
  let rows := undiagonalize rows
  rows

/-- `compress_avx512`, round 7: baokeshed64_avx512.c:269-287 -/
def compress_round7 (m0 m1 m2 m3 m4 m5 m6 m7 : M256) (rows : Rows) : Rows :=
  let t0 := mm256_blend_epi32 m0 m6 0x33
  let t1 := mm256_unpacklo_epi64 m7 m2
  let b0 := mm256_blend_epi32 t0 t1 0xF0
  let rows := g1 rows b0
  let t0 := mm256_unpackhi_epi64 m2 m7
  let t1 := mm256_alignr_epi8 m5 m6 8
  let b0 := mm256_blend_epi32 t0 t1 0xF0
  let rows := g2 rows b0
  let rows := diagonalize rows
  let t0 := mm256_unpacklo_epi64 m4 m0
  let t1 := mm256_blend_epi32 m4 m3 0x33
  let b0 := mm256_blend_epi32 t0 t1 0xF0
  let rows := g1 rows b0
  let t0 := mm256_unpackhi_epi64 m5 m3
  let t1 := mm256_shuffle_epi32 m1 (MM_SHUFFLE 1 0 3 2)
  let b0 := mm256_blend_epi32 t0 t1 0xF0
  let rows := g2 rows b0
  let rows := undiagonalize rows
  rows

/-- `compress_avx512`, round 8: baokeshed64_avx512.c:289-307 -/
def compress_round8 (m0 m1 m2 m3 m4 m5 m6 m7 : M256) (rows : Rows) : Rows :=
  let t0 := mm256_unpackhi_epi64 m6 m3
  let t1 := mm256_blend_epi32 m1 m6 0x33
  let b0 := mm256_blend_epi32 t0 t1 0xF0
  let rows := g1 rows b0
  let t0 := mm256_alignr_epi8 m7 m5 8
  let t1 := mm256_unpackhi_epi64 m0 m4
  let b0 := mm256_blend_epi32 t0 t1 0xF0
  let rows := g2 rows b0
  let rows := diagonalize rows
  let t0 := mm256_blend_epi32 m2 m1 0x33
  let t1 := mm256_alignr_epi8 m4 m7 8
  let b0 := mm256_blend_epi32 t0 t1 0xF0
  let rows := g1 rows b0
  let t0 := mm256_unpacklo_epi64 m5 m0
  let t1 := mm256_unpacklo_epi64 m2 m3
  let b0 := mm256_blend_epi32 t0 t1 0xF0
  let rows := g2 rows b0
  let rows := undiagonalize rows
  rows

/-- baokeshed64_avx512.c:119-310 -/
def compress_avx512 (state : Vector U64 4) (block : Bytes) (block_len : Byte) (offset : U64) (flags : Byte) :
    R (Vector U64 4) := do
  let a ← loadU64s 4 state.toList 0
  let b ← loadU64s 4 IV.toList 4
  let c ← loadU64s 4 IV.toList 0
  let d := set4 offset IV[5] (block_len.setWidth 64) (flags.setWidth 64)
  let m0 := mm256_broadcastsi128_si256 (← mm_loadu_si128 block (0 * 16))
  let m1 := mm256_broadcastsi128_si256 (← mm_loadu_si128 block (1 * 16))
  let m2 := mm256_broadcastsi128_si256 (← mm_loadu_si128 block (2 * 16))
  let m3 := mm256_broadcastsi128_si256 (← mm_loadu_si128 block (3 * 16))
  let m4 := mm256_broadcastsi128_si256 (← mm_loadu_si128 block (4 * 16))
  let m5 := mm256_broadcastsi128_si256 (← mm_loadu_si128 block (5 * 16))
  let m6 := mm256_broadcastsi128_si256 (← mm_loadu_si128 block (6 * 16))
  let m7 := mm256_broadcastsi128_si256 (← mm_loadu_si128 block (7 * 16))
  let rows : Rows := ⟨a, b, c, d⟩
  let rows := compress_round1 m0 m1 m2 m3 m4 m5 m6 m7 rows
  let rows := compress_round2 m0 m1 m2 m3 m4 m5 m6 m7 rows
  let rows := compress_round3 m0 m1 m2 m3 m4 m5 m6 m7 rows
  let rows := compress_round4 m0 m1 m2 m3 m4 m5 m6 m7 rows
  let rows := compress_round5 m0 m1 m2 m3 m4 m5 m6 m7 rows
  let rows := compress_round6 m0 m1 m2 m3 m4 m5 m6 m7 rows
  let rows := compress_round7 m0 m1 m2 m3 m4 m5 m6 m7 rows
  let rows := compress_round8 m0 m1 m2 m3 m4 m5 m6 m7 rows
  return u64s4 (xor_256 rows.a rows.b)

/-- baokeshed64_avx512.c:318-432; the elements `v[i]` of the state array are the variables `vi` -/
def round_fn2 (v m : Vector M128 16) (r : Fin 8) : Vector M128 16 :=
  let v0 : M128 := v.get 0
  let v1 : M128 := v.get 1
  let v2 : M128 := v.get 2
  let v3 : M128 := v.get 3
  let v4 : M128 := v.get 4
  let v5 : M128 := v.get 5
  let v6 : M128 := v.get 6
  let v7 : M128 := v.get 7
  let v8 : M128 := v.get 8
  let v9 : M128 := v.get 9
  let v10 : M128 := v.get 10
  let v11 : M128 := v.get 11
  let v12 : M128 := v.get 12
  let v13 : M128 := v.get 13
  let v14 : M128 := v.get 14
  let v15 : M128 := v.get 15
  let v0 : M128 := add_128 v0 (m.get ((MSG_SCHEDULE.get r).get 0))
  let v1 : M128 := add_128 v1 (m.get ((MSG_SCHEDULE.get r).get 2))
  let v2 : M128 := add_128 v2 (m.get ((MSG_SCHEDULE.get r).get 4))
  let v3 : M128 := add_128 v3 (m.get ((MSG_SCHEDULE.get r).get 6))
  let v0 : M128 := add_128 v0 v4
  let v1 : M128 := add_128 v1 v5
  let v2 : M128 := add_128 v2 v6
  let v3 : M128 := add_128 v3 v7
  let v12 : M128 := xor_128 v12 v0
  let v13 : M128 := xor_128 v13 v1
  let v14 : M128 := xor_128 v14 v2
  let v15 : M128 := xor_128 v15 v3
  let v12 : M128 := rot32_128 v12
  let v13 : M128 := rot32_128 v13
  let v14 : M128 := rot32_128 v14
  let v15 : M128 := rot32_128 v15
  let v8 : M128 := add_128 v8 v12
  let v9 : M128 := add_128 v9 v13
  let v10 : M128 := add_128 v10 v14
  let v11 : M128 := add_128 v11 v15
  let v4 : M128 := xor_128 v4 v8
  let v5 : M128 := xor_128 v5 v9
  let v6 : M128 := xor_128 v6 v10
  let v7 : M128 := xor_128 v7 v11
  let v4 : M128 := rot24_128 v4
  let v5 : M128 := rot24_128 v5
  let v6 : M128 := rot24_128 v6
  let v7 : M128 := rot24_128 v7
  let v0 : M128 := add_128 v0 (m.get ((MSG_SCHEDULE.get r).get 1))
  let v1 : M128 := add_128 v1 (m.get ((MSG_SCHEDULE.get r).get 3))
  let v2 : M128 := add_128 v2 (m.get ((MSG_SCHEDULE.get r).get 5))
  let v3 : M128 := add_128 v3 (m.get ((MSG_SCHEDULE.get r).get 7))
  let v0 : M128 := add_128 v0 v4
  let v1 : M128 := add_128 v1 v5
  let v2 : M128 := add_128 v2 v6
  let v3 : M128 := add_128 v3 v7
  let v12 : M128 := xor_128 v12 v0
  let v13 : M128 := xor_128 v13 v1
  let v14 : M128 := xor_128 v14 v2
  let v15 : M128 := xor_128 v15 v3
  let v12 : M128 := rot16_128 v12
  let v13 : M128 := rot16_128 v13
  let v14 : M128 := rot16_128 v14
  let v15 : M128 := rot16_128 v15
  let v8 : M128 := add_128 v8 v12
  let v9 : M128 := add_128 v9 v13
  let v10 : M128 := add_128 v10 v14
  let v11 : M128 := add_128 v11 v15
  let v4 : M128 := xor_128 v4 v8
  let v5 : M128 := xor_128 v5 v9
  let v6 : M128 := xor_128 v6 v10
  let v7 : M128 := xor_128 v7 v11
  let v4 : M128 := rot63_128 v4
  let v5 : M128 := rot63_128 v5
  let v6 : M128 := rot63_128 v6
  let v7 : M128 := rot63_128 v7
  let v0 : M128 := add_128 v0 (m.get ((MSG_SCHEDULE.get r).get 8))
  let v1 : M128 := add_128 v1 (m.get ((MSG_SCHEDULE.get r).get 10))
  let v2 : M128 := add_128 v2 (m.get ((MSG_SCHEDULE.get r).get 12))
  let v3 : M128 := add_128 v3 (m.get ((MSG_SCHEDULE.get r).get 14))
  let v0 : M128 := add_128 v0 v5
  let v1 : M128 := add_128 v1 v6
  let v2 : M128 := add_128 v2 v7
  let v3 : M128 := add_128 v3 v4
  let v15 : M128 := xor_128 v15 v0
  let v12 : M128 := xor_128 v12 v1
  let v13 : M128 := xor_128 v13 v2
  let v14 : M128 := xor_128 v14 v3
  let v15 : M128 := rot32_128 v15
  let v12 : M128 := rot32_128 v12
  let v13 : M128 := rot32_128 v13
  let v14 : M128 := rot32_128 v14
  let v10 : M128 := add_128 v10 v15
  let v11 : M128 := add_128 v11 v12
  let v8 : M128 := add_128 v8 v13
  let v9 : M128 := add_128 v9 v14
  let v5 : M128 := xor_128 v5 v10
  let v6 : M128 := xor_128 v6 v11
  let v7 : M128 := xor_128 v7 v8
  let v4 : M128 := xor_128 v4 v9
  let v5 : M128 := rot24_128 v5
  let v6 : M128 := rot24_128 v6
  let v7 : M128 := rot24_128 v7
  let v4 : M128 := rot24_128 v4
  let v0 : M128 := add_128 v0 (m.get ((MSG_SCHEDULE.get r).get 9))
  let v1 : M128 := add_128 v1 (m.get ((MSG_SCHEDULE.get r).get 11))
  let v2 : M128 := add_128 v2 (m.get ((MSG_SCHEDULE.get r).get 13))
  let v3 : M128 := add_128 v3 (m.get ((MSG_SCHEDULE.get r).get 15))
  let v0 : M128 := add_128 v0 v5
  let v1 : M128 := add_128 v1 v6
  let v2 : M128 := add_128 v2 v7
  let v3 : M128 := add_128 v3 v4
  let v15 : M128 := xor_128 v15 v0
  let v12 : M128 := xor_128 v12 v1
  let v13 : M128 := xor_128 v13 v2
  let v14 : M128 := xor_128 v14 v3
  let v15 : M128 := rot16_128 v15
  let v12 : M128 := rot16_128 v12
  let v13 : M128 := rot16_128 v13
  let v14 : M128 := rot16_128 v14
  let v10 : M128 := add_128 v10 v15
  let v11 : M128 := add_128 v11 v12
  let v8 : M128 := add_128 v8 v13
  let v9 : M128 := add_128 v9 v14
  let v5 : M128 := xor_128 v5 v10
  let v6 : M128 := xor_128 v6 v11
  let v7 : M128 := xor_128 v7 v8
  let v4 : M128 := xor_128 v4 v9
  let v5 : M128 := rot63_128 v5
  let v6 : M128 := rot63_128 v6
  let v7 : M128 := rot63_128 v7
  let v4 : M128 := rot63_128 v4
  #v[v0, v1, v2, v3, v4, v5, v6, v7, v8, v9, v10, v11, v12, v13, v14, v15]

/-- baokeshed64_avx512.c:434-441 -/
def transpose_vecs_128 (vecs : Vector M128 2) : Vector M128 2 :=
  let vec0 := u64s2 vecs[0]
  let vec1 := u64s2 vecs[1]
  #v[set2 vec0[0] vec1[0], set2 vec0[1] vec1[1]]

/-- baokeshed64_avx512.c:443-469 -/
def transpose_msg_vecs2 (inputs : List Bytes) (block_offset : Nat) : R (Vector M128 16) := do
  let out0 ← loadu_128 (← cIndex inputs 0) (block_offset + 0 * 16)
  let out1 ← loadu_128 (← cIndex inputs 1) (block_offset + 0 * 16)
  let out2 ← loadu_128 (← cIndex inputs 0) (block_offset + 1 * 16)
  let out3 ← loadu_128 (← cIndex inputs 1) (block_offset + 1 * 16)
  let out4 ← loadu_128 (← cIndex inputs 0) (block_offset + 2 * 16)
  let out5 ← loadu_128 (← cIndex inputs 1) (block_offset + 2 * 16)
  let out6 ← loadu_128 (← cIndex inputs 0) (block_offset + 3 * 16)
  let out7 ← loadu_128 (← cIndex inputs 1) (block_offset + 3 * 16)
  let out8 ← loadu_128 (← cIndex inputs 0) (block_offset + 4 * 16)
  let out9 ← loadu_128 (← cIndex inputs 1) (block_offset + 4 * 16)
  let out10 ← loadu_128 (← cIndex inputs 0) (block_offset + 5 * 16)
  let out11 ← loadu_128 (← cIndex inputs 1) (block_offset + 5 * 16)
  let out12 ← loadu_128 (← cIndex inputs 0) (block_offset + 6 * 16)
  let out13 ← loadu_128 (← cIndex inputs 1) (block_offset + 6 * 16)
  let out14 ← loadu_128 (← cIndex inputs 0) (block_offset + 7 * 16)
  let out15 ← loadu_128 (← cIndex inputs 1) (block_offset + 7 * 16)
  let sq0 := transpose_vecs_128 #v[out0, out1]
  let sq1 := transpose_vecs_128 #v[out2, out3]
  let sq2 := transpose_vecs_128 #v[out4, out5]
  let sq3 := transpose_vecs_128 #v[out6, out7]
  let sq4 := transpose_vecs_128 #v[out8, out9]
  let sq5 := transpose_vecs_128 #v[out10, out11]
  let sq6 := transpose_vecs_128 #v[out12, out13]
  let sq7 := transpose_vecs_128 #v[out14, out15]
  return sq0 ++ sq1 ++ sq2 ++ sq3 ++ sq4 ++ sq5 ++ sq6 ++ sq7

/-- baokeshed64_avx512.c:471-474 -/
def load_offsets2 (offset : U64) (offset_deltas : List U64) : R M128 := do
  return add_128 (set1_128 offset) (← loadU64s 2 offset_deltas 0)

/-- The loop body of `hash2_avx512` after the message has been loaded, baokeshed64_avx512.c:500-517 -/
def hash2_avx512_block (h_vecs : Vector M128 4) (offset_vec block_len_vec block_flags_vec : M128)
    (msg_vecs : Vector M128 16) : Vector M128 4 :=
  let v : Vector M128 16 :=
    #v[h_vecs[0], h_vecs[1], h_vecs[2], h_vecs[3], set1_128 IV[4], set1_128 IV[5], set1_128 IV[6], set1_128 IV[7],
       set1_128 IV[0], set1_128 IV[1], set1_128 IV[2], set1_128 IV[3], offset_vec, set1_128 IV[5], block_len_vec, block_flags_vec]
  let v := round_fn2 v msg_vecs 0
  let v := round_fn2 v msg_vecs 1
  let v := round_fn2 v msg_vecs 2
  let v := round_fn2 v msg_vecs 3
  let v := round_fn2 v msg_vecs 4
  let v := round_fn2 v msg_vecs 5
  let v := round_fn2 v msg_vecs 6
  let v := round_fn2 v msg_vecs 7
  #v[xor_128 v[0] v[4], xor_128 v[1] v[5], xor_128 v[2] v[6], xor_128 v[3] v[7]]

/-- The loop of `hash2_avx512`, baokeshed64_avx512.c:491-520; `n` iterations remain. -/
def hash2_avx512_loop (inputs : List Bytes) (blocks : Nat) (offset_vec : M128) (flags flags_end : Byte) :
    (n block : Nat) → (h_vecs : Vector M128 4) → (block_flags : Byte) → R (Vector M128 4)
  | 0, _, h_vecs, _ => .ok h_vecs
  | n + 1, block, h_vecs, block_flags => do
    let block_flags := if block + 1 = blocks then block_flags ||| flags_end else block_flags
    let block_len_vec := set1_128 (BitVec.ofNat 64 BLOCK_LEN)
    let block_flags_vec := set1_128 (block_flags.setWidth 64)
    let msg_vecs ← transpose_msg_vecs2 inputs (block * BLOCK_LEN)
    let h_vecs := hash2_avx512_block h_vecs offset_vec block_len_vec block_flags_vec msg_vecs
    hash2_avx512_loop inputs blocks offset_vec flags flags_end n (block + 1) h_vecs flags

/-- The end of `hash2_avx512`, baokeshed64_avx512.c:522-529: `out` is the memory behind the pointer, the result its
new contents. -/
def hash2_avx512_store (h_vecs : Vector M128 4) (out : Bytes) : R Bytes := do
  let sq0 := transpose_vecs_128 #v[h_vecs[0], h_vecs[1]]
  let sq1 := transpose_vecs_128 #v[h_vecs[2], h_vecs[3]]
  let out ← storeu_128 sq0[0] out (0 * 16)
  let out ← storeu_128 sq1[0] out (1 * 16)
  let out ← storeu_128 sq0[1] out (2 * 16)
  let out ← storeu_128 sq1[1] out (3 * 16)
  return out

/-- baokeshed64_avx512.c:476-530 -/
def hash2_avx512 (inputs : List Bytes) (blocks : Nat) (key_words : Vector U64 4) (offset : U64)
    (offset_deltas : List U64) (flags flags_start flags_end : Byte) (out : Bytes) : R Bytes := do
  let h_vecs : Vector M128 4 := #v[set1_128 key_words[0], set1_128 key_words[1], set1_128 key_words[2], set1_128 key_words[3]]
  let offset_vec ← load_offsets2 offset offset_deltas
  let h_vecs ← hash2_avx512_loop inputs blocks offset_vec flags flags_end blocks 0 h_vecs (flags ||| flags_start)
  hash2_avx512_store h_vecs out

/-- baokeshed64_avx512.c:538-652; the elements `v[i]` of the state array are the variables `vi` -/
def round_fn4 (v m : Vector M256 16) (r : Fin 8) : Vector M256 16 :=
  let v0 : M256 := v.get 0
  let v1 : M256 := v.get 1
  let v2 : M256 := v.get 2
  let v3 : M256 := v.get 3
  let v4 : M256 := v.get 4
  let v5 : M256 := v.get 5
  let v6 : M256 := v.get 6
  let v7 : M256 := v.get 7
  let v8 : M256 := v.get 8
  let v9 : M256 := v.get 9
  let v10 : M256 := v.get 10
  let v11 : M256 := v.get 11
  let v12 : M256 := v.get 12
  let v13 : M256 := v.get 13
  let v14 : M256 := v.get 14
  let v15 : M256 := v.get 15
  let v0 : M256 := add_256 v0 (m.get ((MSG_SCHEDULE.get r).get 0))
  let v1 : M256 := add_256 v1 (m.get ((MSG_SCHEDULE.get r).get 2))
  let v2 : M256 := add_256 v2 (m.get ((MSG_SCHEDULE.get r).get 4))
  let v3 : M256 := add_256 v3 (m.get ((MSG_SCHEDULE.get r).get 6))
  let v0 : M256 := add_256 v0 v4
  let v1 : M256 := add_256 v1 v5
  let v2 : M256 := add_256 v2 v6
  let v3 : M256 := add_256 v3 v7
  let v12 : M256 := xor_256 v12 v0
  let v13 : M256 := xor_256 v13 v1
  let v14 : M256 := xor_256 v14 v2
  let v15 : M256 := xor_256 v15 v3
  let v12 : M256 := rot32_256 v12
  let v13 : M256 := rot32_256 v13
  let v14 : M256 := rot32_256 v14
  let v15 : M256 := rot32_256 v15
  let v8 : M256 := add_256 v8 v12
  let v9 : M256 := add_256 v9 v13
  let v10 : M256 := add_256 v10 v14
  let v11 : M256 := add_256 v11 v15
  let v4 : M256 := xor_256 v4 v8
  let v5 : M256 := xor_256 v5 v9
  let v6 : M256 := xor_256 v6 v10
  let v7 : M256 := xor_256 v7 v11
  let v4 : M256 := rot24_256 v4
  let v5 : M256 := rot24_256 v5
  let v6 : M256 := rot24_256 v6
  let v7 : M256 := rot24_256 v7
  let v0 : M256 := add_256 v0 (m.get ((MSG_SCHEDULE.get r).get 1))
  let v1 : M256 := add_256 v1 (m.get ((MSG_SCHEDULE.get r).get 3))
  let v2 : M256 := add_256 v2 (m.get ((MSG_SCHEDULE.get r).get 5))
  let v3 : M256 := add_256 v3 (m.get ((MSG_SCHEDULE.get r).get 7))
  let v0 : M256 := add_256 v0 v4
  let v1 : M256 := add_256 v1 v5
  let v2 : M256 := add_256 v2 v6
  let v3 : M256 := add_256 v3 v7
  let v12 : M256 := xor_256 v12 v0
  let v13 : M256 := xor_256 v13 v1
  let v14 : M256 := xor_256 v14 v2
  let v15 : M256 := xor_256 v15 v3
  let v12 : M256 := rot16_256 v12
  let v13 : M256 := rot16_256 v13
  let v14 : M256 := rot16_256 v14
  let v15 : M256 := rot16_256 v15
  let v8 : M256 := add_256 v8 v12
  let v9 : M256 := add_256 v9 v13
  let v10 : M256 := add_256 v10 v14
  let v11 : M256 := add_256 v11 v15
  let v4 : M256 := xor_256 v4 v8
  let v5 : M256 := xor_256 v5 v9
  let v6 : M256 := xor_256 v6 v10
  let v7 : M256 := xor_256 v7 v11
  let v4 : M256 := rot63_256 v4
  let v5 : M256 := rot63_256 v5
  let v6 : M256 := rot63_256 v6
  let v7 : M256 := rot63_256 v7
  let v0 : M256 := add_256 v0 (m.get ((MSG_SCHEDULE.get r).get 8))
  let v1 : M256 := add_256 v1 (m.get ((MSG_SCHEDULE.get r).get 10))
  let v2 : M256 := add_256 v2 (m.get ((MSG_SCHEDULE.get r).get 12))
  let v3 : M256 := add_256 v3 (m.get ((MSG_SCHEDULE.get r).get 14))
  let v0 : M256 := add_256 v0 v5
  let v1 : M256 := add_256 v1 v6
  let v2 : M256 := add_256 v2 v7
  let v3 : M256 := add_256 v3 v4
  let v15 : M256 := xor_256 v15 v0
  let v12 : M256 := xor_256 v12 v1
  let v13 : M256 := xor_256 v13 v2
  let v14 : M256 := xor_256 v14 v3
  let v15 : M256 := rot32_256 v15
  let v12 : M256 := rot32_256 v12
  let v13 : M256 := rot32_256 v13
  let v14 : M256 := rot32_256 v14
  let v10 : M256 := add_256 v10 v15
  let v11 : M256 := add_256 v11 v12
  let v8 : M256 := add_256 v8 v13
  let v9 : M256 := add_256 v9 v14
  let v5 : M256 := xor_256 v5 v10
  let v6 : M256 := xor_256 v6 v11
  let v7 : M256 := xor_256 v7 v8
  let v4 : M256 := xor_256 v4 v9
  let v5 : M256 := rot24_256 v5
  let v6 : M256 := rot24_256 v6
  let v7 : M256 := rot24_256 v7
  let v4 : M256 := rot24_256 v4
  let v0 : M256 := add_256 v0 (m.get ((MSG_SCHEDULE.get r).get 9))
  let v1 : M256 := add_256 v1 (m.get ((MSG_SCHEDULE.get r).get 11))
  let v2 : M256 := add_256 v2 (m.get ((MSG_SCHEDULE.get r).get 13))
  let v3 : M256 := add_256 v3 (m.get ((MSG_SCHEDULE.get r).get 15))
  let v0 : M256 := add_256 v0 v5
  let v1 : M256 := add_256 v1 v6
  let v2 : M256 := add_256 v2 v7
  let v3 : M256 := add_256 v3 v4
  let v15 : M256 := xor_256 v15 v0
  let v12 : M256 := xor_256 v12 v1
  let v13 : M256 := xor_256 v13 v2
  let v14 : M256 := xor_256 v14 v3
  let v15 : M256 := rot16_256 v15
  let v12 : M256 := rot16_256 v12
  let v13 : M256 := rot16_256 v13
  let v14 : M256 := rot16_256 v14
  let v10 : M256 := add_256 v10 v15
  let v11 : M256 := add_256 v11 v12
  let v8 : M256 := add_256 v8 v13
  let v9 : M256 := add_256 v9 v14
  let v5 : M256 := xor_256 v5 v10
  let v6 : M256 := xor_256 v6 v11
  let v7 : M256 := xor_256 v7 v8
  let v4 : M256 := xor_256 v4 v9
  let v5 : M256 := rot63_256 v5
  let v6 : M256 := rot63_256 v6
  let v7 : M256 := rot63_256 v7
  let v4 : M256 := rot63_256 v4
  #v[v0, v1, v2, v3, v4, v5, v6, v7, v8, v9, v10, v11, v12, v13, v14, v15]

/-- baokeshed64_avx512.c:654-667 -/
def transpose_vecs_256 (vecs : Vector M256 4) : Vector M256 4 :=
  let ab_02 := mm256_unpacklo_epi64 vecs[0] vecs[1]
  let ab_13 := mm256_unpackhi_epi64 vecs[0] vecs[1]
  let cd_02 := mm256_unpacklo_epi64 vecs[2] vecs[3]
  let cd_13 := mm256_unpackhi_epi64 vecs[2] vecs[3]
  #v[mm256_permute2x128_si256 ab_02 cd_02 0x20,
     mm256_permute2x128_si256 ab_13 cd_13 0x20,
     mm256_permute2x128_si256 ab_02 cd_02 0x31,
     mm256_permute2x128_si256 ab_13 cd_13 0x31]

/-- baokeshed64_avx512.c:669-691 -/
def transpose_msg_vecs4 (inputs : List Bytes) (block_offset : Nat) : R (Vector M256 16) := do
  let out0 ← loadu_256 (← cIndex inputs 0) (block_offset + 0 * 32)
  let out1 ← loadu_256 (← cIndex inputs 1) (block_offset + 0 * 32)
  let out2 ← loadu_256 (← cIndex inputs 2) (block_offset + 0 * 32)
  let out3 ← loadu_256 (← cIndex inputs 3) (block_offset + 0 * 32)
  let out4 ← loadu_256 (← cIndex inputs 0) (block_offset + 1 * 32)
  let out5 ← loadu_256 (← cIndex inputs 1) (block_offset + 1 * 32)
  let out6 ← loadu_256 (← cIndex inputs 2) (block_offset + 1 * 32)
  let out7 ← loadu_256 (← cIndex inputs 3) (block_offset + 1 * 32)
  let out8 ← loadu_256 (← cIndex inputs 0) (block_offset + 2 * 32)
  let out9 ← loadu_256 (← cIndex inputs 1) (block_offset + 2 * 32)
  let out10 ← loadu_256 (← cIndex inputs 2) (block_offset + 2 * 32)
  let out11 ← loadu_256 (← cIndex inputs 3) (block_offset + 2 * 32)
  let out12 ← loadu_256 (← cIndex inputs 0) (block_offset + 3 * 32)
  let out13 ← loadu_256 (← cIndex inputs 1) (block_offset + 3 * 32)
  let out14 ← loadu_256 (← cIndex inputs 2) (block_offset + 3 * 32)
  let out15 ← loadu_256 (← cIndex inputs 3) (block_offset + 3 * 32)
  let sq0 := transpose_vecs_256 #v[out0, out1, out2, out3]
  let sq1 := transpose_vecs_256 #v[out4, out5, out6, out7]
  let sq2 := transpose_vecs_256 #v[out8, out9, out10, out11]
  let sq3 := transpose_vecs_256 #v[out12, out13, out14, out15]
  return sq0 ++ sq1 ++ sq2 ++ sq3

/-- baokeshed64_avx512.c:693-696 -/
def load_offsets4 (offset : U64) (offset_deltas : List U64) : R M256 := do
  return add_256 (set1_256 offset) (← loadU64s 4 offset_deltas 0)

/-- The loop body of `hash4_avx512` after the message has been loaded, baokeshed64_avx512.c:722-739 -/
def hash4_avx512_block (h_vecs : Vector M256 4) (offset_vec block_len_vec block_flags_vec : M256)
    (msg_vecs : Vector M256 16) : Vector M256 4 :=
  let v : Vector M256 16 :=
    #v[h_vecs[0], h_vecs[1], h_vecs[2], h_vecs[3], set1_256 IV[4], set1_256 IV[5], set1_256 IV[6], set1_256 IV[7],
       set1_256 IV[0], set1_256 IV[1], set1_256 IV[2], set1_256 IV[3], offset_vec, set1_256 IV[5], block_len_vec, block_flags_vec]
  let v := round_fn4 v msg_vecs 0
  let v := round_fn4 v msg_vecs 1
  let v := round_fn4 v msg_vecs 2
  let v := round_fn4 v msg_vecs 3
  let v := round_fn4 v msg_vecs 4
  let v := round_fn4 v msg_vecs 5
  let v := round_fn4 v msg_vecs 6
  let v := round_fn4 v msg_vecs 7
  #v[xor_256 v[0] v[4], xor_256 v[1] v[5], xor_256 v[2] v[6], xor_256 v[3] v[7]]

/-- The loop of `hash4_avx512`, baokeshed64_avx512.c:713-742; `n` iterations remain. -/
def hash4_avx512_loop (inputs : List Bytes) (blocks : Nat) (offset_vec : M256) (flags flags_end : Byte) :
    (n block : Nat) → (h_vecs : Vector M256 4) → (block_flags : Byte) → R (Vector M256 4)
  | 0, _, h_vecs, _ => .ok h_vecs
  | n + 1, block, h_vecs, block_flags => do
    let block_flags := if block + 1 = blocks then block_flags ||| flags_end else block_flags
    let block_len_vec := set1_256 (BitVec.ofNat 64 BLOCK_LEN)
    let block_flags_vec := set1_256 (block_flags.setWidth 64)
    let msg_vecs ← transpose_msg_vecs4 inputs (block * BLOCK_LEN)
    let h_vecs := hash4_avx512_block h_vecs offset_vec block_len_vec block_flags_vec msg_vecs
    hash4_avx512_loop inputs blocks offset_vec flags flags_end n (block + 1) h_vecs flags

/-- The end of `hash4_avx512`, baokeshed64_avx512.c:744-748: `out` is the memory behind the pointer, the result its
new contents. -/
def hash4_avx512_store (h_vecs : Vector M256 4) (out : Bytes) : R Bytes := do
  let h_vecs := transpose_vecs_256 h_vecs
  let out ← storeu_256 h_vecs[0] out (0 * 32)
  let out ← storeu_256 h_vecs[1] out (1 * 32)
  let out ← storeu_256 h_vecs[2] out (2 * 32)
  let out ← storeu_256 h_vecs[3] out (3 * 32)
  return out

/-- baokeshed64_avx512.c:698-749 -/
def hash4_avx512 (inputs : List Bytes) (blocks : Nat) (key_words : Vector U64 4) (offset : U64)
    (offset_deltas : List U64) (flags flags_start flags_end : Byte) (out : Bytes) : R Bytes := do
  let h_vecs : Vector M256 4 := #v[set1_256 key_words[0], set1_256 key_words[1], set1_256 key_words[2], set1_256 key_words[3]]
  let offset_vec ← load_offsets4 offset offset_deltas
  let h_vecs ← hash4_avx512_loop inputs blocks offset_vec flags flags_end blocks 0 h_vecs (flags ||| flags_start)
  hash4_avx512_store h_vecs out

/-- baokeshed64_avx512.c:757-871; the elements `v[i]` of the state array are the variables `vi` -/
def round_fn8 (v m : Vector M512 16) (r : Fin 8) : Vector M512 16 :=
  let v0 : M512 := v.get 0
  let v1 : M512 := v.get 1
  let v2 : M512 := v.get 2
  let v3 : M512 := v.get 3
  let v4 : M512 := v.get 4
  let v5 : M512 := v.get 5
  let v6 : M512 := v.get 6
  let v7 : M512 := v.get 7
  let v8 : M512 := v.get 8
  let v9 : M512 := v.get 9
  let v10 : M512 := v.get 10
  let v11 : M512 := v.get 11
  let v12 : M512 := v.get 12
  let v13 : M512 := v.get 13
  let v14 : M512 := v.get 14
  let v15 : M512 := v.get 15
  let v0 : M512 := add_512 v0 (m.get ((MSG_SCHEDULE.get r).get 0))
  let v1 : M512 := add_512 v1 (m.get ((MSG_SCHEDULE.get r).get 2))
  let v2 : M512 := add_512 v2 (m.get ((MSG_SCHEDULE.get r).get 4))
  let v3 : M512 := add_512 v3 (m.get ((MSG_SCHEDULE.get r).get 6))
  let v0 : M512 := add_512 v0 v4
  let v1 : M512 := add_512 v1 v5
  let v2 : M512 := add_512 v2 v6
  let v3 : M512 := add_512 v3 v7
  let v12 : M512 := xor_512 v12 v0
  let v13 : M512 := xor_512 v13 v1
  let v14 : M512 := xor_512 v14 v2
  let v15 : M512 := xor_512 v15 v3
  let v12 : M512 := rot32_512 v12
  let v13 : M512 := rot32_512 v13
  let v14 : M512 := rot32_512 v14
  let v15 : M512 := rot32_512 v15
  let v8 : M512 := add_512 v8 v12
  let v9 : M512 := add_512 v9 v13
  let v10 : M512 := add_512 v10 v14
  let v11 : M512 := add_512 v11 v15
  let v4 : M512 := xor_512 v4 v8
  let v5 : M512 := xor_512 v5 v9
  let v6 : M512 := xor_512 v6 v10
  let v7 : M512 := xor_512 v7 v11
  let v4 : M512 := rot24_512 v4
  let v5 : M512 := rot24_512 v5
  let v6 : M512 := rot24_512 v6
  let v7 : M512 := rot24_512 v7
  let v0 : M512 := add_512 v0 (m.get ((MSG_SCHEDULE.get r).get 1))
  let v1 : M512 := add_512 v1 (m.get ((MSG_SCHEDULE.get r).get 3))
  let v2 : M512 := add_512 v2 (m.get ((MSG_SCHEDULE.get r).get 5))
  let v3 : M512 := add_512 v3 (m.get ((MSG_SCHEDULE.get r).get 7))
  let v0 : M512 := add_512 v0 v4
  let v1 : M512 := add_512 v1 v5
  let v2 : M512 := add_512 v2 v6
  let v3 : M512 := add_512 v3 v7
  let v12 : M512 := xor_512 v12 v0
  let v13 : M512 := xor_512 v13 v1
  let v14 : M512 := xor_512 v14 v2
  let v15 : M512 := xor_512 v15 v3
  let v12 : M512 := rot16_512 v12
  let v13 : M512 := rot16_512 v13
  let v14 : M512 := rot16_512 v14
  let v15 : M512 := rot16_512 v15
  let v8 : M512 := add_512 v8 v12
  let v9 : M512 := add_512 v9 v13
  let v10 : M512 := add_512 v10 v14
  let v11 : M512 := add_512 v11 v15
  let v4 : M512 := xor_512 v4 v8
  let v5 : M512 := xor_512 v5 v9
  let v6 : M512 := xor_512 v6 v10
  let v7 : M512 := xor_512 v7 v11
  let v4 : M512 := rot63_512 v4
  let v5 : M512 := rot63_512 v5
  let v6 : M512 := rot63_512 v6
  let v7 : M512 := rot63_512 v7
  let v0 : M512 := add_512 v0 (m.get ((MSG_SCHEDULE.get r).get 8))
  let v1 : M512 := add_512 v1 (m.get ((MSG_SCHEDULE.get r).get 10))
  let v2 : M512 := add_512 v2 (m.get ((MSG_SCHEDULE.get r).get 12))
  let v3 : M512 := add_512 v3 (m.get ((MSG_SCHEDULE.get r).get 14))
  let v0 : M512 := add_512 v0 v5
  let v1 : M512 := add_512 v1 v6
  let v2 : M512 := add_512 v2 v7
  let v3 : M512 := add_512 v3 v4
  let v15 : M512 := xor_512 v15 v0
  let v12 : M512 := xor_512 v12 v1
  let v13 : M512 := xor_512 v13 v2
  let v14 : M512 := xor_512 v14 v3
  let v15 : M512 := rot32_512 v15
  let v12 : M512 := rot32_512 v12
  let v13 : M512 := rot32_512 v13
  let v14 : M512 := rot32_512 v14
  let v10 : M512 := add_512 v10 v15
  let v11 : M512 := add_512 v11 v12
  let v8 : M512 := add_512 v8 v13
  let v9 : M512 := add_512 v9 v14
  let v5 : M512 := xor_512 v5 v10
  let v6 : M512 := xor_512 v6 v11
  let v7 : M512 := xor_512 v7 v8
  let v4 : M512 := xor_512 v4 v9
  let v5 : M512 := rot24_512 v5
  let v6 : M512 := rot24_512 v6
  let v7 : M512 := rot24_512 v7
  let v4 : M512 := rot24_512 v4
  let v0 : M512 := add_512 v0 (m.get ((MSG_SCHEDULE.get r).get 9))
  let v1 : M512 := add_512 v1 (m.get ((MSG_SCHEDULE.get r).get 11))
  let v2 : M512 := add_512 v2 (m.get ((MSG_SCHEDULE.get r).get 13))
  let v3 : M512 := add_512 v3 (m.get ((MSG_SCHEDULE.get r).get 15))
  let v0 : M512 := add_512 v0 v5
  let v1 : M512 := add_512 v1 v6
  let v2 : M512 := add_512 v2 v7
  let v3 : M512 := add_512 v3 v4
  let v15 : M512 := xor_512 v15 v0
  let v12 : M512 := xor_512 v12 v1
  let v13 : M512 := xor_512 v13 v2
  let v14 : M512 := xor_512 v14 v3
  let v15 : M512 := rot16_512 v15
  let v12 : M512 := rot16_512 v12
  let v13 : M512 := rot16_512 v13
  let v14 : M512 := rot16_512 v14
  let v10 : M512 := add_512 v10 v15
  let v11 : M512 := add_512 v11 v12
  let v8 : M512 := add_512 v8 v13
  let v9 : M512 := add_512 v9 v14
  let v5 : M512 := xor_512 v5 v10
  let v6 : M512 := xor_512 v6 v11
  let v7 : M512 := xor_512 v7 v8
  let v4 : M512 := xor_512 v4 v9
  let v5 : M512 := rot63_512 v5
  let v6 : M512 := rot63_512 v6
  let v7 : M512 := rot63_512 v7
  let v4 : M512 := rot63_512 v4
  #v[v0, v1, v2, v3, v4, v5, v6, v7, v8, v9, v10, v11, v12, v13, v14, v15]

/-- baokeshed64_avx512.c:873-878 -/
def unpack_lo_128 (a b : M512) : M512 := mm512_shuffle_i32x4 a b 0x88

/-- baokeshed64_avx512.c:880-885 -/
def unpack_hi_128 (a b : M512) : M512 := mm512_shuffle_i32x4 a b 0xdd

/-- baokeshed64_avx512.c:887-920; the parameter is declared as an array of 16, eight elements are used -/
def transpose_vecs_512 (vecs : Vector M512 8) : Vector M512 8 :=
  let ab_0 := mm512_unpacklo_epi64 vecs[0] vecs[1]
  let ab_1 := mm512_unpackhi_epi64 vecs[0] vecs[1]
  let cd_0 := mm512_unpacklo_epi64 vecs[2] vecs[3]
  let cd_1 := mm512_unpackhi_epi64 vecs[2] vecs[3]
  let ef_0 := mm512_unpacklo_epi64 vecs[4] vecs[5]
  let ef_1 := mm512_unpackhi_epi64 vecs[4] vecs[5]
  let gh_0 := mm512_unpacklo_epi64 vecs[6] vecs[7]
  let gh_1 := mm512_unpackhi_epi64 vecs[6] vecs[7]
  let abcd_0 := unpack_lo_128 ab_0 cd_0
  let abcd_1 := unpack_lo_128 ab_1 cd_1
  let abcd_2 := unpack_hi_128 ab_0 cd_0
  let abcd_3 := unpack_hi_128 ab_1 cd_1
  let efgh_0 := unpack_lo_128 ef_0 gh_0
  let efgh_1 := unpack_lo_128 ef_1 gh_1
  let efgh_2 := unpack_hi_128 ef_0 gh_0
  let efgh_3 := unpack_hi_128 ef_1 gh_1
  #v[unpack_lo_128 abcd_0 efgh_0,
     unpack_lo_128 abcd_1 efgh_1,
     unpack_lo_128 abcd_2 efgh_2,
     unpack_lo_128 abcd_3 efgh_3,
     unpack_hi_128 abcd_0 efgh_0,
     unpack_hi_128 abcd_1 efgh_1,
     unpack_hi_128 abcd_2 efgh_2,
     unpack_hi_128 abcd_3 efgh_3]

/-- baokeshed64_avx512.c:922-942 -/
def transpose_msg_vecs8 (inputs : List Bytes) (block_offset : Nat) : R (Vector M512 16) := do
  let out0 ← loadu_512 (← cIndex inputs 0) (block_offset + 0 * 64)
  let out1 ← loadu_512 (← cIndex inputs 1) (block_offset + 0 * 64)
  let out2 ← loadu_512 (← cIndex inputs 2) (block_offset + 0 * 64)
  let out3 ← loadu_512 (← cIndex inputs 3) (block_offset + 0 * 64)
  let out4 ← loadu_512 (← cIndex inputs 4) (block_offset + 0 * 64)
  let out5 ← loadu_512 (← cIndex inputs 5) (block_offset + 0 * 64)
  let out6 ← loadu_512 (← cIndex inputs 6) (block_offset + 0 * 64)
  let out7 ← loadu_512 (← cIndex inputs 7) (block_offset + 0 * 64)
  let out8 ← loadu_512 (← cIndex inputs 0) (block_offset + 1 * 64)
  let out9 ← loadu_512 (← cIndex inputs 1) (block_offset + 1 * 64)
  let out10 ← loadu_512 (← cIndex inputs 2) (block_offset + 1 * 64)
  let out11 ← loadu_512 (← cIndex inputs 3) (block_offset + 1 * 64)
  let out12 ← loadu_512 (← cIndex inputs 4) (block_offset + 1 * 64)
  let out13 ← loadu_512 (← cIndex inputs 5) (block_offset + 1 * 64)
  let out14 ← loadu_512 (← cIndex inputs 6) (block_offset + 1 * 64)
  let out15 ← loadu_512 (← cIndex inputs 7) (block_offset + 1 * 64)
  let sq0 := transpose_vecs_512 #v[out0, out1, out2, out3, out4, out5, out6, out7]
  let sq1 := transpose_vecs_512 #v[out8, out9, out10, out11, out12, out13, out14, out15]
  return sq0 ++ sq1

/-- baokeshed64_avx512.c:944-947 -/
def load_offsets8 (offset : U64) (offset_deltas : List U64) : R M512 := do
  return add_512 (set1_512 offset) (← loadU64s 8 offset_deltas 0)

/-- The loop body of `hash8_avx512` after the message has been loaded, baokeshed64_avx512.c:973-990 -/
def hash8_avx512_block (h_vecs : Vector M512 4) (offset_vec block_len_vec block_flags_vec : M512)
    (msg_vecs : Vector M512 16) : Vector M512 4 :=
  let v : Vector M512 16 :=
    #v[h_vecs[0], h_vecs[1], h_vecs[2], h_vecs[3], set1_512 IV[4], set1_512 IV[5], set1_512 IV[6], set1_512 IV[7],
       set1_512 IV[0], set1_512 IV[1], set1_512 IV[2], set1_512 IV[3], offset_vec, set1_512 IV[5], block_len_vec, block_flags_vec]
  let v := round_fn8 v msg_vecs 0
  let v := round_fn8 v msg_vecs 1
  let v := round_fn8 v msg_vecs 2
  let v := round_fn8 v msg_vecs 3
  let v := round_fn8 v msg_vecs 4
  let v := round_fn8 v msg_vecs 5
  let v := round_fn8 v msg_vecs 6
  let v := round_fn8 v msg_vecs 7
  #v[xor_512 v[0] v[4], xor_512 v[1] v[5], xor_512 v[2] v[6], xor_512 v[3] v[7]]

/-- The loop of `hash8_avx512`, baokeshed64_avx512.c:964-993; `n` iterations remain. -/
def hash8_avx512_loop (inputs : List Bytes) (blocks : Nat) (offset_vec : M512) (flags flags_end : Byte) :
    (n block : Nat) → (h_vecs : Vector M512 4) → (block_flags : Byte) → R (Vector M512 4)
  | 0, _, h_vecs, _ => .ok h_vecs
  | n + 1, block, h_vecs, block_flags => do
    let block_flags := if block + 1 = blocks then block_flags ||| flags_end else block_flags
    let block_len_vec := set1_512 (BitVec.ofNat 64 BLOCK_LEN)
    let block_flags_vec := set1_512 (block_flags.setWidth 64)
    let msg_vecs ← transpose_msg_vecs8 inputs (block * BLOCK_LEN)
    let h_vecs := hash8_avx512_block h_vecs offset_vec block_len_vec block_flags_vec msg_vecs
    hash8_avx512_loop inputs blocks offset_vec flags flags_end n (block + 1) h_vecs flags

/-- The end of `hash8_avx512`, baokeshed64_avx512.c:995-1010: `out` is the memory behind the pointer, the result its
new contents. -/
def hash8_avx512_store (h_vecs : Vector M512 4) (out : Bytes) : R Bytes := do
  let padded : Vector M512 8 := #v[h_vecs[0], h_vecs[1], h_vecs[2], h_vecs[3], set1_512 0, set1_512 0, set1_512 0, set1_512 0]
  let padded := transpose_vecs_512 padded
  let out ← storeu_256 (mm512_castsi512_si256 padded[0]) out (0 * 32)
  let out ← storeu_256 (mm512_castsi512_si256 padded[1]) out (1 * 32)
  let out ← storeu_256 (mm512_castsi512_si256 padded[2]) out (2 * 32)
  let out ← storeu_256 (mm512_castsi512_si256 padded[3]) out (3 * 32)
  let out ← storeu_256 (mm512_castsi512_si256 padded[4]) out (4 * 32)
  let out ← storeu_256 (mm512_castsi512_si256 padded[5]) out (5 * 32)
  let out ← storeu_256 (mm512_castsi512_si256 padded[6]) out (6 * 32)
  let out ← storeu_256 (mm512_castsi512_si256 padded[7]) out (7 * 32)
  return out

/-- baokeshed64_avx512.c:949-1011 -/
def hash8_avx512 (inputs : List Bytes) (blocks : Nat) (key_words : Vector U64 4) (offset : U64)
    (offset_deltas : List U64) (flags flags_start flags_end : Byte) (out : Bytes) : R Bytes := do
  let h_vecs : Vector M512 4 := #v[set1_512 key_words[0], set1_512 key_words[1], set1_512 key_words[2], set1_512 key_words[3]]
  let offset_vec ← load_offsets8 offset offset_deltas
  let h_vecs ← hash8_avx512_loop inputs blocks offset_vec flags flags_end blocks 0 h_vecs (flags ||| flags_start)
  hash8_avx512_store h_vecs out

/-- The loop of `hash_one_avx512`, baokeshed64_avx512.c:1027-1035 -/
def hash_one_avx512_loop (flags flags_end : Byte) (offset : U64) : (blocks : Nat) → (state : Vector U64 4) →
    (input : Bytes) → (block_flags : Byte) → R (Vector U64 4)
  | 0, state, _, _ => .ok state
  | blocks + 1, state, input, block_flags => do
    let block_flags := if blocks + 1 = 1 then block_flags ||| flags_end else block_flags
    let state ← compress_avx512 state input (BitVec.ofNat 8 BLOCK_LEN) offset block_flags
    let input ← cAdvance input BLOCK_LEN
    hash_one_avx512_loop flags flags_end offset blocks state input flags

/-- baokeshed64_avx512.c:1019-1037 -/
def hash_one_avx512 (input : Bytes) (blocks : Nat) (key_words : Vector U64 4) (offset : U64)
    (flags flags_start flags_end : Byte) (out : Bytes) : R Bytes := do
  let state ← hash_one_avx512_loop flags flags_end offset blocks key_words input (flags ||| flags_start)
  cStore out 0 (memOfU64s state)

/-- The last loop of `hash_many_avx512`, baokeshed64_avx512.c:1069-1076 -/
def hash_many_avx512_loop1 (blocks : Nat) (key_words : Vector U64 4) (offset_deltas : List U64) (flags flags_start flags_end : Byte) :
    (num_inputs : Nat) → (inputs : List Bytes) → (offset : U64) → (out : Bytes) → R Bytes
  | 0, _, _, out => .ok out
  | num_inputs + 1, inputs, offset, out => do
    let out ← hash_one_avx512 (← cIndex inputs 0) blocks key_words offset flags flags_start flags_end out
    let inputs ← cAdvance inputs 1
    let offset := offset + (← cIndex offset_deltas 1)
    let rest ← cAdvance out OUT_LEN
    let rest ← hash_many_avx512_loop1 blocks key_words offset_deltas flags flags_start flags_end num_inputs inputs offset rest
    return out.take OUT_LEN ++ rest

/-- The loop of `hash_many_avx512` for batches of 2, baokeshed64_avx512.c:1061-1068, and what follows it -/
def hash_many_avx512_loop2 (blocks : Nat) (key_words : Vector U64 4) (offset_deltas : List U64) (flags flags_start flags_end : Byte)
    (num_inputs : Nat) (inputs : List Bytes) (offset : U64) (out : Bytes) : R Bytes :=
  if _h : 2 ≤ num_inputs then do
    let out ← hash2_avx512 inputs blocks key_words offset offset_deltas flags flags_start flags_end out
    let inputs ← cAdvance inputs 2
    let offset := offset + (← cIndex offset_deltas 2)
    let rest ← cAdvance out (2 * OUT_LEN)
    let rest ← hash_many_avx512_loop2 blocks key_words offset_deltas flags flags_start flags_end (num_inputs - 2) inputs offset rest
    return out.take (2 * OUT_LEN) ++ rest
  else hash_many_avx512_loop1 blocks key_words offset_deltas flags flags_start flags_end num_inputs inputs offset out
termination_by num_inputs
decreasing_by omega

/-- The loop of `hash_many_avx512` for batches of 4, baokeshed64_avx512.c:1053-1060, and what follows it -/
def hash_many_avx512_loop4 (blocks : Nat) (key_words : Vector U64 4) (offset_deltas : List U64) (flags flags_start flags_end : Byte)
    (num_inputs : Nat) (inputs : List Bytes) (offset : U64) (out : Bytes) : R Bytes :=
  if _h : 4 ≤ num_inputs then do
    let out ← hash4_avx512 inputs blocks key_words offset offset_deltas flags flags_start flags_end out
    let inputs ← cAdvance inputs 4
    let offset := offset + (← cIndex offset_deltas 4)
    let rest ← cAdvance out (4 * OUT_LEN)
    let rest ← hash_many_avx512_loop4 blocks key_words offset_deltas flags flags_start flags_end (num_inputs - 4) inputs offset rest
    return out.take (4 * OUT_LEN) ++ rest
  else hash_many_avx512_loop2 blocks key_words offset_deltas flags flags_start flags_end num_inputs inputs offset out
termination_by num_inputs
decreasing_by omega

/-- The loop of `hash_many_avx512` for batches of 8, baokeshed64_avx512.c:1045-1052, and what follows it -/
def hash_many_avx512_loop8 (blocks : Nat) (key_words : Vector U64 4) (offset_deltas : List U64) (flags flags_start flags_end : Byte)
    (num_inputs : Nat) (inputs : List Bytes) (offset : U64) (out : Bytes) : R Bytes :=
  if _h : 8 ≤ num_inputs then do
    let out ← hash8_avx512 inputs blocks key_words offset offset_deltas flags flags_start flags_end out
    let inputs ← cAdvance inputs 8
    let offset := offset + (← cIndex offset_deltas 8)
    let rest ← cAdvance out (8 * OUT_LEN)
    let rest ← hash_many_avx512_loop8 blocks key_words offset_deltas flags flags_start flags_end (num_inputs - 8) inputs offset rest
    return out.take (8 * OUT_LEN) ++ rest
  else hash_many_avx512_loop4 blocks key_words offset_deltas flags flags_start flags_end num_inputs inputs offset out
termination_by num_inputs
decreasing_by omega

/-- baokeshed64_avx512.c:1039-1077 -/
def hash_many_avx512 (inputs : List Bytes) (num_inputs blocks : Nat) (key_words : Vector U64 4) (offset : U64)
    (offset_deltas : List U64) (flags flags_start flags_end : Byte) (out : Bytes) : R Bytes :=
  hash_many_avx512_loop8 blocks key_words offset_deltas flags flags_start flags_end num_inputs inputs offset out

end Baokeshed.Model.C64.Avx512
