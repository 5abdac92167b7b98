import Verif.Model.C.Sse41

/-!
# Model of /repo/c/baokeshed_avx2.c

Line by line; see `Verif.Model.C.Impl` for the conventions.
-/

namespace Baokeshed.Model.C.Avx2
open Baokeshed.Model

/-- baokeshed_avx2.c:5 -/
abbrev DEGREE : Nat := 8

/-- baokeshed_avx2.c:7-9 -/
def loadu (src : Bytes) (off : Nat) : R M256 := mm256_loadu_si256 src off

/-- baokeshed_avx2.c:11-13 -/
def storeu (src : M256) (dest : Bytes) (off : Nat) : R Bytes := cStore dest off (regBytes 32 src)

/-- baokeshed_avx2.c:15 -/
def addv (a b : M256) : M256 := mm256_add_epi32 a b

/-- baokeshed_avx2.c:18 -/
def xorv (a b : M256) : M256 := mm256_xor_si256 a b

/-- baokeshed_avx2.c:20 -/
def set1 (x : Word) : M256 := mm256_set1_epi32 x

/-- baokeshed_avx2.c:22-26 -/
def set8 (a b c d e f g h : Word) : M256 := mm256_setr_epi32 a b c d e f g h

/-- baokeshed_avx2.c:28-32 -/
def rot16 (x : M256) : M256 := 
  mm256_shuffle_epi8 x (mm256_set_epi8 #v[13, 12, 15, 14, 9, 8, 11, 10, 5, 4, 7, 6, 1, 0, 3, 2,
    13, 12, 15, 14, 9, 8, 11, 10, 5, 4, 7, 6, 1, 0, 3, 2])

/-- baokeshed_avx2.c:34-36 -/
def rot12 (x : M256) : M256 := xorv (mm256_srli_epi32 x 12) (mm256_slli_epi32 x (32 - 12))

/-- baokeshed_avx2.c:38-42 -/
def rot8 (x : M256) : M256 := 
  mm256_shuffle_epi8 x (mm256_set_epi8 #v[12, 15, 14, 13, 8, 11, 10, 9, 4, 7, 6, 5, 0, 3, 2, 1,
    12, 15, 14, 13, 8, 11, 10, 9, 4, 7, 6, 5, 0, 3, 2, 1])

/-- baokeshed_avx2.c:44-46 -/
def rot7 (x : M256) : M256 := xorv (mm256_srli_epi32 x 7) (mm256_slli_epi32 x (32 - 7))

/-- baokeshed_avx2.c:48-162; the elements `v[i]` of the state array are the variables `vi` -/
def round_fn (v m : Vector M256 16) (r : Fin 7) : Vector M256 16 :=
  let v0 : M256 := v.get 0
  let v1 : M256 := v.get 1
  let v2 : M256 := v.get 2
  let v3 : M256 := v.get 3
  let v4 : M256 := v.get 4
  let v5 : M256 := v.get 5
  let v6 : M256 := v.get 6
  let v7 : M256 := v.get 7
  let v8 : M256 := v.get 8
  let v9 : M256 := v.get 9
  let v10 : M256 := v.get 10
  let v11 : M256 := v.get 11
  let v12 : M256 := v.get 12
  let v13 : M256 := v.get 13
  let v14 : M256 := v.get 14
  let v15 : M256 := v.get 15
  let v0 : M256 := addv v0 (m.get ((MSG_SCHEDULE.get r).get 0))
  let v1 : M256 := addv v1 (m.get ((MSG_SCHEDULE.get r).get 2))
  let v2 : M256 := addv v2 (m.get ((MSG_SCHEDULE.get r).get 4))
  let v3 : M256 := addv v3 (m.get ((MSG_SCHEDULE.get r).get 6))
  let v0 : M256 := addv v0 v4
  let v1 : M256 := addv v1 v5
  let v2 : M256 := addv v2 v6
  let v3 : M256 := addv v3 v7
  let v12 : M256 := xorv v12 v0
  let v13 : M256 := xorv v13 v1
  let v14 : M256 := xorv v14 v2
  let v15 : M256 := xorv v15 v3
  let v12 : M256 := rot16 v12
  let v13 : M256 := rot16 v13
  let v14 : M256 := rot16 v14
  let v15 : M256 := rot16 v15
  let v8 : M256 := addv v8 v12
  let v9 : M256 := addv v9 v13
  let v10 : M256 := addv v10 v14
  let v11 : M256 := addv v11 v15
  let v4 : M256 := xorv v4 v8
  let v5 : M256 := xorv v5 v9
  let v6 : M256 := xorv v6 v10
  let v7 : M256 := xorv v7 v11
  let v4 : M256 := rot12 v4
  let v5 : M256 := rot12 v5
  let v6 : M256 := rot12 v6
  let v7 : M256 := rot12 v7
  let v0 : M256 := addv v0 (m.get ((MSG_SCHEDULE.get r).get 1))
  let v1 : M256 := addv v1 (m.get ((MSG_SCHEDULE.get r).get 3))
  let v2 : M256 := addv v2 (m.get ((MSG_SCHEDULE.get r).get 5))
  let v3 : M256 := addv v3 (m.get ((MSG_SCHEDULE.get r).get 7))
  let v0 : M256 := addv v0 v4
  let v1 : M256 := addv v1 v5
  let v2 : M256 := addv v2 v6
  let v3 : M256 := addv v3 v7
  let v12 : M256 := xorv v12 v0
  let v13 : M256 := xorv v13 v1
  let v14 : M256 := xorv v14 v2
  let v15 : M256 := xorv v15 v3
  let v12 : M256 := rot8 v12
  let v13 : M256 := rot8 v13
  let v14 : M256 := rot8 v14
  let v15 : M256 := rot8 v15
  let v8 : M256 := addv v8 v12
  let v9 : M256 := addv v9 v13
  let v10 : M256 := addv v10 v14
  let v11 : M256 := addv v11 v15
  let v4 : M256 := xorv v4 v8
  let v5 : M256 := xorv v5 v9
  let v6 : M256 := xorv v6 v10
  let v7 : M256 := xorv v7 v11
  let v4 : M256 := rot7 v4
  let v5 : M256 := rot7 v5
  let v6 : M256 := rot7 v6
  let v7 : M256 := rot7 v7
  let v0 : M256 := addv v0 (m.get ((MSG_SCHEDULE.get r).get 8))
  let v1 : M256 := addv v1 (m.get ((MSG_SCHEDULE.get r).get 10))
  let v2 : M256 := addv v2 (m.get ((MSG_SCHEDULE.get r).get 12))
  let v3 : M256 := addv v3 (m.get ((MSG_SCHEDULE.get r).get 14))
  let v0 : M256 := addv v0 v5
  let v1 : M256 := addv v1 v6
  let v2 : M256 := addv v2 v7
  let v3 : M256 := addv v3 v4
  let v15 : M256 := xorv v15 v0
  let v12 : M256 := xorv v12 v1
  let v13 : M256 := xorv v13 v2
  let v14 : M256 := xorv v14 v3
  let v15 : M256 := rot16 v15
  let v12 : M256 := rot16 v12
  let v13 : M256 := rot16 v13
  let v14 : M256 := rot16 v14
  let v10 : M256 := addv v10 v15
  let v11 : M256 := addv v11 v12
  let v8 : M256 := addv v8 v13
  let v9 : M256 := addv v9 v14
  let v5 : M256 := xorv v5 v10
  let v6 : M256 := xorv v6 v11
  let v7 : M256 := xorv v7 v8
  let v4 : M256 := xorv v4 v9
  let v5 : M256 := rot12 v5
  let v6 : M256 := rot12 v6
  let v7 : M256 := rot12 v7
  let v4 : M256 := rot12 v4
  let v0 : M256 := addv v0 (m.get ((MSG_SCHEDULE.get r).get 9))
  let v1 : M256 := addv v1 (m.get ((MSG_SCHEDULE.get r).get 11))
  let v2 : M256 := addv v2 (m.get ((MSG_SCHEDULE.get r).get 13))
  let v3 : M256 := addv v3 (m.get ((MSG_SCHEDULE.get r).get 15))
  let v0 : M256 := addv v0 v5
  let v1 : M256 := addv v1 v6
  let v2 : M256 := addv v2 v7
  let v3 : M256 := addv v3 v4
  let v15 : M256 := xorv v15 v0
  let v12 : M256 := xorv v12 v1
  let v13 : M256 := xorv v13 v2
  let v14 : M256 := xorv v14 v3
  let v15 : M256 := rot8 v15
  let v12 : M256 := rot8 v12
  let v13 : M256 := rot8 v13
  let v14 : M256 := rot8 v14
  let v10 : M256 := addv v10 v15
  let v11 : M256 := addv v11 v12
  let v8 : M256 := addv v8 v13
  let v9 : M256 := addv v9 v14
  let v5 : M256 := xorv v5 v10
  let v6 : M256 := xorv v6 v11
  let v7 : M256 := xorv v7 v8
  let v4 : M256 := xorv v4 v9
  let v5 : M256 := rot7 v5
  let v6 : M256 := rot7 v6
  let v7 : M256 := rot7 v7
  let v4 : M256 := rot7 v4
  #v[v0, v1, v2, v3, v4, v5, v6, v7, v8, v9, v10, v11, v12, v13, v14, v15]

/-- baokeshed_avx2.c:164-196 -/
def transpose_vecs (vecs : Vector M256 8) : Vector M256 8 :=
  let ab_0145 := mm256_unpacklo_epi32 vecs[0] vecs[1]
  let ab_2367 := mm256_unpackhi_epi32 vecs[0] vecs[1]
  let cd_0145 := mm256_unpacklo_epi32 vecs[2] vecs[3]
  let cd_2367 := mm256_unpackhi_epi32 vecs[2] vecs[3]
  let ef_0145 := mm256_unpacklo_epi32 vecs[4] vecs[5]
  let ef_2367 := mm256_unpackhi_epi32 vecs[4] vecs[5]
  let gh_0145 := mm256_unpacklo_epi32 vecs[6] vecs[7]
  let gh_2367 := mm256_unpackhi_epi32 vecs[6] vecs[7]
  let abcd_04 := mm256_unpacklo_epi64 ab_0145 cd_0145
  let abcd_15 := mm256_unpackhi_epi64 ab_0145 cd_0145
  let abcd_26 := mm256_unpacklo_epi64 ab_2367 cd_2367
  let abcd_37 := mm256_unpackhi_epi64 ab_2367 cd_2367
  let efgh_04 := mm256_unpacklo_epi64 ef_0145 gh_0145
  let efgh_15 := mm256_unpackhi_epi64 ef_0145 gh_0145
  let efgh_26 := mm256_unpacklo_epi64 ef_2367 gh_2367
  let efgh_37 := mm256_unpackhi_epi64 ef_2367 gh_2367
  #v[mm256_permute2x128_si256 abcd_04 efgh_04 0x20,
     mm256_permute2x128_si256 abcd_15 efgh_15 0x20,
     mm256_permute2x128_si256 abcd_26 efgh_26 0x20,
     mm256_permute2x128_si256 abcd_37 efgh_37 0x20,
     mm256_permute2x128_si256 abcd_04 efgh_04 0x31,
     mm256_permute2x128_si256 abcd_15 efgh_15 0x31,
     mm256_permute2x128_si256 abcd_26 efgh_26 0x31,
     mm256_permute2x128_si256 abcd_37 efgh_37 0x31]

/-- baokeshed_avx2.c:198-218 -/
def transpose_msg_vecs (inputs : List Bytes) (block_offset : Nat) : R (Vector M256 16) := do
  let out0 ← loadu (← cIndex inputs 0) (block_offset + 0 * 32)
  let out1 ← loadu (← cIndex inputs 1) (block_offset + 0 * 32)
  let out2 ← loadu (← cIndex inputs 2) (block_offset + 0 * 32)
  let out3 ← loadu (← cIndex inputs 3) (block_offset + 0 * 32)
  let out4 ← loadu (← cIndex inputs 4) (block_offset + 0 * 32)
  let out5 ← loadu (← cIndex inputs 5) (block_offset + 0 * 32)
  let out6 ← loadu (← cIndex inputs 6) (block_offset + 0 * 32)
  let out7 ← loadu (← cIndex inputs 7) (block_offset + 0 * 32)
  let out8 ← loadu (← cIndex inputs 0) (block_offset + 1 * 32)
  let out9 ← loadu (← cIndex inputs 1) (block_offset + 1 * 32)
  let out10 ← loadu (← cIndex inputs 2) (block_offset + 1 * 32)
  let out11 ← loadu (← cIndex inputs 3) (block_offset + 1 * 32)
  let out12 ← loadu (← cIndex inputs 4) (block_offset + 1 * 32)
  let out13 ← loadu (← cIndex inputs 5) (block_offset + 1 * 32)
  let out14 ← loadu (← cIndex inputs 6) (block_offset + 1 * 32)
  let out15 ← loadu (← cIndex inputs 7) (block_offset + 1 * 32)
  let sq0 := transpose_vecs #v[out0, out1, out2, out3, out4, out5, out6, out7]
  let sq1 := transpose_vecs #v[out8, out9, out10, out11, out12, out13, out14, out15]
  return sq0 ++ sq1

/-- baokeshed_avx2.c:220-238.  The additions wrap. -/
def load_offsets (offset : U64) (offset_deltas : List U64) : R (M256 × M256) := do
  let d0 ← cIndex offset_deltas 0
  let d1 ← cIndex offset_deltas 1
  let d2 ← cIndex offset_deltas 2
  let d3 ← cIndex offset_deltas 3
  let d4 ← cIndex offset_deltas 4
  let d5 ← cIndex offset_deltas 5
  let d6 ← cIndex offset_deltas 6
  let d7 ← cIndex offset_deltas 7
  let out_low := set8 (offset_low (offset + d0)) (offset_low (offset + d1)) (offset_low (offset + d2)) (offset_low (offset + d3))
      (offset_low (offset + d4)) (offset_low (offset + d5)) (offset_low (offset + d6)) (offset_low (offset + d7))
  let out_high := set8 (offset_high (offset + d0)) (offset_high (offset + d1)) (offset_high (offset + d2)) (offset_high (offset + d3))
      (offset_high (offset + d4)) (offset_high (offset + d5)) (offset_high (offset + d6)) (offset_high (offset + d7))
  return (out_low, out_high)

/-- The loop body of `hash8_avx2` after the message has been loaded, baokeshed_avx2.c:262-282 -/
def hash8_avx2_block (h_vecs : Vector M256 8) (offset_low_vec offset_high_vec block_len_vec
    block_flags_vec : M256) (msg_vecs : Vector M256 16) : Vector M256 8 :=
  let v : Vector M256 16 :=
    #v[h_vecs[0], h_vecs[1], h_vecs[2], h_vecs[3], h_vecs[4], h_vecs[5], h_vecs[6], h_vecs[7],
       set1 IV[0], set1 IV[1], set1 IV[2], set1 IV[3],
       offset_low_vec, offset_high_vec, block_len_vec, block_flags_vec]
  let v := round_fn v msg_vecs 0
  let v := round_fn v msg_vecs 1
  let v := round_fn v msg_vecs 2
  let v := round_fn v msg_vecs 3
  let v := round_fn v msg_vecs 4
  let v := round_fn v msg_vecs 5
  let v := round_fn v msg_vecs 6
  #v[xorv v[0] v[8], xorv v[1] v[9], xorv v[2] v[10], xorv v[3] v[11],
     xorv v[4] v[12], xorv v[5] v[13], xorv v[6] v[14], xorv v[7] v[15]]

/-- The loop of `hash8_avx2`, baokeshed_avx2.c:253-285; `n` iterations remain. -/
def hash8_avx2_loop (inputs : List Bytes) (blocks : Nat) (offset_low_vec offset_high_vec : M256)
    (flags flags_end : Byte) : (n block : Nat) → (h_vecs : Vector M256 8) → (block_flags : Byte) →
    R (Vector M256 8)
  | 0, _, h_vecs, _ => .ok h_vecs
  | n + 1, block, h_vecs, block_flags => do
    let block_flags := if block + 1 = blocks then block_flags ||| flags_end else block_flags
    let block_len_vec := set1 (BitVec.ofNat 32 BLOCK_LEN)
    let block_flags_vec := set1 (block_flags.setWidth 32)
    let msg_vecs ← transpose_msg_vecs inputs (block * BLOCK_LEN)
    let h_vecs := hash8_avx2_block h_vecs offset_low_vec offset_high_vec block_len_vec block_flags_vec msg_vecs
    hash8_avx2_loop inputs blocks offset_low_vec offset_high_vec flags flags_end n (block + 1) h_vecs flags

/-- The end of `hash8_avx2`, baokeshed_avx2.c:287-295: `out` is the memory behind the pointer, the result its
new contents. -/
def hash8_avx2_store (h_vecs : Vector M256 8) (out : Bytes) : R Bytes := do
  let h_vecs := transpose_vecs h_vecs
  let out ← storeu h_vecs[0] out (0 * 32)
  let out ← storeu h_vecs[1] out (1 * 32)
  let out ← storeu h_vecs[2] out (2 * 32)
  let out ← storeu h_vecs[3] out (3 * 32)
  let out ← storeu h_vecs[4] out (4 * 32)
  let out ← storeu h_vecs[5] out (5 * 32)
  let out ← storeu h_vecs[6] out (6 * 32)
  let out ← storeu h_vecs[7] out (7 * 32)
  return out

/-- baokeshed_avx2.c:240-296 -/
def hash8_avx2 (inputs : List Bytes) (blocks : Nat) (key_words : Vector Word 8) (offset : U64)
    (offset_deltas : List U64) (flags flags_start flags_end : Byte) (out : Bytes) : R Bytes := do
  let h_vecs : Vector M256 8 :=
    #v[set1 key_words[0], set1 key_words[1], set1 key_words[2], set1 key_words[3],
       set1 key_words[4], set1 key_words[5], set1 key_words[6], set1 key_words[7]]
  let (offset_low_vec, offset_high_vec) ← load_offsets offset offset_deltas
  let h_vecs ← hash8_avx2_loop inputs blocks offset_low_vec offset_high_vec flags flags_end blocks 0 h_vecs
    (flags ||| flags_start)
  hash8_avx2_store h_vecs out

/-- The loop of `hash_many_avx2` for batches of 8, baokeshed_avx2.c:302-309, and what follows it -/
def hash_many_avx2_loop (blocks : Nat) (key_words : Vector Word 8) (offset_deltas : List U64) (flags flags_start flags_end : Byte)
    (num_inputs : Nat) (inputs : List Bytes) (offset : U64) (out : Bytes) : R Bytes :=
  if _h : 8 ≤ num_inputs then do
    let out ← hash8_avx2 inputs blocks key_words offset offset_deltas flags flags_start flags_end out
    let inputs ← cAdvance inputs 8
    let offset := offset + (← cIndex offset_deltas 8)
    let rest ← cAdvance out (8 * OUT_LEN)
    let rest ← hash_many_avx2_loop blocks key_words offset_deltas flags flags_start flags_end (num_inputs - 8) inputs offset rest
    return out.take (8 * OUT_LEN) ++ rest
  else C.Sse41.hash_many_sse41 inputs num_inputs blocks key_words offset offset_deltas flags flags_start
    flags_end out
termination_by num_inputs
decreasing_by omega

/-- baokeshed_avx2.c:298-312 -/
def hash_many_avx2 (inputs : List Bytes) (num_inputs blocks : Nat) (key_words : Vector Word 8) (offset : U64)
    (offset_deltas : List U64) (flags flags_start flags_end : Byte) (out : Bytes) : R Bytes :=
  hash_many_avx2_loop blocks key_words offset_deltas flags flags_start flags_end num_inputs inputs offset out

end Baokeshed.Model.C.Avx2
