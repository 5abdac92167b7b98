import Verif.Model.Sse41

/-!
# Model of /repo/src/avx2.rs

The same conventions as Model/Sse41.lean.
-/

namespace Baokeshed.Model
namespace Avx2

/-- avx2.rs:9 -/
abbrev DEGREE : Nat := 8

/-- avx2.rs:12-15 -/
def loadu (src : Bytes) (off : Nat) : R M256 := mm256_loadu_si256 src off
/-- avx2.rs:24-26 -/
def add (a b : M256) : M256 := mm256_add_epi32 a b
/-- avx2.rs:29-31 -/
def xor (a b : M256) : M256 := mm256_xor_si256 a b
/-- avx2.rs:34-36 -/
def set1 (x : Word) : M256 := mm256_set1_epi32 x
/-- avx2.rs:39-43 -/
def set8 (a b c d e f g h : Word) : M256 := mm256_setr_epi32 a b c d e f g h
/-- avx2.rs:46-54 -/
def rot16 (x : M256) : M256 :=
  mm256_shuffle_epi8 x (mm256_set_epi8
    #v[13, 12, 15, 14, 9, 8, 11, 10, 5, 4, 7, 6, 1, 0, 3, 2, 13, 12, 15, 14, 9, 8, 11, 10, 5,
       4, 7, 6, 1, 0, 3, 2])
/-- avx2.rs:57-59 -/
def rot12 (x : M256) : M256 := mm256_or_si256 (mm256_srli_epi32 x 12) (mm256_slli_epi32 x 20)
/-- avx2.rs:62-70 -/
def rot8 (x : M256) : M256 :=
  mm256_shuffle_epi8 x (mm256_set_epi8
    #v[12, 15, 14, 13, 8, 11, 10, 9, 4, 7, 6, 5, 0, 3, 2, 1, 12, 15, 14, 13, 8, 11, 10, 9, 4,
       7, 6, 5, 0, 3, 2, 1])
/-- avx2.rs:73-75 -/
def rot7 (x : M256) : M256 := mm256_or_si256 (mm256_srli_epi32 x 7) (mm256_slli_epi32 x 25)

/-- avx2.rs:78-192; the elements `v[i]` of the state array are the variables `vi` -/
def round (v m : Vector M256 16) (r : Fin 7) : Vector M256 16 :=
  let v0 : M256 := v.get 0
  let v1 : M256 := v.get 1
  let v2 : M256 := v.get 2
  let v3 : M256 := v.get 3
  let v4 : M256 := v.get 4
  let v5 : M256 := v.get 5
  let v6 : M256 := v.get 6
  let v7 : M256 := v.get 7
  let v8 : M256 := v.get 8
  let v9 : M256 := v.get 9
  let v10 : M256 := v.get 10
  let v11 : M256 := v.get 11
  let v12 : M256 := v.get 12
  let v13 : M256 := v.get 13
  let v14 : M256 := v.get 14
  let v15 : M256 := v.get 15
  let v0 : M256 := add v0 (m.get ((MSG_SCHEDULE.get r).get 0))
  let v1 : M256 := add v1 (m.get ((MSG_SCHEDULE.get r).get 2))
  let v2 : M256 := add v2 (m.get ((MSG_SCHEDULE.get r).get 4))
  let v3 : M256 := add v3 (m.get ((MSG_SCHEDULE.get r).get 6))
  let v0 : M256 := add v0 v4
  let v1 : M256 := add v1 v5
  let v2 : M256 := add v2 v6
  let v3 : M256 := add v3 v7
  let v12 : M256 := xor v12 v0
  let v13 : M256 := xor v13 v1
  let v14 : M256 := xor v14 v2
  let v15 : M256 := xor v15 v3
  let v12 : M256 := rot16 v12
  let v13 : M256 := rot16 v13
  let v14 : M256 := rot16 v14
  let v15 : M256 := rot16 v15
  let v8 : M256 := add v8 v12
  let v9 : M256 := add v9 v13
  let v10 : M256 := add v10 v14
  let v11 : M256 := add v11 v15
  let v4 : M256 := xor v4 v8
  let v5 : M256 := xor v5 v9
  let v6 : M256 := xor v6 v10
  let v7 : M256 := xor v7 v11
  let v4 : M256 := rot12 v4
  let v5 : M256 := rot12 v5
  let v6 : M256 := rot12 v6
  let v7 : M256 := rot12 v7
  let v0 : M256 := add v0 (m.get ((MSG_SCHEDULE.get r).get 1))
  let v1 : M256 := add v1 (m.get ((MSG_SCHEDULE.get r).get 3))
  let v2 : M256 := add v2 (m.get ((MSG_SCHEDULE.get r).get 5))
  let v3 : M256 := add v3 (m.get ((MSG_SCHEDULE.get r).get 7))
  let v0 : M256 := add v0 v4
  let v1 : M256 := add v1 v5
  let v2 : M256 := add v2 v6
  let v3 : M256 := add v3 v7
  let v12 : M256 := xor v12 v0
  let v13 : M256 := xor v13 v1
  let v14 : M256 := xor v14 v2
  let v15 : M256 := xor v15 v3
  let v12 : M256 := rot8 v12
  let v13 : M256 := rot8 v13
  let v14 : M256 := rot8 v14
  let v15 : M256 := rot8 v15
  let v8 : M256 := add v8 v12
  let v9 : M256 := add v9 v13
  let v10 : M256 := add v10 v14
  let v11 : M256 := add v11 v15
  let v4 : M256 := xor v4 v8
  let v5 : M256 := xor v5 v9
  let v6 : M256 := xor v6 v10
  let v7 : M256 := xor v7 v11
  let v4 : M256 := rot7 v4
  let v5 : M256 := rot7 v5
  let v6 : M256 := rot7 v6
  let v7 : M256 := rot7 v7
  let v0 : M256 := add v0 (m.get ((MSG_SCHEDULE.get r).get 8))
  let v1 : M256 := add v1 (m.get ((MSG_SCHEDULE.get r).get 10))
  let v2 : M256 := add v2 (m.get ((MSG_SCHEDULE.get r).get 12))
  let v3 : M256 := add v3 (m.get ((MSG_SCHEDULE.get r).get 14))
  let v0 : M256 := add v0 v5
  let v1 : M256 := add v1 v6
  let v2 : M256 := add v2 v7
  let v3 : M256 := add v3 v4
  let v15 : M256 := xor v15 v0
  let v12 : M256 := xor v12 v1
  let v13 : M256 := xor v13 v2
  let v14 : M256 := xor v14 v3
  let v15 : M256 := rot16 v15
  let v12 : M256 := rot16 v12
  let v13 : M256 := rot16 v13
  let v14 : M256 := rot16 v14
  let v10 : M256 := add v10 v15
  let v11 : M256 := add v11 v12
  let v8 : M256 := add v8 v13
  let v9 : M256 := add v9 v14
  let v5 : M256 := xor v5 v10
  let v6 : M256 := xor v6 v11
  let v7 : M256 := xor v7 v8
  let v4 : M256 := xor v4 v9
  let v5 : M256 := rot12 v5
  let v6 : M256 := rot12 v6
  let v7 : M256 := rot12 v7
  let v4 : M256 := rot12 v4
  let v0 : M256 := add v0 (m.get ((MSG_SCHEDULE.get r).get 9))
  let v1 : M256 := add v1 (m.get ((MSG_SCHEDULE.get r).get 11))
  let v2 : M256 := add v2 (m.get ((MSG_SCHEDULE.get r).get 13))
  let v3 : M256 := add v3 (m.get ((MSG_SCHEDULE.get r).get 15))
  let v0 : M256 := add v0 v5
  let v1 : M256 := add v1 v6
  let v2 : M256 := add v2 v7
  let v3 : M256 := add v3 v4
  let v15 : M256 := xor v15 v0
  let v12 : M256 := xor v12 v1
  let v13 : M256 := xor v13 v2
  let v14 : M256 := xor v14 v3
  let v15 : M256 := rot8 v15
  let v12 : M256 := rot8 v12
  let v13 : M256 := rot8 v13
  let v14 : M256 := rot8 v14
  let v10 : M256 := add v10 v15
  let v11 : M256 := add v11 v12
  let v8 : M256 := add v8 v13
  let v9 : M256 := add v9 v14
  let v5 : M256 := xor v5 v10
  let v6 : M256 := xor v6 v11
  let v7 : M256 := xor v7 v8
  let v4 : M256 := xor v4 v9
  let v5 : M256 := rot7 v5
  let v6 : M256 := rot7 v6
  let v7 : M256 := rot7 v7
  let v4 : M256 := rot7 v4
  #v[v0, v1, v2, v3, v4, v5, v6, v7, v8, v9, v10, v11, v12, v13, v14, v15]

/-- avx2.rs:195-200 -/
def interleave128 (a b : M256) : M256 × M256 :=
  (mm256_permute2x128_si256 a b 0x20, mm256_permute2x128_si256 a b 0x31)

/-- avx2.rs:209-244 -/
def transpose_vecs (vecs : Vector M256 DEGREE) : Vector M256 DEGREE :=
  -- Interleave 32-bit lanes. The low unpack is lanes 00/11/44/55, and the high is 22/33/66/77.
  let ab_0145 := mm256_unpacklo_epi32 vecs[0] vecs[1]
  let ab_2367 := mm256_unpackhi_epi32 vecs[0] vecs[1]
  let cd_0145 := mm256_unpacklo_epi32 vecs[2] vecs[3]
  let cd_2367 := mm256_unpackhi_epi32 vecs[2] vecs[3]
  let ef_0145 := mm256_unpacklo_epi32 vecs[4] vecs[5]
  let ef_2367 := mm256_unpackhi_epi32 vecs[4] vecs[5]
  let gh_0145 := mm256_unpacklo_epi32 vecs[6] vecs[7]
  let gh_2367 := mm256_unpackhi_epi32 vecs[6] vecs[7]
  -- Interleave 64-bit lanes. The low unpack is lanes 00/22 and the high is 11/33.
  let abcd_04 := mm256_unpacklo_epi64 ab_0145 cd_0145
  let abcd_15 := mm256_unpackhi_epi64 ab_0145 cd_0145
  let abcd_26 := mm256_unpacklo_epi64 ab_2367 cd_2367
  let abcd_37 := mm256_unpackhi_epi64 ab_2367 cd_2367
  let efgh_04 := mm256_unpacklo_epi64 ef_0145 gh_0145
  let efgh_15 := mm256_unpackhi_epi64 ef_0145 gh_0145
  let efgh_26 := mm256_unpacklo_epi64 ef_2367 gh_2367
  let efgh_37 := mm256_unpackhi_epi64 ef_2367 gh_2367
  -- Interleave 128-bit lanes.
  let p04 := interleave128 abcd_04 efgh_04
  let p15 := interleave128 abcd_15 efgh_15
  let p26 := interleave128 abcd_26 efgh_26
  let p37 := interleave128 abcd_37 efgh_37
  #v[p04.1, p15.1, p26.1, p37.1, p04.2, p15.2, p26.2, p37.2]

/-- avx2.rs:247-270 -/
def transpose_msg_vecs (inputs : Vector Bytes DEGREE) (block_offset : Nat) : R (Vector M256 16) := do
  let v0 ← loadu inputs[0] (block_offset + 0 * 4 * DEGREE)
  let v1 ← loadu inputs[1] (block_offset + 0 * 4 * DEGREE)
  let v2 ← loadu inputs[2] (block_offset + 0 * 4 * DEGREE)
  let v3 ← loadu inputs[3] (block_offset + 0 * 4 * DEGREE)
  let v4 ← loadu inputs[4] (block_offset + 0 * 4 * DEGREE)
  let v5 ← loadu inputs[5] (block_offset + 0 * 4 * DEGREE)
  let v6 ← loadu inputs[6] (block_offset + 0 * 4 * DEGREE)
  let v7 ← loadu inputs[7] (block_offset + 0 * 4 * DEGREE)
  let v8 ← loadu inputs[0] (block_offset + 1 * 4 * DEGREE)
  let v9 ← loadu inputs[1] (block_offset + 1 * 4 * DEGREE)
  let v10 ← loadu inputs[2] (block_offset + 1 * 4 * DEGREE)
  let v11 ← loadu inputs[3] (block_offset + 1 * 4 * DEGREE)
  let v12 ← loadu inputs[4] (block_offset + 1 * 4 * DEGREE)
  let v13 ← loadu inputs[5] (block_offset + 1 * 4 * DEGREE)
  let v14 ← loadu inputs[6] (block_offset + 1 * 4 * DEGREE)
  let v15 ← loadu inputs[7] (block_offset + 1 * 4 * DEGREE)
  let squares_0 := transpose_vecs #v[v0, v1, v2, v3, v4, v5, v6, v7]
  let squares_1 := transpose_vecs #v[v8, v9, v10, v11, v12, v13, v14, v15]
  return squares_0 ++ squares_1

/-- avx2.rs:273-296.  The sums are written twice in the source; both copies are the same
expression. -/
def load_offsets (offset offset_delta : U64) : R (M256 × M256) := do
  let o0 ← Sse41.offset_plus offset 0 offset_delta
  let o1 ← Sse41.offset_plus offset 1 offset_delta
  let o2 ← Sse41.offset_plus offset 2 offset_delta
  let o3 ← Sse41.offset_plus offset 3 offset_delta
  let o4 ← Sse41.offset_plus offset 4 offset_delta
  let o5 ← Sse41.offset_plus offset 5 offset_delta
  let o6 ← Sse41.offset_plus offset 6 offset_delta
  let o7 ← Sse41.offset_plus offset 7 offset_delta
  return (set8 (offset_low o0) (offset_low o1) (offset_low o2) (offset_low o3)
      (offset_low o4) (offset_low o5) (offset_low o6) (offset_low o7),
    set8 (offset_high o0) (offset_high o1) (offset_high o2) (offset_high o3)
      (offset_high o4) (offset_high o5) (offset_high o6) (offset_high o7))

/-- The loop body of `hash8` after the message has been loaded, avx2.rs:335-367 -/
def hash8_block (h_vecs : Vector M256 8) (offset_low_vec offset_high_vec block_len_vec
    block_flags_vec : M256) (msg_vecs : Vector M256 16) : Vector M256 8 :=
  let v : Vector M256 16 :=
    #v[h_vecs[0], h_vecs[1], h_vecs[2], h_vecs[3], h_vecs[4], h_vecs[5], h_vecs[6], h_vecs[7],
       set1 IV[0], set1 IV[1], set1 IV[2], set1 IV[3],
       offset_low_vec, offset_high_vec, block_len_vec, block_flags_vec]
  let v := round v msg_vecs 0
  let v := round v msg_vecs 1
  let v := round v msg_vecs 2
  let v := round v msg_vecs 3
  let v := round v msg_vecs 4
  let v := round v msg_vecs 5
  let v := round v msg_vecs 6
  #v[xor v[0] v[8], xor v[1] v[9], xor v[2] v[10], xor v[3] v[11],
     xor v[4] v[12], xor v[5] v[13], xor v[6] v[14], xor v[7] v[15]]

/-- The loop `for block in 0..blocks` of `hash8`, avx2.rs:323-370; `n` iterations remain. -/
def hash8_loop (inputs : Vector Bytes DEGREE) (blocks : Nat) (offset_low_vec offset_high_vec : M256)
    (flags flags_end : Byte) : (n block : Nat) → (h_vecs : Vector M256 8) → (block_flags : Byte) →
    R (Vector M256 8)
  | 0, _, h_vecs, _ => .ok h_vecs
  | n + 1, block, h_vecs, block_flags => do
    let block_flags := if block + 1 = blocks then block_flags ||| flags_end else block_flags
    let block_len_vec := set1 (BitVec.ofNat 32 BLOCK_LEN)
    let block_flags_vec := set1 (block_flags.setWidth 32)
    let msg_vecs ← transpose_msg_vecs inputs (block * BLOCK_LEN)
    let h_vecs := hash8_block h_vecs offset_low_vec offset_high_vec block_len_vec block_flags_vec
      msg_vecs
    hash8_loop inputs blocks offset_low_vec offset_high_vec flags flags_end n (block + 1) h_vecs flags

/-- avx2.rs:299-381.  `out` is the old contents of the output; result is the new contents. -/
def hash8 (inputs : Vector Bytes DEGREE) (blocks : Nat) (key : Vector Word 8)
    (offset offset_delta : U64) (flags flags_start flags_end : Byte) (out : Bytes) : R Bytes := do
  let h_vecs : Vector M256 8 :=
    #v[set1 key[0], set1 key[1], set1 key[2], set1 key[3],
       set1 key[4], set1 key[5], set1 key[6], set1 key[7]]
  let (offset_low_vec, offset_high_vec) ← load_offsets offset offset_delta
  let h_vecs ← hash8_loop inputs blocks offset_low_vec offset_high_vec flags flags_end blocks 0 h_vecs
    (flags ||| flags_start)
  let h_vecs := transpose_vecs h_vecs
  let out ← writeAt out (0 * 4 * DEGREE) (regBytes 32 h_vecs[0])
  let out ← writeAt out (1 * 4 * DEGREE) (regBytes 32 h_vecs[1])
  let out ← writeAt out (2 * 4 * DEGREE) (regBytes 32 h_vecs[2])
  let out ← writeAt out (3 * 4 * DEGREE) (regBytes 32 h_vecs[3])
  let out ← writeAt out (4 * 4 * DEGREE) (regBytes 32 h_vecs[4])
  let out ← writeAt out (5 * 4 * DEGREE) (regBytes 32 h_vecs[5])
  let out ← writeAt out (6 * 4 * DEGREE) (regBytes 32 h_vecs[6])
  let out ← writeAt out (7 * 4 * DEGREE) (regBytes 32 h_vecs[7])
  return out

/-- The `while` loop of `hash_many`, avx2.rs:395-424; `capacity` is `A::CAPACITY`.  The rest goes
to `sse41::hash_many`. -/
def hash_many_loop (capacity : Nat) (key : Vector Word 8) (offset_delta : U64)
    (flags flags_start flags_end : Byte) (inputs : List Bytes) (offset : U64) (out : Bytes) :
    R Bytes :=
  if _h : DEGREE ≤ inputs.length ∧ DEGREE * OUT_LEN ≤ out.length then do
    let input_ptrs ← arrayRef inputs 0 DEGREE
    let blocks := capacity / BLOCK_LEN
    let o ← hash8 input_ptrs blocks key offset offset_delta flags flags_start flags_end
      (out.take (DEGREE * OUT_LEN))
    let offset ← Sse41.offset_plus offset (BitVec.ofNat 64 DEGREE) offset_delta
    let rest ← hash_many_loop capacity key offset_delta flags flags_start flags_end
      (inputs.drop DEGREE) offset (out.drop (DEGREE * OUT_LEN))
    return o ++ rest
  else Sse41.hash_many capacity inputs key offset offset_delta flags flags_start flags_end out
termination_by inputs.length
decreasing_by simp [DEGREE] at *; omega

/-- avx2.rs:384-425 -/
def hash_many (capacity : Nat) (inputs : List Bytes) (key : Vector Word 8) (offset offset_delta : U64)
    (flags flags_start flags_end : Byte) (out : Bytes) : R Bytes := do
  assertR (inputs.length * OUT_LEN ≤ out.length)
  hash_many_loop capacity key offset_delta flags flags_start flags_end inputs offset out

end Avx2
end Baokeshed.Model
