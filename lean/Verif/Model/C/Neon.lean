import Verif.Model.C.Portable
import Verif.Model.SimdNeon

/-!
# Model of /repo/c/baokeshed_neon.c

Line by line; see `Verif.Model.C.Impl` for the conventions.
`o` is the byte order of the host.  The functions named `..._128` are shared with the AVX-512 file by name only.
-/

namespace Baokeshed.Model.C.Neon
open Baokeshed.Model

/-- The bytes of a `uint32_t[8]` in memory. -/
def _root_.Baokeshed.Model.ByteOrder.words (o : ByteOrder) (ws : Vector Word 8) : Bytes :=
  match o with
  | .little => (memOfWords ws).toList
  | _ => ws.toList.flatMap fun w => [w.extractLsb' 24 8, w.extractLsb' 16 8, w.extractLsb' 8 8, w.extractLsb' 0 8]

/-- baokeshed_neon.c:6-11 -/
def loadu_128 (o : ByteOrder) (src : Bytes) (off : Nat) : R M128 := do
  let x ← loadBytes 16 src off
  return o.vec x

/-- baokeshed_neon.c:13-16 -/
def storeu_128 (o : ByteOrder) (src : M128) (dest : Bytes) (off : Nat) : R Bytes :=
  cStore dest off (regBytes 16 (o.vec src))

/-- baokeshed_neon.c:18-20 -/
def add_128 (a b : M128) : M128 := vaddq_u32 a b

/-- baokeshed_neon.c:22-24 -/
def xor_128 (a b : M128) : M128 := veorq_u32 a b

/-- baokeshed_neon.c:26 -/
def set1_128 (x : Word) : M128 := vld1q_dup_u32 x

/-- baokeshed_neon.c:28-31 -/
def set4 (a b c d : Word) : M128 := vld1q_u32 #v[a, b, c, d]

/-- baokeshed_neon.c:33-35 -/
def rot16_128 (x : M128) : M128 := vorrq_u32 (vshrq_n_u32 x 16) (vshlq_n_u32 x (32 - 16))

/-- baokeshed_neon.c:37-39 -/
def rot12_128 (x : M128) : M128 := vorrq_u32 (vshrq_n_u32 x 12) (vshlq_n_u32 x (32 - 12))

/-- baokeshed_neon.c:41-43 -/
def rot8_128 (x : M128) : M128 := vorrq_u32 (vshrq_n_u32 x 8) (vshlq_n_u32 x (32 - 8))

/-- baokeshed_neon.c:45-47 -/
def rot7_128 (x : M128) : M128 := vorrq_u32 (vshrq_n_u32 x 7) (vshlq_n_u32 x (32 - 7))

/-- baokeshed_neon.c:59-173; the elements `v[i]` of the state array are the variables `vi` -/
def round_fn4 (v m : Vector M128 16) (r : Fin 7) : Vector M128 16 :=
  let v0 : M128 := v.get 0
  let v1 : M128 := v.get 1
  let v2 : M128 := v.get 2
  let v3 : M128 := v.get 3
  let v4 : M128 := v.get 4
  let v5 : M128 := v.get 5
  let v6 : M128 := v.get 6
  let v7 : M128 := v.get 7
  let v8 : M128 := v.get 8
  let v9 : M128 := v.get 9
  let v10 : M128 := v.get 10
  let v11 : M128 := v.get 11
  let v12 : M128 := v.get 12
  let v13 : M128 := v.get 13
  let v14 : M128 := v.get 14
  let v15 : M128 := v.get 15
  let v0 : M128 := add_128 v0 (m.get ((MSG_SCHEDULE.get r).get 0))
  let v1 : M128 := add_128 v1 (m.get ((MSG_SCHEDULE.get r).get 2))
  let v2 : M128 := add_128 v2 (m.get ((MSG_SCHEDULE.get r).get 4))
  let v3 : M128 := add_128 v3 (m.get ((MSG_SCHEDULE.get r).get 6))
  let v0 : M128 := add_128 v0 v4
  let v1 : M128 := add_128 v1 v5
  let v2 : M128 := add_128 v2 v6
  let v3 : M128 := add_128 v3 v7
  let v12 : M128 := xor_128 v12 v0
  let v13 : M128 := xor_128 v13 v1
  let v14 : M128 := xor_128 v14 v2
  let v15 : M128 := xor_128 v15 v3
  let v12 : M128 := rot16_128 v12
  let v13 : M128 := rot16_128 v13
  let v14 : M128 := rot16_128 v14
  let v15 : M128 := rot16_128 v15
  let v8 : M128 := add_128 v8 v12
  let v9 : M128 := add_128 v9 v13
  let v10 : M128 := add_128 v10 v14
  let v11 : M128 := add_128 v11 v15
  let v4 : M128 := xor_128 v4 v8
  let v5 : M128 := xor_128 v5 v9
  let v6 : M128 := xor_128 v6 v10
  let v7 : M128 := xor_128 v7 v11
  let v4 : M128 := rot12_128 v4
  let v5 : M128 := rot12_128 v5
  let v6 : M128 := rot12_128 v6
  let v7 : M128 := rot12_128 v7
  let v0 : M128 := add_128 v0 (m.get ((MSG_SCHEDULE.get r).get 1))
  let v1 : M128 := add_128 v1 (m.get ((MSG_SCHEDULE.get r).get 3))
  let v2 : M128 := add_128 v2 (m.get ((MSG_SCHEDULE.get r).get 5))
  let v3 : M128 := add_128 v3 (m.get ((MSG_SCHEDULE.get r).get 7))
  let v0 : M128 := add_128 v0 v4
  let v1 : M128 := add_128 v1 v5
  let v2 : M128 := add_128 v2 v6
  let v3 : M128 := add_128 v3 v7
  let v12 : M128 := xor_128 v12 v0
  let v13 : M128 := xor_128 v13 v1
  let v14 : M128 := xor_128 v14 v2
  let v15 : M128 := xor_128 v15 v3
  let v12 : M128 := rot8_128 v12
  let v13 : M128 := rot8_128 v13
  let v14 : M128 := rot8_128 v14
  let v15 : M128 := rot8_128 v15
  let v8 : M128 := add_128 v8 v12
  let v9 : M128 := add_128 v9 v13
  let v10 : M128 := add_128 v10 v14
  let v11 : M128 := add_128 v11 v15
  let v4 : M128 := xor_128 v4 v8
  let v5 : M128 := xor_128 v5 v9
  let v6 : M128 := xor_128 v6 v10
  let v7 : M128 := xor_128 v7 v11
  let v4 : M128 := rot7_128 v4
  let v5 : M128 := rot7_128 v5
  let v6 : M128 := rot7_128 v6
  let v7 : M128 := rot7_128 v7
  let v0 : M128 := add_128 v0 (m.get ((MSG_SCHEDULE.get r).get 8))
  let v1 : M128 := add_128 v1 (m.get ((MSG_SCHEDULE.get r).get 10))
  let v2 : M128 := add_128 v2 (m.get ((MSG_SCHEDULE.get r).get 12))
  let v3 : M128 := add_128 v3 (m.get ((MSG_SCHEDULE.get r).get 14))
  let v0 : M128 := add_128 v0 v5
  let v1 : M128 := add_128 v1 v6
  let v2 : M128 := add_128 v2 v7
  let v3 : M128 := add_128 v3 v4
  let v15 : M128 := xor_128 v15 v0
  let v12 : M128 := xor_128 v12 v1
  let v13 : M128 := xor_128 v13 v2
  let v14 : M128 := xor_128 v14 v3
  let v15 : M128 := rot16_128 v15
  let v12 : M128 := rot16_128 v12
  let v13 : M128 := rot16_128 v13
  let v14 : M128 := rot16_128 v14
  let v10 : M128 := add_128 v10 v15
  let v11 : M128 := add_128 v11 v12
  let v8 : M128 := add_128 v8 v13
  let v9 : M128 := add_128 v9 v14
  let v5 : M128 := xor_128 v5 v10
  let v6 : M128 := xor_128 v6 v11
  let v7 : M128 := xor_128 v7 v8
  let v4 : M128 := xor_128 v4 v9
  let v5 : M128 := rot12_128 v5
  let v6 : M128 := rot12_128 v6
  let v7 : M128 := rot12_128 v7
  let v4 : M128 := rot12_128 v4
  let v0 : M128 := add_128 v0 (m.get ((MSG_SCHEDULE.get r).get 9))
  let v1 : M128 := add_128 v1 (m.get ((MSG_SCHEDULE.get r).get 11))
  let v2 : M128 := add_128 v2 (m.get ((MSG_SCHEDULE.get r).get 13))
  let v3 : M128 := add_128 v3 (m.get ((MSG_SCHEDULE.get r).get 15))
  let v0 : M128 := add_128 v0 v5
  let v1 : M128 := add_128 v1 v6
  let v2 : M128 := add_128 v2 v7
  let v3 : M128 := add_128 v3 v4
  let v15 : M128 := xor_128 v15 v0
  let v12 : M128 := xor_128 v12 v1
  let v13 : M128 := xor_128 v13 v2
  let v14 : M128 := xor_128 v14 v3
  let v15 : M128 := rot8_128 v15
  let v12 : M128 := rot8_128 v12
  let v13 : M128 := rot8_128 v13
  let v14 : M128 := rot8_128 v14
  let v10 : M128 := add_128 v10 v15
  let v11 : M128 := add_128 v11 v12
  let v8 : M128 := add_128 v8 v13
  let v9 : M128 := add_128 v9 v14
  let v5 : M128 := xor_128 v5 v10
  let v6 : M128 := xor_128 v6 v11
  let v7 : M128 := xor_128 v7 v8
  let v4 : M128 := xor_128 v4 v9
  let v5 : M128 := rot7_128 v5
  let v6 : M128 := rot7_128 v6
  let v7 : M128 := rot7_128 v7
  let v4 : M128 := rot7_128 v4
  #v[v0, v1, v2, v3, v4, v5, v6, v7, v8, v9, v10, v11, v12, v13, v14, v15]

/-- baokeshed_neon.c:175-189 -/
def transpose_vecs_128 (vecs : Vector M128 4) : Vector M128 4 :=
  let rows01_0 := vtrnq_u32_val0 vecs[0] vecs[1]
  let rows01_1 := vtrnq_u32_val1 vecs[0] vecs[1]
  let rows23_0 := vtrnq_u32_val0 vecs[2] vecs[3]
  let rows23_1 := vtrnq_u32_val1 vecs[2] vecs[3]
  #v[vcombine_u32 (vget_low_u32 rows01_0) (vget_low_u32 rows23_0),
     vcombine_u32 (vget_low_u32 rows01_1) (vget_low_u32 rows23_1),
     vcombine_u32 (vget_high_u32 rows01_0) (vget_high_u32 rows23_0),
     vcombine_u32 (vget_high_u32 rows01_1) (vget_high_u32 rows23_1)]

/-- baokeshed_neon.c:191-213 -/
def transpose_msg_vecs4 (o : ByteOrder) (inputs : List Bytes) (block_offset : Nat) : R (Vector M128 16) := do
  let out0 ← loadu_128 o (← cIndex inputs 0) (block_offset + 0 * 16)
  let out1 ← loadu_128 o (← cIndex inputs 1) (block_offset + 0 * 16)
  let out2 ← loadu_128 o (← cIndex inputs 2) (block_offset + 0 * 16)
  let out3 ← loadu_128 o (← cIndex inputs 3) (block_offset + 0 * 16)
  let out4 ← loadu_128 o (← cIndex inputs 0) (block_offset + 1 * 16)
  let out5 ← loadu_128 o (← cIndex inputs 1) (block_offset + 1 * 16)
  let out6 ← loadu_128 o (← cIndex inputs 2) (block_offset + 1 * 16)
  let out7 ← loadu_128 o (← cIndex inputs 3) (block_offset + 1 * 16)
  let out8 ← loadu_128 o (← cIndex inputs 0) (block_offset + 2 * 16)
  let out9 ← loadu_128 o (← cIndex inputs 1) (block_offset + 2 * 16)
  let out10 ← loadu_128 o (← cIndex inputs 2) (block_offset + 2 * 16)
  let out11 ← loadu_128 o (← cIndex inputs 3) (block_offset + 2 * 16)
  let out12 ← loadu_128 o (← cIndex inputs 0) (block_offset + 3 * 16)
  let out13 ← loadu_128 o (← cIndex inputs 1) (block_offset + 3 * 16)
  let out14 ← loadu_128 o (← cIndex inputs 2) (block_offset + 3 * 16)
  let out15 ← loadu_128 o (← cIndex inputs 3) (block_offset + 3 * 16)
  let sq0 := transpose_vecs_128 #v[out0, out1, out2, out3]
  let sq1 := transpose_vecs_128 #v[out4, out5, out6, out7]
  let sq2 := transpose_vecs_128 #v[out8, out9, out10, out11]
  let sq3 := transpose_vecs_128 #v[out12, out13, out14, out15]
  return sq0 ++ sq1 ++ sq2 ++ sq3

/-- baokeshed_neon.c:215-223.  The additions wrap. -/
def load_offsets4 (offset : U64) (deltas : List U64) : R (M128 × M128) := do
  let d0 ← cIndex deltas 0
  let d1 ← cIndex deltas 1
  let d2 ← cIndex deltas 2
  let d3 ← cIndex deltas 3
  let out_low := set4 (offset_low (offset + d0)) (offset_low (offset + d1)) (offset_low (offset + d2)) (offset_low (offset + d3))
  let out_high := set4 (offset_high (offset + d0)) (offset_high (offset + d1)) (offset_high (offset + d2)) (offset_high (offset + d3))
  return (out_low, out_high)

/-- The loop body of `hash4_neon` after the message has been loaded, baokeshed_neon.c:247-267 -/
def hash4_neon_block (h_vecs : Vector M128 8) (offset_low_vec offset_high_vec block_len_vec
    block_flags_vec : M128) (msg_vecs : Vector M128 16) : Vector M128 8 :=
  let v : Vector M128 16 :=
    #v[h_vecs[0], h_vecs[1], h_vecs[2], h_vecs[3], h_vecs[4], h_vecs[5], h_vecs[6], h_vecs[7],
       set1_128 IV[0], set1_128 IV[1], set1_128 IV[2], set1_128 IV[3],
       offset_low_vec, offset_high_vec, block_len_vec, block_flags_vec]
  let v := round_fn4 v msg_vecs 0
  let v := round_fn4 v msg_vecs 1
  let v := round_fn4 v msg_vecs 2
  let v := round_fn4 v msg_vecs 3
  let v := round_fn4 v msg_vecs 4
  let v := round_fn4 v msg_vecs 5
  let v := round_fn4 v msg_vecs 6
  #v[xor_128 v[0] v[8], xor_128 v[1] v[9], xor_128 v[2] v[10], xor_128 v[3] v[11],
     xor_128 v[4] v[12], xor_128 v[5] v[13], xor_128 v[6] v[14], xor_128 v[7] v[15]]

/-- The loop of `hash4_neon`, baokeshed_neon.c:238-270; `n` iterations remain. -/
def hash4_neon_loop (o : ByteOrder) (inputs : List Bytes) (blocks : Nat) (offset_low_vec offset_high_vec : M128)
    (flags flags_end : Byte) : (n block : Nat) → (h_vecs : Vector M128 8) → (block_flags : Byte) →
    R (Vector M128 8)
  | 0, _, h_vecs, _ => .ok h_vecs
  | n + 1, block, h_vecs, block_flags => do
    let block_flags := if block + 1 = blocks then block_flags ||| flags_end else block_flags
    let block_len_vec := set1_128 (BitVec.ofNat 32 BLOCK_LEN)
    let block_flags_vec := set1_128 (block_flags.setWidth 32)
    let msg_vecs ← transpose_msg_vecs4 o inputs (block * BLOCK_LEN)
    let h_vecs := hash4_neon_block h_vecs offset_low_vec offset_high_vec block_len_vec block_flags_vec msg_vecs
    hash4_neon_loop o inputs blocks offset_low_vec offset_high_vec flags flags_end n (block + 1) h_vecs flags

/-- The end of `hash4_neon`, baokeshed_neon.c:272-283: `out` is the memory behind the pointer, the result its
new contents. -/
def hash4_neon_store (o : ByteOrder) (h_vecs : Vector M128 8) (out : Bytes) : R Bytes := do
  let sq0 := transpose_vecs_128 #v[h_vecs[0], h_vecs[1], h_vecs[2], h_vecs[3]]
  let sq1 := transpose_vecs_128 #v[h_vecs[4], h_vecs[5], h_vecs[6], h_vecs[7]]
  let out ← storeu_128 o sq0[0] out (0 * 16)
  let out ← storeu_128 o sq1[0] out (1 * 16)
  let out ← storeu_128 o sq0[1] out (2 * 16)
  let out ← storeu_128 o sq1[1] out (3 * 16)
  let out ← storeu_128 o sq0[2] out (4 * 16)
  let out ← storeu_128 o sq1[2] out (5 * 16)
  let out ← storeu_128 o sq0[3] out (6 * 16)
  let out ← storeu_128 o sq1[3] out (7 * 16)
  return out

/-- baokeshed_neon.c:225-284 -/
def hash4_neon (o : ByteOrder) (inputs : List Bytes) (blocks : Nat) (key_words : Vector Word 8) (offset : U64)
    (offset_deltas : List U64) (flags flags_start flags_end : Byte) (out : Bytes) : R Bytes := do
  let h_vecs : Vector M128 8 :=
    #v[set1_128 key_words[0], set1_128 key_words[1], set1_128 key_words[2], set1_128 key_words[3],
       set1_128 key_words[4], set1_128 key_words[5], set1_128 key_words[6], set1_128 key_words[7]]
  let (offset_low_vec, offset_high_vec) ← load_offsets4 offset offset_deltas
  let h_vecs ← hash4_neon_loop o inputs blocks offset_low_vec offset_high_vec flags flags_end blocks 0 h_vecs
    (flags ||| flags_start)
  hash4_neon_store o h_vecs out

/-- The loop of `hash_one_neon`, baokeshed_neon.c:299-308 -/
def hash_one_neon_loop (flags flags_end : Byte) (offset : U64) : (blocks : Nat) → (state : Vector Word 8) →
    (input : Bytes) → (block_flags : Byte) → R (Vector Word 8)
  | 0, state, _, _ => .ok state
  | blocks + 1, state, input, block_flags => do
    let block_flags := if blocks + 1 = 1 then block_flags ||| flags_end else block_flags
    let state ← C.Portable.compress_portable state input (BitVec.ofNat 8 BLOCK_LEN) offset block_flags
    let input ← cAdvance input BLOCK_LEN
    hash_one_neon_loop flags flags_end offset blocks state input flags

/-- baokeshed_neon.c:292-310 -/
def hash_one_neon (o : ByteOrder) (input : Bytes) (blocks : Nat) (key_words : Vector Word 8) (offset : U64)
    (flags flags_start flags_end : Byte) (out : Bytes) : R Bytes := do
  let state ← hash_one_neon_loop flags flags_end offset blocks key_words input (flags ||| flags_start)
  cStore out 0 (o.words state)

/-- The last loop of `hash_many_neon`, baokeshed_neon.c:324-331 -/
def hash_many_neon_loop1 (o : ByteOrder) (blocks : Nat) (key_words : Vector Word 8) (offset_deltas : List U64) (flags flags_start flags_end : Byte) :
    (num_inputs : Nat) → (inputs : List Bytes) → (offset : U64) → (out : Bytes) → R Bytes
  | 0, _, _, out => .ok out
  | num_inputs + 1, inputs, offset, out => do
    let out ← hash_one_neon o (← cIndex inputs 0) blocks key_words offset flags flags_start flags_end out
    let inputs ← cAdvance inputs 1
    let offset := offset + (← cIndex offset_deltas 1)
    let rest ← cAdvance out OUT_LEN
    let rest ← hash_many_neon_loop1 o blocks key_words offset_deltas flags flags_start flags_end num_inputs inputs offset rest
    return out.take OUT_LEN ++ rest

/-- The loop of `hash_many_neon` for batches of 4, baokeshed_neon.c:316-323, and what follows it -/
def hash_many_neon_loop4 (o : ByteOrder) (blocks : Nat) (key_words : Vector Word 8) (offset_deltas : List U64) (flags flags_start flags_end : Byte)
    (num_inputs : Nat) (inputs : List Bytes) (offset : U64) (out : Bytes) : R Bytes :=
  if _h : 4 ≤ num_inputs then do
    let out ← hash4_neon o inputs blocks key_words offset offset_deltas flags flags_start flags_end out
    let inputs ← cAdvance inputs 4
    let offset := offset + (← cIndex offset_deltas 4)
    let rest ← cAdvance out (4 * OUT_LEN)
    let rest ← hash_many_neon_loop4 o blocks key_words offset_deltas flags flags_start flags_end (num_inputs - 4) inputs offset rest
    return out.take (4 * OUT_LEN) ++ rest
  else hash_many_neon_loop1 o blocks key_words offset_deltas flags flags_start flags_end num_inputs inputs offset out
termination_by num_inputs
decreasing_by omega

/-- baokeshed_neon.c:312-332 -/
def hash_many_neon (o : ByteOrder) (inputs : List Bytes) (num_inputs blocks : Nat) (key_words : Vector Word 8) (offset : U64)
    (offset_deltas : List U64) (flags flags_start flags_end : Byte) (out : Bytes) : R Bytes :=
  hash_many_neon_loop4 o blocks key_words offset_deltas flags flags_start flags_end num_inputs inputs offset out

end Baokeshed.Model.C.Neon
