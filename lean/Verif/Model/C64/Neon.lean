import Verif.Model.C64.Portable
import Verif.Model.SimdNeon

/-!
# Model of /repo/c64/baokeshed64_neon.c

Line by line; see `Verif.Model.C.Impl` for the conventions.
`o` is the byte order of the host.
-/

namespace Baokeshed.Model.C64.Neon
open Baokeshed.Model
open Baokeshed.Model.C (cIndex cAdvance cStore)

/-- The bytes of a `uint64_t` in memory. -/
def _root_.Baokeshed.Model.ByteOrder.u64Bytes (o : ByteOrder) (w : U64) : Bytes :=
  match o with
  | .little => regBytes 8 w
  | _ => (regBytes 8 w).reverse

/-- The `uint64_t` that 8 bytes in memory are. -/
def _root_.Baokeshed.Model.ByteOrder.u64OfBytes (o : ByteOrder) (bs : Bytes) : U64 :=
  match o with
  | .little => fromLanes 8 8 fun i => bs.getD i 0
  | _ => fromLanes 8 8 fun i => bs.getD (7 - i) 0

/-- The bytes of a `uint64_t[4]` in memory. -/
def _root_.Baokeshed.Model.ByteOrder.u64s (o : ByteOrder) (ws : Vector U64 4) : Bytes := ws.toList.flatMap o.u64Bytes

/-- baokeshed64_neon.c:6-11 -/
def loadu_128 (o : ByteOrder) (src : Bytes) (off : Nat) : R M128 := do
  let x ← loadBytes 16 src off
  return o.vec x

/-- What `storeu_128` writes, baokeshed64_neon.c:13-16 -/
def vec_bytes (o : ByteOrder) (src : M128) : Bytes := regBytes 16 (o.vec src)

/-- baokeshed64_neon.c:13-16 -/
def storeu_128 (o : ByteOrder) (src : M128) (dest : Bytes) (off : Nat) : R Bytes := cStore dest off (vec_bytes o src)

/-- baokeshed64_neon.c:18-20 -/
def add_128 (a b : M128) : M128 := vaddq_u64 a b

/-- baokeshed64_neon.c:22-24 -/
def xor_128 (a b : M128) : M128 := veorq_u64 a b

/-- baokeshed64_neon.c:26 -/
def set1_128 (x : U64) : M128 := vld1q_dup_u64 x

/-- baokeshed64_neon.c:28-31 -/
def set2 (a b : U64) : M128 := vld1q_u64 #v[a, b]

/-- baokeshed64_neon.c:33-35 -/
def rot32_128 (x : M128) : M128 := vorrq_u64 (vshrq_n_u64 x 32) (vshlq_n_u64 x (64 - 32))

/-- baokeshed64_neon.c:37-39 -/
def rot24_128 (x : M128) : M128 := vorrq_u64 (vshrq_n_u64 x 24) (vshlq_n_u64 x (64 - 24))

/-- baokeshed64_neon.c:41-43 -/
def rot16_128 (x : M128) : M128 := vorrq_u64 (vshrq_n_u64 x 16) (vshlq_n_u64 x (64 - 16))

/-- baokeshed64_neon.c:45-47 -/
def rot63_128 (x : M128) : M128 := vorrq_u64 (vshrq_n_u64 x 63) (vshlq_n_u64 x (64 - 63))

/-- baokeshed64_neon.c:59-173; the elements `v[i]` of the state array are the variables `vi` -/
def round_fn2 (v m : Vector M128 16) (r : Fin 8) : Vector M128 16 :=
  let v0 : M128 := v.get 0
  let v1 : M128 := v.get 1
  let v2 : M128 := v.get 2
  let v3 : M128 := v.get 3
  let v4 : M128 := v.get 4
  let v5 : M128 := v.get 5
  let v6 : M128 := v.get 6
  let v7 : M128 := v.get 7
  let v8 : M128 := v.get 8
  let v9 : M128 := v.get 9
  let v10 : M128 := v.get 10
  let v11 : M128 := v.get 11
  let v12 : M128 := v.get 12
  let v13 : M128 := v.get 13
  let v14 : M128 := v.get 14
  let v15 : M128 := v.get 15
  let v0 : M128 := add_128 v0 (m.get ((MSG_SCHEDULE.get r).get 0))
  let v1 : M128 := add_128 v1 (m.get ((MSG_SCHEDULE.get r).get 2))
  let v2 : M128 := add_128 v2 (m.get ((MSG_SCHEDULE.get r).get 4))
  let v3 : M128 := add_128 v3 (m.get ((MSG_SCHEDULE.get r).get 6))
  let v0 : M128 := add_128 v0 v4
  let v1 : M128 := add_128 v1 v5
  let v2 : M128 := add_128 v2 v6
  let v3 : M128 := add_128 v3 v7
  let v12 : M128 := xor_128 v12 v0
  let v13 : M128 := xor_128 v13 v1
  let v14 : M128 := xor_128 v14 v2
  let v15 : M128 := xor_128 v15 v3
  let v12 : M128 := rot32_128 v12
  let v13 : M128 := rot32_128 v13
  let v14 : M128 := rot32_128 v14
  let v15 : M128 := rot32_128 v15
  let v8 : M128 := add_128 v8 v12
  let v9 : M128 := add_128 v9 v13
  let v10 : M128 := add_128 v10 v14
  let v11 : M128 := add_128 v11 v15
  let v4 : M128 := xor_128 v4 v8
  let v5 : M128 := xor_128 v5 v9
  let v6 : M128 := xor_128 v6 v10
  let v7 : M128 := xor_128 v7 v11
  let v4 : M128 := rot24_128 v4
  let v5 : M128 := rot24_128 v5
  let v6 : M128 := rot24_128 v6
  let v7 : M128 := rot24_128 v7
  let v0 : M128 := add_128 v0 (m.get ((MSG_SCHEDULE.get r).get 1))
  let v1 : M128 := add_128 v1 (m.get ((MSG_SCHEDULE.get r).get 3))
  let v2 : M128 := add_128 v2 (m.get ((MSG_SCHEDULE.get r).get 5))
  let v3 : M128 := add_128 v3 (m.get ((MSG_SCHEDULE.get r).get 7))
  let v0 : M128 := add_128 v0 v4
  let v1 : M128 := add_128 v1 v5
  let v2 : M128 := add_128 v2 v6
  let v3 : M128 := add_128 v3 v7
  let v12 : M128 := xor_128 v12 v0
  let v13 : M128 := xor_128 v13 v1
  let v14 : M128 := xor_128 v14 v2
  let v15 : M128 := xor_128 v15 v3
  let v12 : M128 := rot16_128 v12
  let v13 : M128 := rot16_128 v13
  let v14 : M128 := rot16_128 v14
  let v15 : M128 := rot16_128 v15
  let v8 : M128 := add_128 v8 v12
  let v9 : M128 := add_128 v9 v13
  let v10 : M128 := add_128 v10 v14
  let v11 : M128 := add_128 v11 v15
  let v4 : M128 := xor_128 v4 v8
  let v5 : M128 := xor_128 v5 v9
  let v6 : M128 := xor_128 v6 v10
  let v7 : M128 := xor_128 v7 v11
  let v4 : M128 := rot63_128 v4
  let v5 : M128 := rot63_128 v5
  let v6 : M128 := rot63_128 v6
  let v7 : M128 := rot63_128 v7
  let v0 : M128 := add_128 v0 (m.get ((MSG_SCHEDULE.get r).get 8))
  let v1 : M128 := add_128 v1 (m.get ((MSG_SCHEDULE.get r).get 10))
  let v2 : M128 := add_128 v2 (m.get ((MSG_SCHEDULE.get r).get 12))
  let v3 : M128 := add_128 v3 (m.get ((MSG_SCHEDULE.get r).get 14))
  let v0 : M128 := add_128 v0 v5
  let v1 : M128 := add_128 v1 v6
  let v2 : M128 := add_128 v2 v7
  let v3 : M128 := add_128 v3 v4
  let v15 : M128 := xor_128 v15 v0
  let v12 : M128 := xor_128 v12 v1
  let v13 : M128 := xor_128 v13 v2
  let v14 : M128 := xor_128 v14 v3
  let v15 : M128 := rot32_128 v15
  let v12 : M128 := rot32_128 v12
  let v13 : M128 := rot32_128 v13
  let v14 : M128 := rot32_128 v14
  let v10 : M128 := add_128 v10 v15
  let v11 : M128 := add_128 v11 v12
  let v8 : M128 := add_128 v8 v13
  let v9 : M128 := add_128 v9 v14
  let v5 : M128 := xor_128 v5 v10
  let v6 : M128 := xor_128 v6 v11
  let v7 : M128 := xor_128 v7 v8
  let v4 : M128 := xor_128 v4 v9
  let v5 : M128 := rot24_128 v5
  let v6 : M128 := rot24_128 v6
  let v7 : M128 := rot24_128 v7
  let v4 : M128 := rot24_128 v4
  let v0 : M128 := add_128 v0 (m.get ((MSG_SCHEDULE.get r).get 9))
  let v1 : M128 := add_128 v1 (m.get ((MSG_SCHEDULE.get r).get 11))
  let v2 : M128 := add_128 v2 (m.get ((MSG_SCHEDULE.get r).get 13))
  let v3 : M128 := add_128 v3 (m.get ((MSG_SCHEDULE.get r).get 15))
  let v0 : M128 := add_128 v0 v5
  let v1 : M128 := add_128 v1 v6
  let v2 : M128 := add_128 v2 v7
  let v3 : M128 := add_128 v3 v4
  let v15 : M128 := xor_128 v15 v0
  let v12 : M128 := xor_128 v12 v1
  let v13 : M128 := xor_128 v13 v2
  let v14 : M128 := xor_128 v14 v3
  let v15 : M128 := rot16_128 v15
  let v12 : M128 := rot16_128 v12
  let v13 : M128 := rot16_128 v13
  let v14 : M128 := rot16_128 v14
  let v10 : M128 := add_128 v10 v15
  let v11 : M128 := add_128 v11 v12
  let v8 : M128 := add_128 v8 v13
  let v9 : M128 := add_128 v9 v14
  let v5 : M128 := xor_128 v5 v10
  let v6 : M128 := xor_128 v6 v11
  let v7 : M128 := xor_128 v7 v8
  let v4 : M128 := xor_128 v4 v9
  let v5 : M128 := rot63_128 v5
  let v6 : M128 := rot63_128 v6
  let v7 : M128 := rot63_128 v7
  let v4 : M128 := rot63_128 v4
  #v[v0, v1, v2, v3, v4, v5, v6, v7, v8, v9, v10, v11, v12, v13, v14, v15]

/-- baokeshed64_neon.c:175-182 -/
def transpose_vecs_128 (o : ByteOrder) (vecs : Vector M128 2) : Vector M128 2 :=
  let mem0 := vec_bytes o vecs[0]
  let mem1 := vec_bytes o vecs[1]
  let row0 : Vector U64 2 := #v[o.u64OfBytes (mem0.take 8), o.u64OfBytes (mem0.drop 8)]
  let row1 : Vector U64 2 := #v[o.u64OfBytes (mem1.take 8), o.u64OfBytes (mem1.drop 8)]
  #v[set2 row0[0] row1[0], set2 row0[1] row1[1]]

/-- baokeshed64_neon.c:184-210 -/
def transpose_msg_vecs2 (o : ByteOrder) (inputs : List Bytes) (block_offset : Nat) : R (Vector M128 16) := do
  let out0 ← loadu_128 o (← cIndex inputs 0) (block_offset + 0 * 16)
  let out1 ← loadu_128 o (← cIndex inputs 1) (block_offset + 0 * 16)
  let out2 ← loadu_128 o (← cIndex inputs 0) (block_offset + 1 * 16)
  let out3 ← loadu_128 o (← cIndex inputs 1) (block_offset + 1 * 16)
  let out4 ← loadu_128 o (← cIndex inputs 0) (block_offset + 2 * 16)
  let out5 ← loadu_128 o (← cIndex inputs 1) (block_offset + 2 * 16)
  let out6 ← loadu_128 o (← cIndex inputs 0) (block_offset + 3 * 16)
  let out7 ← loadu_128 o (← cIndex inputs 1) (block_offset + 3 * 16)
  let out8 ← loadu_128 o (← cIndex inputs 0) (block_offset + 4 * 16)
  let out9 ← loadu_128 o (← cIndex inputs 1) (block_offset + 4 * 16)
  let out10 ← loadu_128 o (← cIndex inputs 0) (block_offset + 5 * 16)
  let out11 ← loadu_128 o (← cIndex inputs 1) (block_offset + 5 * 16)
  let out12 ← loadu_128 o (← cIndex inputs 0) (block_offset + 6 * 16)
  let out13 ← loadu_128 o (← cIndex inputs 1) (block_offset + 6 * 16)
  let out14 ← loadu_128 o (← cIndex inputs 0) (block_offset + 7 * 16)
  let out15 ← loadu_128 o (← cIndex inputs 1) (block_offset + 7 * 16)
  let sq0 := transpose_vecs_128 o #v[out0, out1]
  let sq1 := transpose_vecs_128 o #v[out2, out3]
  let sq2 := transpose_vecs_128 o #v[out4, out5]
  let sq3 := transpose_vecs_128 o #v[out6, out7]
  let sq4 := transpose_vecs_128 o #v[out8, out9]
  let sq5 := transpose_vecs_128 o #v[out10, out11]
  let sq6 := transpose_vecs_128 o #v[out12, out13]
  let sq7 := transpose_vecs_128 o #v[out14, out15]
  return sq0 ++ sq1 ++ sq2 ++ sq3 ++ sq4 ++ sq5 ++ sq6 ++ sq7

/-- baokeshed64_neon.c:212-215 -/
def load_offsets2 (offset : U64) (deltas : List U64) : R M128 := do
  return set2 (offset + (← cIndex deltas 0)) (offset + (← cIndex deltas 1))

/-- The loop body of `hash2_neon` after the message has been loaded, baokeshed64_neon.c:241-258 -/
def hash2_neon_block (h_vecs : Vector M128 4) (offset_vec block_len_vec block_flags_vec : M128)
    (msg_vecs : Vector M128 16) : Vector M128 4 :=
  let v : Vector M128 16 :=
    #v[h_vecs[0], h_vecs[1], h_vecs[2], h_vecs[3], set1_128 IV[4], set1_128 IV[5], set1_128 IV[6], set1_128 IV[7],
       set1_128 IV[0], set1_128 IV[1], set1_128 IV[2], set1_128 IV[3], offset_vec, set1_128 IV[5], block_len_vec, block_flags_vec]
  let v := round_fn2 v msg_vecs 0
  let v := round_fn2 v msg_vecs 1
  let v := round_fn2 v msg_vecs 2
  let v := round_fn2 v msg_vecs 3
  let v := round_fn2 v msg_vecs 4
  let v := round_fn2 v msg_vecs 5
  let v := round_fn2 v msg_vecs 6
  let v := round_fn2 v msg_vecs 7
  #v[xor_128 v[0] v[4], xor_128 v[1] v[5], xor_128 v[2] v[6], xor_128 v[3] v[7]]

/-- The loop of `hash2_neon`, baokeshed64_neon.c:232-261; `n` iterations remain. -/
def hash2_neon_loop (o : ByteOrder) (inputs : List Bytes) (blocks : Nat) (offset_vec : M128) (flags flags_end : Byte) :
    (n block : Nat) → (h_vecs : Vector M128 4) → (block_flags : Byte) → R (Vector M128 4)
  | 0, _, h_vecs, _ => .ok h_vecs
  | n + 1, block, h_vecs, block_flags => do
    let block_flags := if block + 1 = blocks then block_flags ||| flags_end else block_flags
    let block_len_vec := set1_128 (BitVec.ofNat 64 BLOCK_LEN)
    let block_flags_vec := set1_128 (block_flags.setWidth 64)
    let msg_vecs ← transpose_msg_vecs2 o inputs (block * BLOCK_LEN)
    let h_vecs := hash2_neon_block h_vecs offset_vec block_len_vec block_flags_vec msg_vecs
    hash2_neon_loop o inputs blocks offset_vec flags flags_end n (block + 1) h_vecs flags

/-- The end of `hash2_neon`, baokeshed64_neon.c:263-270: `out` is the memory behind the pointer, the result its
new contents. -/
def hash2_neon_store (o : ByteOrder) (h_vecs : Vector M128 4) (out : Bytes) : R Bytes := do
  let sq0 := transpose_vecs_128 o #v[h_vecs[0], h_vecs[1]]
  let sq1 := transpose_vecs_128 o #v[h_vecs[2], h_vecs[3]]
  let out ← storeu_128 o sq0[0] out (0 * 16)
  let out ← storeu_128 o sq1[0] out (1 * 16)
  let out ← storeu_128 o sq0[1] out (2 * 16)
  let out ← storeu_128 o sq1[1] out (3 * 16)
  return out

/-- baokeshed64_neon.c:217-271 -/
def hash2_neon (o : ByteOrder) (inputs : List Bytes) (blocks : Nat) (key_words : Vector U64 4) (offset : U64)
    (offset_deltas : List U64) (flags flags_start flags_end : Byte) (out : Bytes) : R Bytes := do
  let h_vecs : Vector M128 4 := #v[set1_128 key_words[0], set1_128 key_words[1], set1_128 key_words[2], set1_128 key_words[3]]
  let offset_vec ← load_offsets2 offset offset_deltas
  let h_vecs ← hash2_neon_loop o inputs blocks offset_vec flags flags_end blocks 0 h_vecs (flags ||| flags_start)
  hash2_neon_store o h_vecs out

/-- The loop of `hash_one_neon`, baokeshed64_neon.c:286-294 -/
def hash_one_neon_loop (flags flags_end : Byte) (offset : U64) : (blocks : Nat) → (state : Vector U64 4) →
    (input : Bytes) → (block_flags : Byte) → R (Vector U64 4)
  | 0, state, _, _ => .ok state
  | blocks + 1, state, input, block_flags => do
    let block_flags := if blocks + 1 = 1 then block_flags ||| flags_end else block_flags
    let state ← Portable.compress_portable state input (BitVec.ofNat 8 BLOCK_LEN) offset block_flags
    let input ← cAdvance input BLOCK_LEN
    hash_one_neon_loop flags flags_end offset blocks state input flags

/-- baokeshed64_neon.c:279-297 -/
def hash_one_neon (o : ByteOrder) (input : Bytes) (blocks : Nat) (key_words : Vector U64 4) (offset : U64)
    (flags flags_start flags_end : Byte) (out : Bytes) : R Bytes := do
  let state ← hash_one_neon_loop flags flags_end offset blocks key_words input (flags ||| flags_start)
  cStore out 0 (o.u64s state)

/-- The last loop of `hash_many_neon`, baokeshed64_neon.c:313-320 -/
def hash_many_neon_loop1 (o : ByteOrder) (blocks : Nat) (key_words : Vector U64 4) (offset_deltas : List U64) (flags flags_start flags_end : Byte) :
    (num_inputs : Nat) → (inputs : List Bytes) → (offset : U64) → (out : Bytes) → R Bytes
  | 0, _, _, out => .ok out
  | num_inputs + 1, inputs, offset, out => do
    let out ← hash_one_neon o (← cIndex inputs 0) blocks key_words offset flags flags_start flags_end out
    let inputs ← cAdvance inputs 1
    let offset := offset + (← cIndex offset_deltas 1)
    let rest ← cAdvance out OUT_LEN
    let rest ← hash_many_neon_loop1 o blocks key_words offset_deltas flags flags_start flags_end num_inputs inputs offset rest
    return out.take OUT_LEN ++ rest

/-- The loop of `hash_many_neon` for batches of 2, baokeshed64_neon.c:305-312, and what follows it -/
def hash_many_neon_loop2 (o : ByteOrder) (blocks : Nat) (key_words : Vector U64 4) (offset_deltas : List U64) (flags flags_start flags_end : Byte)
    (num_inputs : Nat) (inputs : List Bytes) (offset : U64) (out : Bytes) : R Bytes :=
  if _h : 2 ≤ num_inputs then do
    let out ← hash2_neon o inputs blocks key_words offset offset_deltas flags flags_start flags_end out
    let inputs ← cAdvance inputs 2
    let offset := offset + (← cIndex offset_deltas 2)
    let rest ← cAdvance out (2 * OUT_LEN)
    let rest ← hash_many_neon_loop2 o blocks key_words offset_deltas flags flags_start flags_end (num_inputs - 2) inputs offset rest
    return out.take (2 * OUT_LEN) ++ rest
  else hash_many_neon_loop1 o blocks key_words offset_deltas flags flags_start flags_end num_inputs inputs offset out
termination_by num_inputs
decreasing_by omega

/-- baokeshed64_neon.c:299-321 -/
def hash_many_neon (o : ByteOrder) (inputs : List Bytes) (num_inputs blocks : Nat) (key_words : Vector U64 4) (offset : U64)
    (offset_deltas : List U64) (flags flags_start flags_end : Byte) (out : Bytes) : R Bytes :=
  hash_many_neon_loop2 o blocks key_words offset_deltas flags flags_start flags_end num_inputs inputs offset out

end Baokeshed.Model.C64.Neon
