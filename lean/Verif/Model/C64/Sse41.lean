import Verif.Model.C64.Portable

/-!
# Model of /repo/c64/baokeshed64_sse41.c

Line by line; see `Verif.Model.C.Impl` for the conventions.
-/

namespace Baokeshed.Model.C64.Sse41
open Baokeshed.Model
open Baokeshed.Model.C (cIndex cAdvance cStore)

/-- baokeshed64_sse41.c:5 -/
abbrev DEGREE : Nat := 2

/-- baokeshed64_sse41.c:7-9 -/
def loadu (src : Bytes) (off : Nat) : R M128 := mm_loadu_si128 src off

/-- baokeshed64_sse41.c:11-13 -/
def storeu (src : M128) (dest : Bytes) (off : Nat) : R Bytes := cStore dest off (regBytes 16 src)

/-- baokeshed64_sse41.c:15 -/
def addv (a b : M128) : M128 := mm_add_epi64 a b

/-- baokeshed64_sse41.c:18 -/
def xorv (a b : M128) : M128 := mm_xor_si128 a b

/-- baokeshed64_sse41.c:20 -/
def set1 (x : U64) : M128 := mm_set1_epi64x x

/-- baokeshed64_sse41.c:22-25 -/
def set2 (a b : U64) : M128 := mm_set_epi64x b a

/-- baokeshed64_sse41.c:27-29 -/
def rot32 (x : M128) : M128 := mm_shuffle_epi32 x (MM_SHUFFLE 2 3 0 1)

/-- baokeshed64_sse41.c:31-34 -/
def rot24 (x : M128) : M128 :=
  mm_shuffle_epi8 x (mm_setr_epi8 #v[3, 4, 5, 6, 7, 0, 1, 2, 11, 12, 13, 14, 15, 8, 9, 10])

/-- baokeshed64_sse41.c:36-39 -/
def rot16 (x : M128) : M128 :=
  mm_shuffle_epi8 x (mm_setr_epi8 #v[2, 3, 4, 5, 6, 7, 0, 1, 10, 11, 12, 13, 14, 15, 8, 9])

/-- baokeshed64_sse41.c:41-43 -/
def rot63 (x : M128) : M128 := mm_or_si128 (mm_srli_epi64 x 63) (mm_add_epi64 x x)

/-- baokeshed64_sse41.c:45-159; the elements `v[i]` of the state array are the variables `vi` -/
def round_fn (v m : Vector M128 16) (r : Fin 8) : Vector M128 16 :=
  let v0 : M128 := v.get 0
  let v1 : M128 := v.get 1
  let v2 : M128 := v.get 2
  let v3 : M128 := v.get 3
  let v4 : M128 := v.get 4
  let v5 : M128 := v.get 5
  let v6 : M128 := v.get 6
  let v7 : M128 := v.get 7
  let v8 : M128 := v.get 8
  let v9 : M128 := v.get 9
  let v10 : M128 := v.get 10
  let v11 : M128 := v.get 11
  let v12 : M128 := v.get 12
  let v13 : M128 := v.get 13
  let v14 : M128 := v.get 14
  let v15 : M128 := v.get 15
  let v0 : M128 := addv v0 (m.get ((MSG_SCHEDULE.get r).get 0))
  let v1 : M128 := addv v1 (m.get ((MSG_SCHEDULE.get r).get 2))
  let v2 : M128 := addv v2 (m.get ((MSG_SCHEDULE.get r).get 4))
  let v3 : M128 := addv v3 (m.get ((MSG_SCHEDULE.get r).get 6))
  let v0 : M128 := addv v0 v4
  let v1 : M128 := addv v1 v5
  let v2 : M128 := addv v2 v6
  let v3 : M128 := addv v3 v7
  let v12 : M128 := xorv v12 v0
  let v13 : M128 := xorv v13 v1
  let v14 : M128 := xorv v14 v2
  let v15 : M128 := xorv v15 v3
  let v12 : M128 := rot32 v12
  let v13 : M128 := rot32 v13
  let v14 : M128 := rot32 v14
  let v15 : M128 := rot32 v15
  let v8 : M128 := addv v8 v12
  let v9 : M128 := addv v9 v13
  let v10 : M128 := addv v10 v14
  let v11 : M128 := addv v11 v15
  let v4 : M128 := xorv v4 v8
  let v5 : M128 := xorv v5 v9
  let v6 : M128 := xorv v6 v10
  let v7 : M128 := xorv v7 v11
  let v4 : M128 := rot24 v4
  let v5 : M128 := rot24 v5
  let v6 : M128 := rot24 v6
  let v7 : M128 := rot24 v7
  let v0 : M128 := addv v0 (m.get ((MSG_SCHEDULE.get r).get 1))
  let v1 : M128 := addv v1 (m.get ((MSG_SCHEDULE.get r).get 3))
  let v2 : M128 := addv v2 (m.get ((MSG_SCHEDULE.get r).get 5))
  let v3 : M128 := addv v3 (m.get ((MSG_SCHEDULE.get r).get 7))
  let v0 : M128 := addv v0 v4
  let v1 : M128 := addv v1 v5
  let v2 : M128 := addv v2 v6
  let v3 : M128 := addv v3 v7
  let v12 : M128 := xorv v12 v0
  let v13 : M128 := xorv v13 v1
  let v14 : M128 := xorv v14 v2
  let v15 : M128 := xorv v15 v3
  let v12 : M128 := rot16 v12
  let v13 : M128 := rot16 v13
  let v14 : M128 := rot16 v14
  let v15 : M128 := rot16 v15
  let v8 : M128 := addv v8 v12
  let v9 : M128 := addv v9 v13
  let v10 : M128 := addv v10 v14
  let v11 : M128 := addv v11 v15
  let v4 : M128 := xorv v4 v8
  let v5 : M128 := xorv v5 v9
  let v6 : M128 := xorv v6 v10
  let v7 : M128 := xorv v7 v11
  let v4 : M128 := rot63 v4
  let v5 : M128 := rot63 v5
  let v6 : M128 := rot63 v6
  let v7 : M128 := rot63 v7
  let v0 : M128 := addv v0 (m.get ((MSG_SCHEDULE.get r).get 8))
  let v1 : M128 := addv v1 (m.get ((MSG_SCHEDULE.get r).get 10))
  let v2 : M128 := addv v2 (m.get ((MSG_SCHEDULE.get r).get 12))
  let v3 : M128 := addv v3 (m.get ((MSG_SCHEDULE.get r).get 14))
  let v0 : M128 := addv v0 v5
  let v1 : M128 := addv v1 v6
  let v2 : M128 := addv v2 v7
  let v3 : M128 := addv v3 v4
  let v15 : M128 := xorv v15 v0
  let v12 : M128 := xorv v12 v1
  let v13 : M128 := xorv v13 v2
  let v14 : M128 := xorv v14 v3
  let v15 : M128 := rot32 v15
  let v12 : M128 := rot32 v12
  let v13 : M128 := rot32 v13
  let v14 : M128 := rot32 v14
  let v10 : M128 := addv v10 v15
  let v11 : M128 := addv v11 v12
  let v8 : M128 := addv v8 v13
  let v9 : M128 := addv v9 v14
  let v5 : M128 := xorv v5 v10
  let v6 : M128 := xorv v6 v11
  let v7 : M128 := xorv v7 v8
  let v4 : M128 := xorv v4 v9
  let v5 : M128 := rot24 v5
  let v6 : M128 := rot24 v6
  let v7 : M128 := rot24 v7
  let v4 : M128 := rot24 v4
  let v0 : M128 := addv v0 (m.get ((MSG_SCHEDULE.get r).get 9))
  let v1 : M128 := addv v1 (m.get ((MSG_SCHEDULE.get r).get 11))
  let v2 : M128 := addv v2 (m.get ((MSG_SCHEDULE.get r).get 13))
  let v3 : M128 := addv v3 (m.get ((MSG_SCHEDULE.get r).get 15))
  let v0 : M128 := addv v0 v5
  let v1 : M128 := addv v1 v6
  let v2 : M128 := addv v2 v7
  let v3 : M128 := addv v3 v4
  let v15 : M128 := xorv v15 v0
  let v12 : M128 := xorv v12 v1
  let v13 : M128 := xorv v13 v2
  let v14 : M128 := xorv v14 v3
  let v15 : M128 := rot16 v15
  let v12 : M128 := rot16 v12
  let v13 : M128 := rot16 v13
  let v14 : M128 := rot16 v14
  let v10 : M128 := addv v10 v15
  let v11 : M128 := addv v11 v12
  let v8 : M128 := addv v8 v13
  let v9 : M128 := addv v9 v14
  let v5 : M128 := xorv v5 v10
  let v6 : M128 := xorv v6 v11
  let v7 : M128 := xorv v7 v8
  let v4 : M128 := xorv v4 v9
  let v5 : M128 := rot63 v5
  let v6 : M128 := rot63 v6
  let v7 : M128 := rot63 v7
  let v4 : M128 := rot63 v4
  #v[v0, v1, v2, v3, v4, v5, v6, v7, v8, v9, v10, v11, v12, v13, v14, v15]

/-- baokeshed64_sse41.c:161-168 -/
def transpose_vecs (vecs : Vector M128 DEGREE) : Vector M128 DEGREE :=
  let vec0 := u64s2 vecs[0]
  let vec1 := u64s2 vecs[1]
  #v[set2 vec0[0] vec1[0], set2 vec0[1] vec1[1]]

/-- baokeshed64_sse41.c:170-196 -/
def transpose_msg_vecs (inputs : List Bytes) (block_offset : Nat) : R (Vector M128 16) := do
  let out0 ← loadu (← cIndex inputs 0) (block_offset + 0 * 16)
  let out1 ← loadu (← cIndex inputs 1) (block_offset + 0 * 16)
  let out2 ← loadu (← cIndex inputs 0) (block_offset + 1 * 16)
  let out3 ← loadu (← cIndex inputs 1) (block_offset + 1 * 16)
  let out4 ← loadu (← cIndex inputs 0) (block_offset + 2 * 16)
  let out5 ← loadu (← cIndex inputs 1) (block_offset + 2 * 16)
  let out6 ← loadu (← cIndex inputs 0) (block_offset + 3 * 16)
  let out7 ← loadu (← cIndex inputs 1) (block_offset + 3 * 16)
  let out8 ← loadu (← cIndex inputs 0) (block_offset + 4 * 16)
  let out9 ← loadu (← cIndex inputs 1) (block_offset + 4 * 16)
  let out10 ← loadu (← cIndex inputs 0) (block_offset + 5 * 16)
  let out11 ← loadu (← cIndex inputs 1) (block_offset + 5 * 16)
  let out12 ← loadu (← cIndex inputs 0) (block_offset + 6 * 16)
  let out13 ← loadu (← cIndex inputs 1) (block_offset + 6 * 16)
  let out14 ← loadu (← cIndex inputs 0) (block_offset + 7 * 16)
  let out15 ← loadu (← cIndex inputs 1) (block_offset + 7 * 16)
  let sq0 := transpose_vecs #v[out0, out1]
  let sq1 := transpose_vecs #v[out2, out3]
  let sq2 := transpose_vecs #v[out4, out5]
  let sq3 := transpose_vecs #v[out6, out7]
  let sq4 := transpose_vecs #v[out8, out9]
  let sq5 := transpose_vecs #v[out10, out11]
  let sq6 := transpose_vecs #v[out12, out13]
  let sq7 := transpose_vecs #v[out14, out15]
  return sq0 ++ sq1 ++ sq2 ++ sq3 ++ sq4 ++ sq5 ++ sq6 ++ sq7

/-- baokeshed64_sse41.c:198-201 -/
def load_offsets (offset : U64) (offset_deltas : List U64) : R M128 := do
  return addv (set1 offset) (← loadU64s 2 offset_deltas 0)

/-- The loop body of `hash2_sse41` after the message has been loaded, baokeshed64_sse41.c:227-244 -/
def hash2_sse41_block (h_vecs : Vector M128 4) (offset_vec block_len_vec block_flags_vec : M128)
    (msg_vecs : Vector M128 16) : Vector M128 4 :=
  let v : Vector M128 16 :=
    #v[h_vecs[0], h_vecs[1], h_vecs[2], h_vecs[3], set1 IV[4], set1 IV[5], set1 IV[6], set1 IV[7],
       set1 IV[0], set1 IV[1], set1 IV[2], set1 IV[3], offset_vec, set1 IV[5], block_len_vec, block_flags_vec]
  let v := round_fn v msg_vecs 0
  let v := round_fn v msg_vecs 1
  let v := round_fn v msg_vecs 2
  let v := round_fn v msg_vecs 3
  let v := round_fn v msg_vecs 4
  let v := round_fn v msg_vecs 5
  let v := round_fn v msg_vecs 6
  let v := round_fn v msg_vecs 7
  #v[xorv v[0] v[4], xorv v[1] v[5], xorv v[2] v[6], xorv v[3] v[7]]

/-- The loop of `hash2_sse41`, baokeshed64_sse41.c:218-247; `n` iterations remain. -/
def hash2_sse41_loop (inputs : List Bytes) (blocks : Nat) (offset_vec : M128) (flags flags_end : Byte) :
    (n block : Nat) → (h_vecs : Vector M128 4) → (block_flags : Byte) → R (Vector M128 4)
  | 0, _, h_vecs, _ => .ok h_vecs
  | n + 1, block, h_vecs, block_flags => do
    let block_flags := if block + 1 = blocks then block_flags ||| flags_end else block_flags
    let block_len_vec := set1 (BitVec.ofNat 64 BLOCK_LEN)
    let block_flags_vec := set1 (block_flags.setWidth 64)
    let msg_vecs ← transpose_msg_vecs inputs (block * BLOCK_LEN)
    let h_vecs := hash2_sse41_block h_vecs offset_vec block_len_vec block_flags_vec msg_vecs
    hash2_sse41_loop inputs blocks offset_vec flags flags_end n (block + 1) h_vecs flags

/-- The end of `hash2_sse41`, baokeshed64_sse41.c:249-256: `out` is the memory behind the pointer, the result its
new contents. -/
def hash2_sse41_store (h_vecs : Vector M128 4) (out : Bytes) : R Bytes := do
  let sq0 := transpose_vecs #v[h_vecs[0], h_vecs[1]]
  let sq1 := transpose_vecs #v[h_vecs[2], h_vecs[3]]
  let out ← storeu sq0[0] out (0 * 16)
  let out ← storeu sq1[0] out (1 * 16)
  let out ← storeu sq0[1] out (2 * 16)
  let out ← storeu sq1[1] out (3 * 16)
  return out

/-- baokeshed64_sse41.c:203-257 -/
def hash2_sse41 (inputs : List Bytes) (blocks : Nat) (key_words : Vector U64 4) (offset : U64)
    (offset_deltas : List U64) (flags flags_start flags_end : Byte) (out : Bytes) : R Bytes := do
  let h_vecs : Vector M128 4 := #v[set1 key_words[0], set1 key_words[1], set1 key_words[2], set1 key_words[3]]
  let offset_vec ← load_offsets offset offset_deltas
  let h_vecs ← hash2_sse41_loop inputs blocks offset_vec flags flags_end blocks 0 h_vecs (flags ||| flags_start)
  hash2_sse41_store h_vecs out

/-- The loop of `hash_many_sse41` for batches of 2, baokeshed64_sse41.c:265-272, and what follows it -/
def hash_many_sse41_loop (blocks : Nat) (key_words : Vector U64 4) (offset_deltas : List U64) (flags flags_start flags_end : Byte)
    (num_inputs : Nat) (inputs : List Bytes) (offset : U64) (out : Bytes) : R Bytes :=
  if _h : DEGREE ≤ num_inputs then do
    let out ← hash2_sse41 inputs blocks key_words offset offset_deltas flags flags_start flags_end out
    let inputs ← cAdvance inputs DEGREE
    let offset := offset + (← cIndex offset_deltas DEGREE)
    let rest ← cAdvance out (DEGREE * OUT_LEN)
    let rest ← hash_many_sse41_loop blocks key_words offset_deltas flags flags_start flags_end (num_inputs - DEGREE) inputs offset rest
    return out.take (DEGREE * OUT_LEN) ++ rest
  else Portable.hash_many_portable inputs num_inputs blocks key_words offset offset_deltas flags flags_start flags_end out
termination_by num_inputs
decreasing_by simp [DEGREE] at *; omega

/-- baokeshed64_sse41.c:259-276 -/
def hash_many_sse41 (inputs : List Bytes) (num_inputs blocks : Nat) (key_words : Vector U64 4) (offset : U64)
    (offset_deltas : List U64) (flags flags_start flags_end : Byte) (out : Bytes) : R Bytes :=
  hash_many_sse41_loop blocks key_words offset_deltas flags flags_start flags_end num_inputs inputs offset out

end Baokeshed.Model.C64.Sse41
