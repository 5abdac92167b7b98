import Verif.Basic

/-!
# Model of /repo/src/portable64.rs

The portable implementation of the 64-bit variant, function by function, with the conventions of
`Verif.Model.Portable`.
-/

namespace Baokeshed.Model.Portable64

/-- lib.rs:66 `OUT_LEN`, imported at portable64.rs:1 -/
abbrev OUT_LEN : Nat := 32
/-- portable64.rs:4 -/
abbrev BLOCK_LEN : Nat := 128
/-- portable64.rs:5 -/
abbrev CHUNK_LEN : Nat := 4096

/-- portable64.rs:9-18 -/
def IV : Vector U64 8 :=
  #v[0x6A09E667F3BCC908, 0xBB67AE8584CAA73B, 0x3C6EF372FE94F82B, 0xA54FF53A5F1D36F1,
     0x510E527FADE682D1, 0x9B05688C2B3E6C1F, 0x1F83D9ABFB41BD6B, 0x5BE0CD19137E2179]

/-- portable64.rs:20-29 -/
def MSG_SCHEDULE : Vector (Vector (Fin 16) 16) 8 :=
  #v[#v[0, 1, 2, 3, 4, 5, 6, 7, 8, 9, 10, 11, 12, 13, 14, 15],
     #v[14, 10, 4, 8, 9, 15, 13, 6, 1, 12, 0, 2, 11, 7, 5, 3],
     #v[11, 8, 12, 0, 5, 2, 15, 13, 10, 14, 3, 6, 7, 1, 9, 4],
     #v[7, 9, 3, 1, 13, 12, 11, 14, 2, 6, 5, 10, 4, 0, 15, 8],
     #v[9, 0, 5, 7, 2, 4, 10, 15, 14, 1, 11, 12, 6, 8, 3, 13],
     #v[2, 12, 6, 10, 0, 11, 8, 3, 4, 13, 7, 5, 15, 14, 1, 9],
     #v[12, 5, 1, 15, 14, 13, 4, 10, 0, 7, 6, 3, 9, 2, 8, 11],
     #v[13, 11, 7, 14, 12, 1, 3, 9, 5, 0, 15, 4, 8, 6, 2, 10]]

/-- `u64::from_le_bytes` -/
def leWord64 (b0 b1 b2 b3 b4 b5 b6 b7 : Byte) : U64 := b7 ++ b6 ++ b5 ++ b4 ++ b3 ++ b2 ++ b1 ++ b0

/-- `u64::to_le_bytes` -/
def leBytes64 (w : U64) : Bytes :=
  [w.extractLsb' 0 8, w.extractLsb' 8 8, w.extractLsb' 16 8, w.extractLsb' 24 8,
   w.extractLsb' 32 8, w.extractLsb' 40 8, w.extractLsb' 48 8, w.extractLsb' 56 8]

theorem length_flatMap_leBytes64 (ws : List U64) : (ws.flatMap leBytes64).length = 8 * ws.length := by
  induction ws with
  | nil => rfl
  | cons w ws ih => simp [List.flatMap_cons, leBytes64] at ih ⊢; omega

/-- portable64.rs:32-52 -/
def words_from_block (b : Vector Byte 128) : Vector U64 16 :=
  #v[leWord64 b[0] b[1] b[2] b[3] b[4] b[5] b[6] b[7],
     leWord64 b[8] b[9] b[10] b[11] b[12] b[13] b[14] b[15],
     leWord64 b[16] b[17] b[18] b[19] b[20] b[21] b[22] b[23],
     leWord64 b[24] b[25] b[26] b[27] b[28] b[29] b[30] b[31],
     leWord64 b[32] b[33] b[34] b[35] b[36] b[37] b[38] b[39],
     leWord64 b[40] b[41] b[42] b[43] b[44] b[45] b[46] b[47],
     leWord64 b[48] b[49] b[50] b[51] b[52] b[53] b[54] b[55],
     leWord64 b[56] b[57] b[58] b[59] b[60] b[61] b[62] b[63],
     leWord64 b[64] b[65] b[66] b[67] b[68] b[69] b[70] b[71],
     leWord64 b[72] b[73] b[74] b[75] b[76] b[77] b[78] b[79],
     leWord64 b[80] b[81] b[82] b[83] b[84] b[85] b[86] b[87],
     leWord64 b[88] b[89] b[90] b[91] b[92] b[93] b[94] b[95],
     leWord64 b[96] b[97] b[98] b[99] b[100] b[101] b[102] b[103],
     leWord64 b[104] b[105] b[106] b[107] b[108] b[109] b[110] b[111],
     leWord64 b[112] b[113] b[114] b[115] b[116] b[117] b[118] b[119],
     leWord64 b[120] b[121] b[122] b[123] b[124] b[125] b[126] b[127]]

/-- portable64.rs:55-64 -/
def g (state : Vector U64 16) (a b c d : Fin 16) (x y : U64) : Vector U64 16 :=
  let state := state.set a (state[a] + state[b] + x)
  let state := state.set d ((state[d] ^^^ state[a]).rotateRight 32)
  let state := state.set c (state[c] + state[d])
  let state := state.set b ((state[b] ^^^ state[c]).rotateRight 24)
  let state := state.set a (state[a] + state[b] + y)
  let state := state.set d ((state[d] ^^^ state[a]).rotateRight 16)
  let state := state.set c (state[c] + state[d])
  let state := state.set b ((state[b] ^^^ state[c]).rotateRight 63)
  state

/-- portable64.rs:67-82 -/
def round (state : Vector U64 16) (msg : Vector U64 16) (round : Fin 8) : Vector U64 16 :=
  let schedule := MSG_SCHEDULE[round]
  -- Mix the columns.
  let state := g state 0 4 8 12 msg[schedule[0]] msg[schedule[1]]
  let state := g state 1 5 9 13 msg[schedule[2]] msg[schedule[3]]
  let state := g state 2 6 10 14 msg[schedule[4]] msg[schedule[5]]
  let state := g state 3 7 11 15 msg[schedule[6]] msg[schedule[7]]
  -- Mix the diagonals.
  let state := g state 0 5 10 15 msg[schedule[8]] msg[schedule[9]]
  let state := g state 1 6 11 12 msg[schedule[10]] msg[schedule[11]]
  let state := g state 2 7 8 13 msg[schedule[12]] msg[schedule[13]]
  let state := g state 3 4 9 14 msg[schedule[14]] msg[schedule[15]]
  state

/-- portable64.rs:85-122 -/
def compress_inner (cv : Vector U64 4) (block : Vector Byte 128) (block_len : Byte) (offset : U64)
    (flags : Byte) : Vector U64 16 :=
  let block_words := words_from_block block
  let state : Vector U64 16 :=
    #v[cv[0], cv[1], cv[2], cv[3], IV[4], IV[5], IV[6], IV[7],
       IV[0], IV[1], IV[2], IV[3],
       offset, IV[5], block_len.setWidth 64, flags.setWidth 64]
  let state := round state block_words 0
  let state := round state block_words 1
  let state := round state block_words 2
  let state := round state block_words 3
  let state := round state block_words 4
  let state := round state block_words 5
  let state := round state block_words 6
  let state := round state block_words 7
  state

/-- portable64.rs:124-135.  The loop `for i in 0..4 { cv[i] = state[i] ^ state[i + 4] }` does not
read `cv`, so it is written as one array construction. -/
def compress (cv : Vector U64 4) (block : Vector Byte 128) (block_len : Byte) (offset : U64)
    (flags : Byte) : Vector U64 4 :=
  let state := compress_inner cv block block_len offset flags
  Vector.ofFn fun i : Fin 4 => state[i.val] ^^^ state[i.val + 4]

/-- portable64.rs:137-156.  The three loops fill the output array eight bytes at a time, front to
back. -/
def compress_xof (cv : Vector U64 4) (block : Vector Byte 128) (block_len : Byte) (offset : U64)
    (flags : Byte) : Vector Byte 128 :=
  let state := compress_inner cv block block_len offset flags
  let w0 := (List.finRange 4).map fun i : Fin 4 => state[i.val] ^^^ state[i.val + 4]
  let w1 := (List.finRange 4).map fun i : Fin 4 => state[i.val + 4] ^^^ cv[i]
  let w2 := (List.finRange 8).map fun i : Fin 8 => state[i.val + 8]
  ⟨((w0 ++ w1 ++ w2).flatMap leBytes64).toArray, by
    rw [List.size_toArray, length_flatMap_leBytes64]; simp [w0, w1, w2]⟩

/-- portable64.rs:158-168 -/
def bytes_from_state_words (w : Vector U64 4) : Vector Byte 32 :=
  ⟨(leBytes64 w[0] ++ leBytes64 w[1] ++ leBytes64 w[2] ++ leBytes64 w[3]).toArray, by
    simp [leBytes64]⟩

/-- The loop of `hash1`, portable64.rs:183-196. -/
def hash1_loop (flags flags_end : Byte) (offset : U64) (cv : Vector U64 4) (block_flags : Byte)
    (slice : Bytes) : R (Vector U64 4) :=
  if _h : BLOCK_LEN ≤ slice.length then do
    let block_flags := if slice.length = BLOCK_LEN then block_flags ||| flags_end else block_flags
    let block ← arrayRef slice 0 BLOCK_LEN
    let cv := compress cv block (BitVec.ofNat 8 BLOCK_LEN) offset block_flags
    hash1_loop flags flags_end offset cv flags (slice.drop BLOCK_LEN)
  else .ok cv
termination_by slice.length
decreasing_by simp [BLOCK_LEN] at *; omega

/-- portable64.rs:170-198.  `A::CAPACITY` is the length of the input array. -/
def hash1 (input : Bytes) (key : Vector U64 4) (offset : U64) (flags flags_start flags_end : Byte) :
    R (Vector Byte 32) := do
  assertR (input.length % BLOCK_LEN = 0)
  let cv ← hash1_loop flags flags_end offset key (flags ||| flags_start) input
  return bytes_from_state_words cv

/-- The loop of `hash_many`, portable64.rs:211-222: `inputs` zipped with the 32-byte pieces of
`out`; returns the new contents of `out`. -/
def hash_many_loop (key : Vector U64 4) (offset_delta : U64) (flags flags_start flags_end : Byte) :
    (inputs : List Bytes) → (offset : U64) → (out : Bytes) → R Bytes
  | [], _, out => .ok out
  | input :: inputs, offset, out =>
    if out.length < OUT_LEN then .ok out
    else do
      let h ← hash1 input key offset flags flags_start flags_end
      let offset ← addU64 offset offset_delta
      let rest ← hash_many_loop key offset_delta flags flags_start flags_end inputs offset
        (out.drop OUT_LEN)
      return h.toList ++ rest

/-- portable64.rs:200-223 -/
def hash_many (inputs : List Bytes) (key : Vector U64 4) (offset offset_delta : U64)
    (flags flags_start flags_end : Byte) (out : Bytes) : R Bytes := do
  assertR (inputs.length * OUT_LEN ≤ out.length)
  hash_many_loop key offset_delta flags flags_start flags_end inputs offset out

end Baokeshed.Model.Portable64
