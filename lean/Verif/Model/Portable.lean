import Verif.Basic

/-!
# Model of /repo/src/portable.rs and the helpers of /repo/src/lib.rs it uses
-/

namespace Baokeshed.Model

/-! ## Constants (/repo/src/lib.rs:59-91) -/

/-- lib.rs:66 `OUT_LEN = 8 * WORD_BYTES` -/
abbrev OUT_LEN : Nat := 32
/-- lib.rs:69 -/
abbrev KEY_LEN : Nat := 32
/-- lib.rs:73 `BLOCK_LEN = 16 * WORD_BYTES` -/
abbrev BLOCK_LEN : Nat := 64
/-- lib.rs:75 -/
abbrev CHUNK_LEN : Nat := 2048
/-- lib.rs:63 -/
abbrev MAX_DEPTH : Nat := 53

/-- lib.rs:79-81 -/
def IV : Vector Word 8 :=
  #v[0x6A09E667, 0xBB67AE85, 0x3C6EF372, 0xA54FF53A,
     0x510E527F, 0x9B05688C, 0x1F83D9AB, 0x5BE0CD19]

/-- lib.rs:83-91 -/
def MSG_SCHEDULE : Vector (Vector (Fin 16) 16) 7 :=
  #v[#v[0, 1, 2, 3, 4, 5, 6, 7, 8, 9, 10, 11, 12, 13, 14, 15],
     #v[14, 10, 4, 8, 9, 15, 13, 6, 1, 12, 0, 2, 11, 7, 5, 3],
     #v[11, 8, 12, 0, 5, 2, 15, 13, 10, 14, 3, 6, 7, 1, 9, 4],
     #v[7, 9, 3, 1, 13, 12, 11, 14, 2, 6, 5, 10, 4, 0, 15, 8],
     #v[9, 0, 5, 7, 2, 4, 10, 15, 14, 1, 11, 12, 6, 8, 3, 13],
     #v[2, 12, 6, 10, 0, 11, 8, 3, 4, 13, 7, 5, 15, 14, 1, 9],
     #v[12, 5, 1, 15, 14, 13, 4, 10, 0, 7, 6, 3, 9, 2, 8, 11]]

/-! ## Conversions (/repo/src/lib.rs:123-160) -/

/-- lib.rs:123-136 -/
def words_from_key_bytes (b : Vector Byte 32) : Vector Word 8 :=
  #v[leWord b[0] b[1] b[2] b[3], leWord b[4] b[5] b[6] b[7],
     leWord b[8] b[9] b[10] b[11], leWord b[12] b[13] b[14] b[15],
     leWord b[16] b[17] b[18] b[19], leWord b[20] b[21] b[22] b[23],
     leWord b[24] b[25] b[26] b[27], leWord b[28] b[29] b[30] b[31]]

theorem length_flatMap_leBytes (ws : List Word) : (ws.flatMap leBytes).length = 4 * ws.length := by
  induction ws with
  | nil => rfl
  | cons w ws ih => simp [List.flatMap_cons, leBytes] at ih ⊢; omega

/-- lib.rs:138-152 -/
def bytes_from_state_words (w : Vector Word 8) : Vector Byte 32 :=
  ⟨(leBytes w[0] ++ leBytes w[1] ++ leBytes w[2] ++ leBytes w[3] ++
    leBytes w[4] ++ leBytes w[5] ++ leBytes w[6] ++ leBytes w[7]).toArray, by
    simp [leBytes]⟩

/-- lib.rs:154-156 -/
def offset_low (offset : U64) : Word := offset.setWidth 32

/-- lib.rs:158-160 -/
def offset_high (offset : U64) : Word := (offset >>> 32).setWidth 32

namespace Portable

/-- portable.rs:5-25 -/
def words_from_block (b : Vector Byte 64) : Vector Word 16 :=
  #v[leWord b[0] b[1] b[2] b[3], leWord b[4] b[5] b[6] b[7],
     leWord b[8] b[9] b[10] b[11], leWord b[12] b[13] b[14] b[15],
     leWord b[16] b[17] b[18] b[19], leWord b[20] b[21] b[22] b[23],
     leWord b[24] b[25] b[26] b[27], leWord b[28] b[29] b[30] b[31],
     leWord b[32] b[33] b[34] b[35], leWord b[36] b[37] b[38] b[39],
     leWord b[40] b[41] b[42] b[43], leWord b[44] b[45] b[46] b[47],
     leWord b[48] b[49] b[50] b[51], leWord b[52] b[53] b[54] b[55],
     leWord b[56] b[57] b[58] b[59], leWord b[60] b[61] b[62] b[63]]

/-- portable.rs:28-37 -/
def g (state : Vector Word 16) (a b c d : Fin 16) (x y : Word) : Vector Word 16 :=
  let state := state.set a (state[a] + state[b] + x)
  let state := state.set d ((state[d] ^^^ state[a]).rotateRight 16)
  let state := state.set c (state[c] + state[d])
  let state := state.set b ((state[b] ^^^ state[c]).rotateRight 12)
  let state := state.set a (state[a] + state[b] + y)
  let state := state.set d ((state[d] ^^^ state[a]).rotateRight 8)
  let state := state.set c (state[c] + state[d])
  let state := state.set b ((state[b] ^^^ state[c]).rotateRight 7)
  state

/-- portable.rs:40-55 -/
def round (state : Vector Word 16) (msg : Vector Word 16) (round : Fin 7) : Vector Word 16 :=
  let schedule := MSG_SCHEDULE[round]
  -- Mix the columns.
  let state := g state 0 4 8 12 msg[schedule[0]] msg[schedule[1]]
  let state := g state 1 5 9 13 msg[schedule[2]] msg[schedule[3]]
  let state := g state 2 6 10 14 msg[schedule[4]] msg[schedule[5]]
  let state := g state 3 7 11 15 msg[schedule[6]] msg[schedule[7]]
  -- Mix the diagonals.
  let state := g state 0 5 10 15 msg[schedule[8]] msg[schedule[9]]
  let state := g state 1 6 11 12 msg[schedule[10]] msg[schedule[11]]
  let state := g state 2 7 8 13 msg[schedule[12]] msg[schedule[13]]
  let state := g state 3 4 9 14 msg[schedule[14]] msg[schedule[15]]
  state

/-- portable.rs:58-94 -/
def compress_inner (cv : Vector Word 8) (block : Vector Byte 64) (block_len : Byte) (offset : U64)
    (flags : Byte) : Vector Word 16 :=
  let block_words := words_from_block block
  let state : Vector Word 16 :=
    #v[cv[0], cv[1], cv[2], cv[3], cv[4], cv[5], cv[6], cv[7],
       IV[0], IV[1], IV[2], IV[3],
       offset_low offset, offset_high offset, block_len.setWidth 32, flags.setWidth 32]
  let state := round state block_words 0
  let state := round state block_words 1
  let state := round state block_words 2
  let state := round state block_words 3
  let state := round state block_words 4
  let state := round state block_words 5
  let state := round state block_words 6
  state

/-- portable.rs:96-107.  The loop `for i in 0..8 { cv[i] = state[i] ^ state[i + 8] }` does not
read `cv`, so it is written as one array construction. -/
def compress (cv : Vector Word 8) (block : Vector Byte 64) (block_len : Byte) (offset : U64)
    (flags : Byte) : Vector Word 8 :=
  let state := compress_inner cv block block_len offset flags
  Vector.ofFn fun i : Fin 8 => state[i.val] ^^^ state[i.val + 8]

/-- portable.rs:109-125.  The two loops fill the output array four bytes at a time, front to
back. -/
def compress_xof (cv : Vector Word 8) (block : Vector Byte 64) (block_len : Byte) (offset : U64)
    (flags : Byte) : Vector Byte 64 :=
  let state := compress_inner cv block block_len offset flags
  let lo := (List.finRange 8).map fun i : Fin 8 => state[i.val] ^^^ state[i.val + 8]
  let hi := (List.finRange 8).map fun i : Fin 8 => state[i.val + 8] ^^^ cv[i]
  ⟨((lo ++ hi).flatMap leBytes).toArray, by
    rw [List.size_toArray, length_flatMap_leBytes]; simp [lo, hi]⟩

/-- The loop of `hash1`, portable.rs:139-153. -/
def hash1_loop (flags flags_end : Byte) (offset : U64) (cv : Vector Word 8) (block_flags : Byte)
    (slice : Bytes) : R (Vector Word 8) :=
  if _h : BLOCK_LEN ≤ slice.length then do
    let block_flags := if slice.length = BLOCK_LEN then block_flags ||| flags_end else block_flags
    let block ← arrayRef slice 0 BLOCK_LEN
    let cv := compress cv block (BitVec.ofNat 8 BLOCK_LEN) offset block_flags
    hash1_loop flags flags_end offset cv flags (slice.drop BLOCK_LEN)
  else .ok cv
termination_by slice.length
decreasing_by simp [BLOCK_LEN] at *; omega

/-- portable.rs:127-155.  `A::CAPACITY` is the length of the input array. -/
def hash1 (input : Bytes) (key : Vector Word 8) (offset : U64) (flags flags_start flags_end : Byte) :
    R (Vector Byte 32) := do
  assertR (input.length % BLOCK_LEN = 0)
  let cv ← hash1_loop flags flags_end offset key (flags ||| flags_start) input
  return bytes_from_state_words cv

/-- The loop of `hash_many`, portable.rs:168-179: `inputs` zipped with the 32-byte pieces of
`out`; returns the new contents of `out`. -/
def hash_many_loop (key : Vector Word 8) (offset_delta : U64) (flags flags_start flags_end : Byte) :
    (inputs : List Bytes) → (offset : U64) → (out : Bytes) → R Bytes
  | [], _, out => .ok out
  | input :: inputs, offset, out =>
    if out.length < OUT_LEN then .ok out
    else do
      let h ← hash1 input key offset flags flags_start flags_end
      let offset ← addU64 offset offset_delta
      let rest ← hash_many_loop key offset_delta flags flags_start flags_end inputs offset
        (out.drop OUT_LEN)
      return h.toList ++ rest

/-- portable.rs:157-180 -/
def hash_many (inputs : List Bytes) (key : Vector Word 8) (offset offset_delta : U64)
    (flags flags_start flags_end : Byte) (out : Bytes) : R Bytes := do
  assertR (inputs.length * OUT_LEN ≤ out.length)
  hash_many_loop key offset_delta flags flags_start flags_end inputs offset out

end Portable
end Baokeshed.Model
