import Verif.Model.C64.Impl

/-!
# Model of /repo/c64/baokeshed64_portable.c

Line by line; see `Verif.Model.C.Impl` for the conventions.
-/

namespace Baokeshed.Model.C64.Portable
open Baokeshed.Model
open Baokeshed.Model.C (cIndex cAdvance cStore)

/-- baokeshed64_portable.c:4-14 -/
def g (state : Vector U64 16) (a b c d : Fin 16) (x y : U64) : Vector U64 16 :=
  let state := state.set a (state[a] + state[b] + x)
  let state := state.set d (rotr64 (state[d] ^^^ state[a]) 32)
  let state := state.set c (state[c] + state[d])
  let state := state.set b (rotr64 (state[b] ^^^ state[c]) 24)
  let state := state.set a (state[a] + state[b] + y)
  let state := state.set d (rotr64 (state[d] ^^^ state[a]) 16)
  let state := state.set c (state[c] + state[d])
  state.set b (rotr64 (state[b] ^^^ state[c]) 63)

/-- baokeshed64_portable.c:16-31 -/
def round_fn (state msg : Vector U64 16) (round : Fin 8) : Vector U64 16 :=
  let schedule := MSG_SCHEDULE[round]
  let state := g state 0 4 8 12 msg[schedule[0]] msg[schedule[1]]
  let state := g state 1 5 9 13 msg[schedule[2]] msg[schedule[3]]
  let state := g state 2 6 10 14 msg[schedule[4]] msg[schedule[5]]
  let state := g state 3 7 11 15 msg[schedule[6]] msg[schedule[7]]
  let state := g state 0 5 10 15 msg[schedule[8]] msg[schedule[9]]
  let state := g state 1 6 11 12 msg[schedule[10]] msg[schedule[11]]
  let state := g state 2 7 8 13 msg[schedule[12]] msg[schedule[13]]
  g state 3 4 9 14 msg[schedule[14]] msg[schedule[15]]

/-- baokeshed64_portable.c:33-60 -/
def compress_portable (state : Vector U64 4) (block : Bytes) (block_len : Byte) (offset : U64)
    (flags : Byte) : R (Vector U64 4) := do
  let block_words ← load_msg_words block
  let full_state : Vector U64 16 :=
    #v[state[0], state[1], state[2], state[3], IV[4], IV[5], IV[6], IV[7],
       IV[0], IV[1], IV[2], IV[3], offset, IV[5], block_len.setWidth 64, flags.setWidth 64]
  let full_state := round_fn full_state block_words 0
  let full_state := round_fn full_state block_words 1
  let full_state := round_fn full_state block_words 2
  let full_state := round_fn full_state block_words 3
  let full_state := round_fn full_state block_words 4
  let full_state := round_fn full_state block_words 5
  let full_state := round_fn full_state block_words 6
  let full_state := round_fn full_state block_words 7
  return #v[full_state[0] ^^^ full_state[4], full_state[1] ^^^ full_state[5],
            full_state[2] ^^^ full_state[6], full_state[3] ^^^ full_state[7]]

/-- The loop of `hash_one_portable`, baokeshed64_portable.c:69-77 -/
def hash_one_portable_loop (flags flags_end : Byte) (offset : U64) : (blocks : Nat) → (state : Vector U64 4) →
    (input : Bytes) → (block_flags : Byte) → R (Vector U64 4)
  | 0, state, _, _ => .ok state
  | blocks + 1, state, input, block_flags => do
    let block_flags := if blocks + 1 = 1 then block_flags ||| flags_end else block_flags
    let state ← compress_portable state input (BitVec.ofNat 8 BLOCK_LEN) offset block_flags
    let input ← cAdvance input BLOCK_LEN
    hash_one_portable_loop flags flags_end offset blocks state input flags

/-- baokeshed64_portable.c:62-79 -/
def hash_one_portable (input : Bytes) (blocks : Nat) (key_words : Vector U64 4) (offset : U64)
    (flags flags_start flags_end : Byte) (out : Bytes) : R Bytes := do
  let state ← hash_one_portable_loop flags flags_end offset blocks key_words input (flags ||| flags_start)
  write_state_bytes state out

/-- The last loop of `hash_many_portable`, baokeshed64_portable.c:88-95 -/
def hash_many_portable_loop (blocks : Nat) (key_words : Vector U64 4) (offset_deltas : List U64) (flags flags_start flags_end : Byte) :
    (num_inputs : Nat) → (inputs : List Bytes) → (offset : U64) → (out : Bytes) → R Bytes
  | 0, _, _, out => .ok out
  | num_inputs + 1, inputs, offset, out => do
    let out ← hash_one_portable (← cIndex inputs 0) blocks key_words offset flags flags_start flags_end out
    let inputs ← cAdvance inputs 1
    let offset := offset + (← cIndex offset_deltas 1)
    let rest ← cAdvance out OUT_LEN
    let rest ← hash_many_portable_loop blocks key_words offset_deltas flags flags_start flags_end num_inputs inputs offset rest
    return out.take OUT_LEN ++ rest

/-- baokeshed64_portable.c:81-96 -/
def hash_many_portable (inputs : List Bytes) (num_inputs blocks : Nat) (key_words : Vector U64 4) (offset : U64)
    (offset_deltas : List U64) (flags flags_start flags_end : Byte) (out : Bytes) : R Bytes :=
  hash_many_portable_loop blocks key_words offset_deltas flags flags_start flags_end num_inputs inputs offset out

end Baokeshed.Model.C64.Portable
