import Verif.Model.Python

/-!
# The construction of /repo/python/test_baokeshed.py:86-131

`test_round_fn_compatible_with_blake2s` builds BLAKE2s for messages of one block from the tables and the round function
of baokeshed.py, and tries it on one message.  Here the message is the parameter.
-/

namespace Baokeshed.Model.Py

/-- test_baokeshed.py:96-100: the rows appended to `MSG_SCHEDULE` -/
def extra_schedules : Vector (Vector Nat 16) 3 :=
  #v[#v[13, 11, 7, 14, 12, 1, 3, 9, 5, 0, 15, 4, 8, 6, 2, 10],
     #v[6, 15, 14, 9, 11, 3, 0, 8, 12, 2, 13, 7, 1, 4, 10, 5],
     #v[10, 2, 8, 4, 7, 6, 1, 5, 15, 11, 9, 14, 3, 12, 13, 0]]

/-- The loop over the rounds, test_baokeshed.py:127-128 -/
def test_rounds (input_words : List Nat) : List (Vector Nat 16) → Vector Nat 16 → R (Vector Nat 16)
  | [], state => .ok state
  | schedule :: schedules, state => do
    let state ← round state input_words schedule
    test_rounds input_words schedules state

/-- test_baokeshed.py:91-131 -/
def test_blake2s (input_bytes : Bytes) : R Bytes := do
  let block_len := input_bytes.length
  let input_buffer : Bytes := List.replicate 64 0
  let input_buffer := setSlice input_buffer 0 block_len input_bytes
  let input_words := words_from_bytes input_buffer
  let schedules := MSG_SCHEDULE.toList ++ extra_schedules.toList
  let iv0 ← idx IV 0
  let iv1 ← idx IV 1
  let iv2 ← idx IV 2
  let iv3 ← idx IV 3
  let iv4 ← idx IV 4
  let iv5 ← idx IV 5
  let iv6 ← idx IV 6
  let iv7 ← idx IV 7
  let cv : Vector Nat 8 := #v[iv0 ^^^ 32 ^^^ (1 <<< 16) ^^^ (1 <<< 24), iv1, iv2, iv3, iv4, iv5, iv6, iv7]
  let state : Vector Nat 16 := cv ++ (#v[iv0, iv1, iv2, iv3,
    -- total bytes compressed = block_len (no set bits in the second word)
    iv4 ^^^ block_len, iv5,
    -- last block flag
    iv6 ^^^ (2 ^ 32 - 1), iv7] : Vector Nat 8)
  let state ← test_rounds input_words (schedules.take 10) state
  let output_words := (List.finRange 8).map fun i : Fin 8 => state[i.val] ^^^ state[i.val + 8] ^^^ cv[i]
  bytes_from_words output_words

end Baokeshed.Model.Py
