import Verif.Model.Api
import Verif.Model.World
import Verif.Model.Reference

/-!
# The tests of /repo/src/test.rs

The tests contain independent constructions of the hash for some lengths (three blocks, three chunks).  Here every test
is a function that panics where the test would.  What the tests fill with fixed bytes (`paint_test_input`, `[42; KEY_LEN]`,
`b"foo"`) is a parameter of the function called `…_on`; the function with the name of the test puts the fixed bytes in.

Not modelled: `test_reference_impl_size` (test.rs:448-456), because the model has no memory layout of Rust structs;
`dbg!`.  `assert_eq!` on a `Hash` compares the bytes (the constant time comparison of lib.rs:156-172 is in Model/Hash.lean).
-/

namespace Baokeshed.Model.RT

/-- `assert_eq!(a, b)` -/
def assertEq {α} [DecidableEq α] (a b : α) : R Unit := if a = b then .ok () else .error .assert

/-- `assert!(a != b)` -/
def assertNe {α} [DecidableEq α] (a b : α) : R Unit := if a ≠ b then .ok () else .error .assert

/-- `s[i]` -/
def index {α} (s : List α) (i : Nat) : R α :=
  match s[i]? with
  | some a => .ok a
  | none => .error .bounds

/-- A `for` loop over a list whose body only asserts. -/
def forEach {α} (body : α → R Unit) : List α → R Unit
  | [] => .ok ()
  | a :: as => do
    body a
    forEach body as

/-- test.rs:6-28 -/
def TEST_CASES : List Nat :=
  [0, 1, CHUNK_LEN - 1, CHUNK_LEN, CHUNK_LEN + 1, 2 * CHUNK_LEN, 2 * CHUNK_LEN + 1, 3 * CHUNK_LEN, 3 * CHUNK_LEN + 1,
   4 * CHUNK_LEN, 4 * CHUNK_LEN + 1, 5 * CHUNK_LEN, 5 * CHUNK_LEN + 1, 6 * CHUNK_LEN, 6 * CHUNK_LEN + 1, 7 * CHUNK_LEN,
   7 * CHUNK_LEN + 1, 8 * CHUNK_LEN, 8 * CHUNK_LEN + 1, 16 * CHUNK_LEN, 31 * CHUNK_LEN]

/-- test.rs:30 -/
def TEST_CASES_MAX : Nat := 31 * CHUNK_LEN

/-- The loop of `paint_test_input`, test.rs:37-43; at most `n` times round. -/
def paint_loop : (n : Nat) → Nat → Nat → Bytes → R Bytes
  | 0, _, _, buf => .ok buf
  | n + 1, offset, counter, buf =>
    if offset < buf.length then do
      let bytes := leBytes (BitVec.ofNat 32 counter)
      let rest ← subN buf.length offset
      let take := min bytes.length rest
      let data ← sliceTo bytes take
      let buf ← writeAt buf offset data
      let counter ← addN 32 counter 1
      paint_loop n (offset + take) counter buf
    else .ok buf

/-- test.rs:34-44 -/
def paint_test_input (buf : Bytes) : R Bytes := paint_loop buf.length 0 1 buf

/-- test.rs:46-51 -/
def test_offset_words : R Unit := do
  let offset : U64 := (1 <<< 32) + 2
  assertEq (offset_low offset) 2
  assertEq (offset_high offset) 1

/-- test.rs:53-77; `w` is the width of `usize` -/
def test_largest_power_of_two_leq (w : Nat) : R Unit :=
  forEach (fun (input, output) => do
    let r ← largest_power_of_two_leq w input
    assertEq output r)
    [(0, 1), (1, 1), (2, 2), (3, 2), (4, 4), (5, 4), (6, 4), (7, 4), (8, 8), (2 ^ w - 1, ((2 ^ w - 1) >>> 1) + 1)]

/-- test.rs:79-93; `w` is the width of `usize` -/
def test_left_len (w : Nat) : R Unit :=
  forEach (fun (input, output) => do
    let r ← left_len w input
    assertEq r output)
    [(CHUNK_LEN + 1, CHUNK_LEN), (2 * CHUNK_LEN - 1, CHUNK_LEN), (2 * CHUNK_LEN, CHUNK_LEN),
     (2 * CHUNK_LEN + 1, 2 * CHUNK_LEN), (4 * CHUNK_LEN - 1, 2 * CHUNK_LEN), (4 * CHUNK_LEN, 2 * CHUNK_LEN),
     (4 * CHUNK_LEN + 1, 4 * CHUNK_LEN)]

/-- The loops that update byte by byte, test.rs:113-115 -/
def update_bytes (cfg : Config) : Bytes → Hasher → R Hasher
  | [], h => .ok h
  | byte :: rest, h => do
    let h ← h.update cfg [byte]
    update_bytes cfg rest h

/-- The body of the loop of `test_recursive_incremental_same`, test.rs:107-116 -/
def incremental_on (cfg : Config) (key : Vector Byte 32) (input : Bytes) : R Unit := do
  let recursive_hash ← keyed_hash cfg key input
  let h ← (Hasher.new_keyed cfg key).update cfg input
  let incremental_hash_all ← h.finalize
  assertEq recursive_hash incremental_hash_all
  let hasher_one_at_a_time ← update_bytes cfg input (Hasher.new_keyed cfg key)
  let incremental ← hasher_one_at_a_time.finalize
  assertEq recursive_hash incremental

/-- test.rs:103-117, with any buffer and any cases -/
def test_recursive_incremental_same_on (cfg : Config) (input_buf : Bytes) (cases : List Nat) : R Unit :=
  forEach (fun case => do
    let input ← sliceTo input_buf case
    let key ← arrayRef input_buf 0 KEY_LEN
    incremental_on cfg key input) cases

/-- test.rs:95-118 -/
def test_recursive_incremental_same (cfg : Config) : R Unit := do
  let input_buf ← paint_test_input (List.replicate TEST_CASES_MAX 0)
  test_recursive_incremental_same_on cfg input_buf TEST_CASES

/-- test.rs:124-134, with any key -/
def test_zero_bytes_on (cfg : Config) (key : Vector Byte 32) : R Unit := do
  let key_words := words_from_key_bytes key
  let cv := key_words
  let block : Vector Byte 64 := Vector.replicate 64 0
  let flags := Flags.CHUNK_START ||| Flags.CHUNK_END ||| Flags.ROOT ||| Flags.KEYED_HASH
  let cv := Portable.compress cv block 0 0 flags
  let expected_hash := bytes_from_state_words cv
  let r ← keyed_hash cfg key []
  assertEq expected_hash r
  let hasher := Hasher.new_keyed cfg key
  let r ← hasher.finalize
  assertEq expected_hash r

/-- test.rs:120-135 -/
def test_zero_bytes (cfg : Config) : R Unit := do
  let key ← paint_test_input (List.replicate KEY_LEN 42)
  let key ← arrayRef key 0 KEY_LEN
  test_zero_bytes_on cfg key

/-- test.rs:141-153, with any key and byte -/
def test_one_byte_on (cfg : Config) (key : Vector Byte 32) (byte : Byte) : R Unit := do
  let key_words := words_from_key_bytes key
  let cv := key_words
  let block : Vector Byte 64 := Vector.replicate 64 0
  let block := block.set 0 byte
  let flags := Flags.CHUNK_START ||| Flags.CHUNK_END ||| Flags.ROOT ||| Flags.KEYED_HASH
  let cv := Portable.compress cv block 1 0 flags
  let expected_hash := bytes_from_state_words cv
  let r ← keyed_hash cfg key [byte]
  assertEq expected_hash r
  let hasher := Hasher.new_keyed cfg key
  let hasher ← hasher.update cfg [byte]
  let r ← hasher.finalize
  assertEq expected_hash r

/-- test.rs:137-154 -/
def test_one_byte (cfg : Config) : R Unit := do
  let key ← paint_test_input (List.replicate KEY_LEN 42)
  let key ← arrayRef key 0 KEY_LEN
  test_one_byte_on cfg key 9

/-- test.rs:156 -/
abbrev Construction := Bytes → Vector Byte 32 → Byte → R (Vector Byte 32)

/-- test.rs:163-205, with any input -/
def exercise_construction_on (cfg : Config) (construction : Construction) (input : Bytes) : R Unit := do
  -- Check the default hash.
  let expected_default_hash ← construction input (bytes_from_state_words IV) 0
  let r ← hash cfg input
  assertEq expected_default_hash r
  let h ← (Hasher.new cfg).update cfg input
  let r ← h.finalize
  assertEq expected_default_hash r
  let h ← (Hasher.new cfg).update cfg input
  let o ← h.finalize_xof
  assertEq expected_default_hash o.to_hash
  -- Check the keyed hash.
  let key ← arrayRef input 7 KEY_LEN
  let expected_keyed_hash ← construction input key Flags.KEYED_HASH
  let r ← keyed_hash cfg key input
  assertEq expected_keyed_hash r
  let h ← (Hasher.new_keyed cfg key).update cfg input
  let r ← h.finalize
  assertEq expected_keyed_hash r
  let h ← (Hasher.new_keyed cfg key).update cfg input
  let o ← h.finalize_xof
  assertEq expected_keyed_hash o.to_hash
  -- Check the KDF.
  let key ← arrayRef input 7 KEY_LEN
  let expected_kdf_out ← construction input key Flags.DERIVE_KEY
  let o ← derive_key_xof cfg key input
  assertEq expected_kdf_out o.to_hash
  let h ← (Hasher.new_derive_key cfg key).update cfg input
  let r ← h.finalize
  assertEq expected_kdf_out r
  let h ← (Hasher.new_derive_key cfg key).update cfg input
  let o ← h.finalize_xof
  assertEq expected_kdf_out o.to_hash

/-- test.rs:158-206 -/
def exercise_construction (cfg : Config) (construction : Construction) (input_len : Nat) : R Unit := do
  let input_buf ← paint_test_input (List.replicate 65536 0)
  let input ← sliceTo input_buf input_len
  exercise_construction_on cfg construction input

/-- test.rs:208-241 -/
def three_blocks_construction : Construction := fun input_buf key flags => do
  let key_words := words_from_key_bytes key
  let cv := key_words
  let block0 ← arrayRef input_buf 0 BLOCK_LEN
  let cv := Portable.compress cv block0 64 0 (flags ||| Flags.CHUNK_START)
  let block1 ← arrayRef input_buf BLOCK_LEN BLOCK_LEN
  let cv := Portable.compress cv block1 64 0 flags
  let block2 : Vector Byte 64 := Vector.replicate 64 0
  let byte ← index input_buf (2 * BLOCK_LEN)
  let block2 := block2.set 0 byte
  let cv := Portable.compress cv block2 1 0 (flags ||| Flags.CHUNK_END ||| Flags.ROOT)
  return bytes_from_state_words cv

/-- test.rs:243-246 -/
def test_three_blocks (cfg : Config) : R Unit :=
  exercise_construction cfg three_blocks_construction (2 * BLOCK_LEN + 1)

/-- The middle blocks, test.rs:268-276: `n` more from number `block_index` on. -/
def middle_blocks (chunk : Bytes) (offset : U64) (flags : Byte) : (n : Nat) → Nat → Vector Word 8 → R (Vector Word 8)
  | 0, _, cv => .ok cv
  | n + 1, block_index, cv => do
    let block ← arrayRef chunk (block_index * BLOCK_LEN) BLOCK_LEN
    let cv := Portable.compress cv block 64 offset flags
    middle_blocks chunk offset flags n (block_index + 1) cv

/-- test.rs:250-286 -/
def hash_whole_chunk_for_testing (chunk : Bytes) (key : Vector Word 8) (offset : U64) (flags : Byte) :
    R (Vector Byte 32) := do
  assertEq chunk.length CHUNK_LEN
  let blocks := CHUNK_LEN / BLOCK_LEN
  let cv := key
  let block ← arrayRef chunk 0 BLOCK_LEN
  let cv := Portable.compress cv block 64 offset (flags ||| Flags.CHUNK_START)
  let cv ← middle_blocks chunk offset flags (blocks - 1 - 1) 1 cv
  let block ← arrayRef chunk ((blocks - 1) * BLOCK_LEN) BLOCK_LEN
  let cv := Portable.compress cv block 64 offset (flags ||| Flags.CHUNK_END)
  return bytes_from_state_words cv

/-- test.rs:288-342; the two halves of a parent block are copied into a block of zeros. -/
def three_chunks_construction : Construction := fun input_buf key flags => do
  let key_words := words_from_key_bytes key
  -- The first chunk.
  let chunk0 ← sliceTo input_buf CHUNK_LEN
  let chunk0_out ← hash_whole_chunk_for_testing chunk0 key_words 0 flags
  -- The second chunk.
  let chunk1 ← sliceFrom input_buf CHUNK_LEN
  let chunk1 ← sliceTo chunk1 CHUNK_LEN
  let chunk1_out ← hash_whole_chunk_for_testing chunk1 key_words (BitVec.ofNat 64 CHUNK_LEN) flags
  -- The third and final chunk is one byte.
  let chunk2_block : Vector Byte 64 := Vector.replicate 64 0
  let byte ← index input_buf (2 * CHUNK_LEN)
  let chunk2_block := chunk2_block.set 0 byte
  let chunk2_cv := key_words
  let chunk2_cv := Portable.compress chunk2_cv chunk2_block 1 (BitVec.ofNat 64 (2 * CHUNK_LEN))
    (flags ||| Flags.CHUNK_START ||| Flags.CHUNK_END)
  let chunk2_out := bytes_from_state_words chunk2_cv
  -- The parent of the first two chunks.
  let left_parent_cv := key_words
  let left_parent_block : Bytes := List.replicate BLOCK_LEN 0
  let left_parent_block ← writeAt left_parent_block 0 chunk0_out.toList
  let left_parent_block ← writeAt left_parent_block OUT_LEN chunk1_out.toList
  let left_parent_block ← arrayRef left_parent_block 0 BLOCK_LEN
  let left_parent_cv := Portable.compress left_parent_cv left_parent_block 64 0 (flags ||| Flags.PARENT)
  let left_parent_out := bytes_from_state_words left_parent_cv
  -- The root node.
  let root_cv := key_words
  let root_block : Bytes := List.replicate BLOCK_LEN 0
  let root_block ← writeAt root_block 0 left_parent_out.toList
  let root_block ← writeAt root_block OUT_LEN chunk2_out.toList
  let root_block ← arrayRef root_block 0 BLOCK_LEN
  let root_cv := Portable.compress root_cv root_block 64 0 (flags ||| Flags.PARENT ||| Flags.ROOT)
  return bytes_from_state_words root_cv

/-- test.rs:344-347 -/
def test_three_chunks (cfg : Config) : R Unit :=
  exercise_construction cfg three_chunks_construction (2 * CHUNK_LEN + 1)

/-- test.rs:353-366, with any key and input -/
def test_xof_output_on (cfg : Config) (prof : Profile) (key : Vector Byte 32) (input : Bytes) : R Unit := do
  let expected_hash ← keyed_hash cfg key input
  let h ← (Hasher.new_keyed cfg key).update cfg input
  let xof ← h.finalize_xof
  let (first_bytes, xof) ← xof.read prof
  let s ← sliceTo first_bytes.toList OUT_LEN
  assertEq s expected_hash.toList
  let s ← sliceFrom first_bytes.toList OUT_LEN
  assertNe s expected_hash.toList
  let (second_bytes, xof) ← xof.read prof
  assertNe first_bytes.toList second_bytes.toList
  let (third_bytes, _) ← xof.read prof
  assertNe first_bytes.toList third_bytes.toList
  assertNe second_bytes.toList third_bytes.toList

/-- test.rs:349-367; `b"abc"` is 97, 98, 99 -/
def test_xof_output (cfg : Config) (prof : Profile) : R Unit :=
  test_xof_output_on cfg prof (Vector.replicate 32 42) [97, 98, 99]

/-- test.rs:371-375, with any key and input in the place of `bytes_from_state_words(&IV)` and `b"foo"` -/
def test_domain_separation_on (cfg : Config) (key : Vector Byte 32) (input : Bytes) : R Unit := do
  let h1 ← hash cfg input
  let h2 ← keyed_hash cfg key input
  let o ← derive_key_xof cfg key input
  let h3 := o.to_hash
  assertNe h1 h2
  assertNe h2 h3

/-- test.rs:369-376; `b"foo"` is 102, 111, 111 -/
def test_domain_separation (cfg : Config) : R Unit :=
  test_domain_separation_on cfg (bytes_from_state_words IV) [102, 111, 111]

/-- test.rs:380-388, with any key and input -/
def test_regular_xof_match_on (cfg : Config) (prof : Profile) (key : Vector Byte 32) (input : Bytes) : R Unit := do
  let r ← hash cfg input
  let o ← hash_xof cfg input
  assertEq r o.to_hash
  let r ← keyed_hash cfg key input
  let o ← keyed_hash_xof cfg key input
  assertEq r o.to_hash
  let r ← derive_key cfg key input
  let o ← derive_key_xof cfg key input
  let (b, _) ← o.read prof
  let b ← sliceTo b.toList OUT_LEN
  assertEq r.toList b

/-- test.rs:378-389; `b"foo"` is 102, 111, 111 -/
def test_regular_xof_match (cfg : Config) (prof : Profile) : R Unit :=
  test_regular_xof_match_on cfg prof (Vector.replicate 32 5) [102, 111, 111]

/-- test.rs:391-395 -/
def finalize_default_length (hasher : Ref.Hasher) : R Bytes := hasher.finalize (List.replicate 32 0)

/-- The loop of test.rs:415-417 -/
def ref_update_bytes : Bytes → Ref.Hasher → R Ref.Hasher
  | [], h => .ok h
  | byte :: rest, h => do
    let h ← h.update [byte]
    ref_update_bytes rest h

/-- The loop of test.rs:441-443; at most `n` times round. -/
def read_loop (prof : Profile) (len : Nat) : (n : Nat) → Bytes → Output → R Bytes
  | 0, expected, _ => .ok expected
  | n + 1, expected, xof =>
    if expected.length < len then do
      let (b, xof) ← xof.read prof
      read_loop prof len n (expected ++ b.toList) xof
    else .ok expected

/-- The body of the loop of `test_lib_against_reference_impl`, test.rs:407-444, with any key, input and length of the
extended output -/
def reference_on (cfg : Config) (prof : Profile) (key : Vector Byte 32) (input : Bytes) (len : Nat) : R Unit := do
  -- all at once
  let hasher ← Ref.Hasher.new.update input
  let output ← finalize_default_length hasher
  let r ← hash cfg input
  assertEq r.toList output
  -- one byte at a time
  let hasher ← ref_update_bytes input Ref.Hasher.new
  let output ← finalize_default_length hasher
  let r ← hash cfg input
  assertEq r.toList output
  -- keyed
  let hasher ← (Ref.Hasher.new_keyed key).update input
  let output ← finalize_default_length hasher
  let r ← keyed_hash cfg key input
  assertEq r.toList output
  -- derive key
  let hasher ← (Ref.Hasher.new_derive_key key).update input
  let output ← finalize_default_length hasher
  let r ← derive_key cfg key input
  assertEq r.toList output
  -- extended output
  let hasher ← (Ref.Hasher.new_keyed key).update input
  let output : Bytes := List.replicate len 0
  let output ← hasher.finalize output
  let xof ← keyed_hash_xof cfg key input
  let expected_output ← read_loop prof output.length output.length [] xof
  let s ← sliceTo expected_output output.length
  assertEq s output

/-- test.rs:402-445, with any key, cases and length of the extended output -/
def test_lib_against_reference_impl_on (cfg : Config) (prof : Profile) (key : Vector Byte 32) (cases : List Nat) (len : Nat) :
    R Unit :=
  forEach (fun case => do
    let input ← paint_test_input (List.replicate case 0)
    reference_on cfg prof key input len) cases

/-- test.rs:397-446 -/
def test_lib_against_reference_impl (cfg : Config) (prof : Profile) : R Unit := do
  let key ← paint_test_input (List.replicate KEY_LEN 0)
  let key ← arrayRef key 0 KEY_LEN
  test_lib_against_reference_impl_on cfg prof key TEST_CASES 303

end Baokeshed.Model.RT
