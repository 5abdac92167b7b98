import Verif.Model.RustTest
import Verif.Model.C.Hasher
import Verif.Model.C64.Portable
import Verif.Model.C64.Sse41
import Verif.Model.C64.Avx2
import Verif.Model.C64.Avx512
import Verif.Model.C64.Neon
import Verif.Model.Portable64
import Verif.Model.Cli

/-!
# The tests inside the modules

The tests of /repo/src/portable.rs, sse41.rs, avx2.rs, c.rs, portable64.rs, c64.rs, copy.rs and of
/repo/baokeshed_bin/tests/test.rs.  As in Model/RustTest.lean every test is a function that panics where the test would;
the function called `…_on` takes what the test fixes (bytes, keys, offsets, flags) as parameters.

The tests of the C code take a Rust machine `cfg` and a C build `ccfg`.  A test that needs an instruction set returns
early on a machine without it.  Not modelled: `dbg!`; the type of `ArrayVec` in the tests of `hash_many` (the model keeps
the list); `tempdir` and the start of a process (the program is `Cli.main`, on an environment in which the files exist).
-/

namespace Baokeshed.Model.UT
open RT (assertEq forEach paint_test_input)

/-- `array_ref!(buf, off, n)` as a slice -/
def window (buf : Bytes) (off n : Nat) : R Bytes := do
  let v ← arrayRef buf off n
  return v.toList

/-- The loop that collects the inputs, for example sse41.rs:1006-1008: `n` pieces of `len` bytes one after the other. -/
def windows (buf : Bytes) (len : Nat) : (n i : Nat) → R (List Bytes)
  | 0, _ => .ok []
  | n + 1, i => do
    let x ← window buf (i * len) len
    let xs ← windows buf len n (i + 1)
    return x :: xs

/-! ## portable.rs -/

/-- portable.rs:195-216 -/
def portable_hash1_1_on (block : Vector Byte 64) (key : Vector Word 8) (offset : U64) (flags fs fe : Byte) : R Unit := do
  let expected_cv := Portable.compress key block (BitVec.ofNat 8 BLOCK_LEN) offset (flags ||| fs ||| fe)
  let expected_out := bytes_from_state_words expected_cv
  let test_out ← Portable.hash1 block.toList key offset flags fs fe
  assertEq expected_out test_out

/-- portable.rs:186-217 -/
def portable_test_hash1_1 : R Unit :=
  portable_hash1_1_on (Vector.replicate 64 1) (Vector.replicate 8 2) (3 * BitVec.ofNat 64 CHUNK_LEN) 4 8 16

/-- portable.rs:229-264 -/
def portable_hash1_3_on (blocks : Bytes) (key : Vector Word 8) (offset : U64) (flags fs fe : Byte) : R Unit := do
  let block ← arrayRef blocks 0 BLOCK_LEN
  let expected_cv := Portable.compress key block (BitVec.ofNat 8 BLOCK_LEN) offset (flags ||| fs)
  let block ← arrayRef blocks BLOCK_LEN BLOCK_LEN
  let expected_cv := Portable.compress expected_cv block (BitVec.ofNat 8 BLOCK_LEN) offset flags
  let block ← arrayRef blocks (2 * BLOCK_LEN) BLOCK_LEN
  let expected_cv := Portable.compress expected_cv block (BitVec.ofNat 8 BLOCK_LEN) offset (flags ||| fe)
  let expected_out := bytes_from_state_words expected_cv
  let test_out ← Portable.hash1 blocks key offset flags fs fe
  assertEq expected_out test_out

/-- portable.rs:219-265 -/
def portable_test_hash1_3 : R Unit := do
  let blocks ← paint_test_input (List.replicate (BLOCK_LEN * 3) 0)
  portable_hash1_3_on blocks (Vector.replicate 8 2) (3 * BitVec.ofNat 64 CHUNK_LEN) 4 8 16

/-- portable.rs:271-324 -/
def portable_hash_many_on (input_buf : Bytes) (key : Vector Word 8) (offset delta : U64) (flags fs fe : Byte) : R Unit := do
  let input0 ← window input_buf (0 * BLOCK_LEN) (3 * BLOCK_LEN)
  let input1 ← window input_buf (3 * BLOCK_LEN) (3 * BLOCK_LEN)
  let input2 ← window input_buf (6 * BLOCK_LEN) (3 * BLOCK_LEN)
  let expected_out : Bytes := List.replicate (3 * OUT_LEN) 0
  let d ← mulU64 0 delta
  let off ← addU64 offset d
  let h ← Portable.hash1 input0 key off flags fs fe
  let expected_out ← writeAt expected_out (0 * OUT_LEN) h.toList
  let d ← mulU64 1 delta
  let off ← addU64 offset d
  let h ← Portable.hash1 input1 key off flags fs fe
  let expected_out ← writeAt expected_out (1 * OUT_LEN) h.toList
  let d ← mulU64 2 delta
  let off ← addU64 offset d
  let h ← Portable.hash1 input2 key off flags fs fe
  let expected_out ← writeAt expected_out (2 * OUT_LEN) h.toList
  let test_out ← Portable.hash_many [input0, input1, input2] key offset delta flags fs fe (List.replicate (OUT_LEN * 3) 0)
  assertEq expected_out test_out

/-- portable.rs:267-325 -/
def portable_test_hash_many : R Unit := do
  let input_buf ← paint_test_input (List.replicate (BLOCK_LEN * 9) 0)
  portable_hash_many_on input_buf (Vector.replicate 8 2) (3 * BitVec.ofNat 64 CHUNK_LEN) (BitVec.ofNat 64 CHUNK_LEN) 4 8 16

/-! ## sse41.rs and avx2.rs -/

/-- `core::mem::transmute` between four words and a register, sse41.rs:713,715 -/
def ofRow4 (r : Vector Word 4) : M128 := mm_setr_epi32 r[0] r[1] r[2] r[3]
/-- the other direction -/
def toRow4 (x : M128) : Vector Word 4 := Vector.ofFn fun j => lane 32 x j.val

/-- sse41.rs:712-716, with any matrix -/
def sse41_transposed (matrix : Vector (Vector Word 4) 4) : Vector (Vector Word 4) 4 :=
  (Sse41.transpose_vecs (matrix.map ofRow4)).map toRow4

/-- sse41.rs:694-724 -/
def sse41_test_transpose (cfg : Config) : R Unit :=
  if !cfg.hasSse41 then .ok ()
  else
    let matrix : Vector (Vector Word 4) 4 := Vector.ofFn fun i => Vector.ofFn fun j => BitVec.ofNat 32 (i.val * 4 + j.val)
    let matrix := sse41_transposed matrix
    forEach (fun i : Fin 4 => forEach (fun j : Fin 4 =>
      assertEq matrix[j.val][i.val] (BitVec.ofNat 32 (i.val * 4 + j.val))) (List.finRange 4)) (List.finRange 4)

/-- `core::mem::transmute` between eight words and a register, avx2.rs:451,453 -/
def ofRow8 (r : Vector Word 8) : M256 := mm256_setr_epi32 r[0] r[1] r[2] r[3] r[4] r[5] r[6] r[7]
/-- the other direction -/
def toRow8 (x : M256) : Vector Word 8 := Vector.ofFn fun j => lane 32 x j.val

/-- avx2.rs:450-454, with any matrix -/
def avx2_transposed (matrix : Vector (Vector Word 8) 8) : Vector (Vector Word 8) 8 :=
  (Avx2.transpose_vecs (matrix.map ofRow8)).map toRow8

/-- avx2.rs:432-462 -/
def avx2_test_transpose (cfg : Config) : R Unit :=
  if !cfg.hasAvx2 then .ok ()
  else
    let matrix : Vector (Vector Word 8) 8 := Vector.ofFn fun i => Vector.ofFn fun j => BitVec.ofNat 32 (i.val * 8 + j.val)
    let matrix := avx2_transposed matrix
    forEach (fun i : Fin 8 => forEach (fun j : Fin 8 =>
      assertEq matrix[j.val][i.val] (BitVec.ofNat 32 (i.val * 8 + j.val))) (List.finRange 8)) (List.finRange 8)

/-- the block of `test_compress`, sse41.rs:734-735: `block_len` painted bytes, then zeros -/
def painted_block (len block_len : Nat) : R Bytes := do
  let painted ← paint_test_input (List.replicate block_len 0)
  writeAt (List.replicate len 0) 0 painted

/-- the offset with set bits in both words, for example sse41.rs:737; the shift does not overflow -/
def wide_offset : R U64 := addU64 ((5 * BitVec.ofNat 64 CHUNK_LEN) <<< 32) (6 * BitVec.ofNat 64 CHUNK_LEN)

/-- sse41.rs:740-760 -/
def sse41_compress_on (initial_state : Vector Word 8) (block : Vector Byte 64) (block_len : Byte) (offset : U64)
    (flags : Byte) : R Unit :=
  assertEq (Portable.compress initial_state block block_len offset flags)
    (Sse41.compress initial_state block block_len offset flags)

/-- sse41.rs:726-761 -/
def sse41_test_compress (cfg : Config) : R Unit :=
  if !cfg.hasSse41 then .ok ()
  else do
    let block ← painted_block BLOCK_LEN 27
    let block ← arrayRef block 0 BLOCK_LEN
    let offset ← wide_offset
    sse41_compress_on #v[1, 2, 3, 4, 5, 6, 7, 8] block 27 offset (Flags.CHUNK_END ||| Flags.ROOT)

/-- sse41.rs:777-795 -/
def sse41_compress_xof_on (initial_state : Vector Word 8) (block : Vector Byte 64) (block_len : Byte) (offset : U64)
    (flags : Byte) : R Unit :=
  assertEq (Portable.compress_xof initial_state block block_len offset flags)
    (Sse41.compress_xof initial_state block block_len offset flags)

/-- sse41.rs:763-796 -/
def sse41_test_compress_xof (cfg : Config) : R Unit :=
  if !cfg.hasSse41 then .ok ()
  else do
    let block ← painted_block BLOCK_LEN 27
    let block ← arrayRef block 0 BLOCK_LEN
    let offset ← wide_offset
    sse41_compress_xof_on #v[1, 2, 3, 4, 5, 6, 7, 8] block 27 offset (Flags.CHUNK_END ||| Flags.ROOT)

/-- the loop of `test_parents`, sse41.rs:815-819 and avx2.rs:485-489: the parents zipped with the 32-byte pieces of `out`.
The pieces are written front to back. -/
def parents_out (key : Vector Word 8) (flags : Byte) : List Bytes → R Bytes
  | [] => .ok []
  | parent :: parents => do
    let block ← arrayRef parent 0 BLOCK_LEN
    let cv := Portable.compress key block (BitVec.ofNat 8 BLOCK_LEN) 0 flags
    let rest ← parents_out key flags parents
    return (bytes_from_state_words cv).toList ++ rest

/-- the inner loop of `test_chunks`, sse41.rs:872-885 and avx2.rs:550-563: one chunk, block by block -/
def chunk_blocks (offset : U64) (flags : Byte) : (blocks : List Bytes) → (block_index : Nat) → Vector Word 8 → R (Vector Word 8)
  | [], _, cv => .ok cv
  | block :: blocks, block_index, cv => do
    let block_flags := flags
    let block_flags := if block_index = 0 then block_flags ||| Flags.CHUNK_START else block_flags
    let block_flags := if block_index = CHUNK_LEN / BLOCK_LEN - 1 then block_flags ||| Flags.CHUNK_END else block_flags
    let block ← arrayRef block 0 BLOCK_LEN
    let cv := Portable.compress cv block (BitVec.ofNat 8 BLOCK_LEN) offset block_flags
    chunk_blocks offset flags blocks (block_index + 1) cv

/-- the outer loop of `test_chunks`, sse41.rs:865-887 and avx2.rs:543-565 -/
def chunks_out (key : Vector Word 8) (initial_offset : U64) (flags : Byte) : List Bytes → (chunk_index : Nat) → R Bytes
  | [], _ => .ok []
  | chunk :: chunks, chunk_index => do
    let offset ← addU64 initial_offset (BitVec.ofNat 64 (chunk_index * CHUNK_LEN))
    let cv ← chunk_blocks offset flags (chunksExact BLOCK_LEN chunk) 0 key
    let rest ← chunks_out key initial_offset flags chunks (chunk_index + 1)
    return (bytes_from_state_words cv).toList ++ rest

/-- the four or eight inputs as an array of pointers -/
def pointers (n : Nat) (xs : List Bytes) : R (Vector Bytes n) := arrayRef xs 0 n

/-- sse41.rs:806-842 -/
def sse41_parents_on (input : Bytes) (key : Vector Word 8) (flags : Byte) : R Unit := do
  let parents ← windows input BLOCK_LEN 4 0
  let portable_out ← parents_out key flags parents
  let inputs ← pointers 4 parents
  let simd_out ← Sse41.hash4 inputs 1 key 0 0 0 flags 0 (List.replicate (4 * OUT_LEN) 0)
  assertEq portable_out simd_out

/-- sse41.rs:798-843 -/
def sse41_test_parents (cfg : Config) : R Unit :=
  if !cfg.hasSse41 then .ok ()
  else do
    let input ← paint_test_input (List.replicate (4 * BLOCK_LEN) 0)
    sse41_parents_on input #v[99, 98, 97, 96, 95, 94, 93, 92] Flags.PARENT

/-- sse41.rs:853-910 -/
def sse41_chunks_on (input : Bytes) (key : Vector Word 8) (initial_offset : U64) (flags : Byte) : R Unit := do
  let chunks ← windows input CHUNK_LEN 4 0
  let portable_out ← chunks_out key initial_offset flags chunks 0
  let inputs ← pointers 4 chunks
  let simd_out ← Sse41.hash4 inputs (CHUNK_LEN / BLOCK_LEN) key initial_offset (BitVec.ofNat 64 CHUNK_LEN) flags
    Flags.CHUNK_START Flags.CHUNK_END (List.replicate (4 * OUT_LEN) 0)
  assertEq portable_out simd_out

/-- sse41.rs:845-911 -/
def sse41_test_chunks (cfg : Config) : R Unit :=
  if !cfg.hasSse41 then .ok ()
  else do
    let input ← paint_test_input (List.replicate (4 * CHUNK_LEN) 0)
    let initial_offset ← wide_offset
    sse41_chunks_on input #v[108, 107, 106, 105, 104, 103, 102, 101] initial_offset Flags.KEYED_HASH

/-- avx2.rs:472-516 -/
def avx2_parents_on (input : Bytes) (key : Vector Word 8) (flags : Byte) : R Unit := do
  let parents ← windows input BLOCK_LEN 8 0
  let portable_out ← parents_out key flags parents
  let inputs ← pointers 8 parents
  let simd_out ← Avx2.hash8 inputs 1 key 0 0 0 flags 0 (List.replicate (8 * OUT_LEN) 0)
  assertEq portable_out simd_out

/-- avx2.rs:464-517 -/
def avx2_test_parents (cfg : Config) : R Unit :=
  if !cfg.hasAvx2 then .ok ()
  else do
    let input ← paint_test_input (List.replicate (8 * BLOCK_LEN) 0)
    avx2_parents_on input #v[99, 98, 97, 96, 95, 94, 93, 92] Flags.PARENT

/-- avx2.rs:527-592 -/
def avx2_chunks_on (input : Bytes) (key : Vector Word 8) (initial_offset : U64) (flags : Byte) : R Unit := do
  let chunks ← windows input CHUNK_LEN 8 0
  let portable_out ← chunks_out key initial_offset flags chunks 0
  let inputs ← pointers 8 chunks
  let simd_out ← Avx2.hash8 inputs (CHUNK_LEN / BLOCK_LEN) key initial_offset (BitVec.ofNat 64 CHUNK_LEN) flags
    Flags.CHUNK_START Flags.CHUNK_END (List.replicate (8 * OUT_LEN) 0)
  assertEq portable_out simd_out

/-- avx2.rs:519-593 -/
def avx2_test_chunks (cfg : Config) : R Unit :=
  if !cfg.hasAvx2 then .ok ()
  else do
    let input ← paint_test_input (List.replicate (8 * CHUNK_LEN) 0)
    let initial_offset ← wide_offset
    avx2_chunks_on input #v[108, 107, 106, 105, 104, 103, 102, 101] initial_offset Flags.KEYED_HASH

/-- sse41.rs:926-950 and 966-991 -/
def sse41_hash1_on (blocks : Bytes) (key : Vector Word 8) (offset : U64) (flags fs fe : Byte) : R Unit := do
  let portable_out ← Portable.hash1 blocks key offset flags fs fe
  let test_out ← Sse41.hash1 blocks key offset flags fs fe
  assertEq portable_out test_out

/-- sse41.rs:913-951 -/
def sse41_test_hash1_1 (cfg : Config) : R Unit :=
  if !cfg.hasSse41 then .ok ()
  else sse41_hash1_on (List.replicate BLOCK_LEN 1) (Vector.replicate 8 2) (3 * BitVec.ofNat 64 CHUNK_LEN) 4 8 16

/-- sse41.rs:953-992 -/
def sse41_test_hash1_3 (cfg : Config) : R Unit :=
  if !cfg.hasSse41 then .ok ()
  else do
    let blocks ← paint_test_input (List.replicate (BLOCK_LEN * 3) 0)
    sse41_hash1_on blocks (Vector.replicate 8 2) (3 * BitVec.ofNat 64 CHUNK_LEN) 4 8 16

/-- `hash_many` as the tests call it; the first argument is the common length of the inputs -/
abbrev RustHashMany := Nat → List Bytes → Vector Word 8 → U64 → U64 → Byte → Byte → Byte → Bytes → R Bytes

/-- sse41.rs:1005-1042 and avx2.rs:606-643, with any number of inputs of any number of blocks -/
def simd_hash_many_on (hash_many : RustHashMany) (blocks num : Nat) (input_buf : Bytes) (key : Vector Word 8)
    (offset delta : U64) (flags fs fe : Byte) : R Unit := do
  let inputs ← windows input_buf (blocks * BLOCK_LEN) num 0
  let portable_out ← Portable.hash_many inputs key offset delta flags fs fe (List.replicate (OUT_LEN * num) 0)
  let test_out ← hash_many (blocks * BLOCK_LEN) inputs key offset delta flags fs fe (List.replicate (OUT_LEN * num) 0)
  assertEq portable_out test_out

/-- sse41.rs:994-1043 -/
def sse41_test_hash_many (cfg : Config) : R Unit :=
  if !cfg.hasSse41 then .ok ()
  else do
    let input_buf ← paint_test_input (List.replicate (31 * (3 * BLOCK_LEN)) 0)
    simd_hash_many_on Sse41.hash_many 3 31 input_buf (Vector.replicate 8 2) (3 * BitVec.ofNat 64 CHUNK_LEN)
      (BitVec.ofNat 64 CHUNK_LEN) 4 8 16

/-- avx2.rs:595-644 -/
def avx2_test_hash_many (cfg : Config) : R Unit :=
  if !cfg.hasAvx2 then .ok ()
  else do
    let input_buf ← paint_test_input (List.replicate (31 * (3 * BLOCK_LEN)) 0)
    simd_hash_many_on Avx2.hash_many 3 31 input_buf (Vector.replicate 8 2) (3 * BitVec.ofNat 64 CHUNK_LEN)
      (BitVec.ofNat 64 CHUNK_LEN) 4 8 16

/-! ## c.rs -/

/-- c.rs:239-257 -/
def CHUNK_OFFSET_DELTAS : List U64 :=
  [BitVec.ofNat 64 CHUNK_LEN * 0, BitVec.ofNat 64 CHUNK_LEN * 1, BitVec.ofNat 64 CHUNK_LEN * 2, BitVec.ofNat 64 CHUNK_LEN * 3,
   BitVec.ofNat 64 CHUNK_LEN * 4, BitVec.ofNat 64 CHUNK_LEN * 5, BitVec.ofNat 64 CHUNK_LEN * 6, BitVec.ofNat 64 CHUNK_LEN * 7,
   BitVec.ofNat 64 CHUNK_LEN * 8, BitVec.ofNat 64 CHUNK_LEN * 9, BitVec.ofNat 64 CHUNK_LEN * 10, BitVec.ofNat 64 CHUNK_LEN * 11,
   BitVec.ofNat 64 CHUNK_LEN * 12, BitVec.ofNat 64 CHUNK_LEN * 13, BitVec.ofNat 64 CHUNK_LEN * 14, BitVec.ofNat 64 CHUNK_LEN * 15,
   BitVec.ofNat 64 CHUNK_LEN * 16]

/-- c.rs:259 -/
def PARENT_OFFSET_DELTAS : List U64 := List.replicate 17 0

/-- `CompressFn`, c.rs:285-291 -/
abbrev CompressFn := Vector Word 8 → Bytes → Byte → U64 → Byte → R (Vector Word 8)

/-- c.rs:303-322 -/
def compare_compress_on (compress_fn : CompressFn) (initial_state : Vector Word 8) (block : Vector Byte 64)
    (block_len : Byte) (offset : U64) (flags : Byte) : R Unit := do
  let rust_state := Portable.compress initial_state block block_len offset flags
  let c_state ← compress_fn initial_state block.toList block_len offset flags
  assertEq rust_state c_state

/-- c.rs:293-323 -/
def compare_compress_fn (compress_fn : CompressFn) : R Unit := do
  let block ← painted_block BLOCK_LEN 27
  let block ← arrayRef block 0 BLOCK_LEN
  let offset ← wide_offset
  compare_compress_on compress_fn #v[1, 2, 3, 4, 5, 6, 7, 8] block 27 offset (Flags.CHUNK_END ||| Flags.ROOT)

/-- c.rs:325-328 -/
def c_test_compress_portable : R Unit := compare_compress_fn C.Portable.compress_portable
/-- c.rs:330-334 -/
def c_test_compress_sse41 : R Unit := compare_compress_fn C.Sse41.compress_sse41
/-- c.rs:336-340 -/
def c_test_compress_avx512 : R Unit := compare_compress_fn C.Avx512.compress_avx512

/-- `HashManyFn`, c.rs:342-353 -/
abbrev HashManyFn := List Bytes → Nat → Nat → Vector Word 8 → U64 → List U64 → Byte → Byte → Byte → Bytes → R Bytes

/-- c.rs:396-402: the outputs are compared piece by piece -/
def compare_out (num : Nat) (rust_out c_out : Bytes) : R Unit :=
  forEach (fun n => do
    let a ← sliceFrom rust_out (n * OUT_LEN)
    let a ← sliceTo a OUT_LEN
    let b ← sliceFrom c_out (n * OUT_LEN)
    let b ← sliceTo b OUT_LEN
    assertEq a b) (List.range num)

/-- c.rs:363-443, with any number of inputs, any key and offset -/
def compare_hash_many_on (cfg : Config) (hash_many_fn : HashManyFn) (num : Nat) (input_buf : Bytes) (key_words : Vector Word 8)
    (offset : U64) : R Unit := do
  let chunks ← windows input_buf CHUNK_LEN num 0
  let rust_out ← (Platform.detect cfg).hash_many CHUNK_LEN chunks key_words offset (BitVec.ofNat 64 CHUNK_LEN) Flags.KEYED_HASH
    Flags.CHUNK_START Flags.CHUNK_END (List.replicate (num * OUT_LEN) 0)
  let c_out ← hash_many_fn chunks num (CHUNK_LEN / BLOCK_LEN) key_words offset CHUNK_OFFSET_DELTAS Flags.KEYED_HASH
    Flags.CHUNK_START Flags.CHUNK_END (List.replicate (num * OUT_LEN) 0)
  compare_out num rust_out c_out
  let parents ← windows input_buf BLOCK_LEN num 0
  let rust_out ← (Platform.detect cfg).hash_many BLOCK_LEN parents key_words 0 0 Flags.PARENT 0 0 (List.replicate (num * OUT_LEN) 0)
  let c_out ← hash_many_fn parents num 1 key_words 0 PARENT_OFFSET_DELTAS Flags.PARENT 0 0 (List.replicate (num * OUT_LEN) 0)
  compare_out num rust_out c_out

/-- c.rs:355-444 -/
def compare_hash_many_fn (cfg : Config) (hash_many_fn : HashManyFn) : R Unit := do
  let input_buf ← paint_test_input (List.replicate (CHUNK_LEN * 31) 0)
  compare_hash_many_on cfg hash_many_fn 31 input_buf #v[21, 22, 23, 24, 25, 26, 27, 28] (99 * BitVec.ofNat 64 CHUNK_LEN)

/-- c.rs:446-449 -/
def c_test_hash_many_portable (cfg : Config) : R Unit := compare_hash_many_fn cfg C.Portable.hash_many_portable
/-- c.rs:451-455 -/
def c_test_hash_many_sse41 (cfg : Config) : R Unit := compare_hash_many_fn cfg C.Sse41.hash_many_sse41
/-- c.rs:457-461 -/
def c_test_hash_many_avx2 (cfg : Config) : R Unit := compare_hash_many_fn cfg C.Avx2.hash_many_avx2
/-- c.rs:463-467 -/
def c_test_hash_many_avx512 (cfg : Config) : R Unit := compare_hash_many_fn cfg C.Avx512.hash_many_avx512
/-- c.rs:469-473; the byte order of the machine is a parameter -/
def c_test_hash_many_neon (order : ByteOrder) (cfg : Config) : R Unit := compare_hash_many_fn cfg (C.Neon.hash_many_neon order)

/-- `ChunkState::new`, c.rs:262-268.  (The members that `chunk_state_init` does not set are not modelled.) -/
def c_chunk_new (key_words : Vector Word 8) (flags : Byte) : C.chunk_state := C.chunk_state_init key_words flags

/-- `ChunkState::update`, c.rs:270-274 -/
def c_chunk_update (ccfg : C.Config) (s : C.chunk_state) (input : Bytes) : R C.chunk_state :=
  C.chunk_state_update ccfg s input input.length

/-- `ChunkState::finalize`, c.rs:276-282 -/
def c_chunk_finalize (ccfg : C.Config) (s : C.chunk_state) (is_root : Bool) : R (Vector Byte 32) := do
  let out : Bytes := List.replicate OUT_LEN 0
  let out ← C.chunk_state_finalize ccfg s is_root out
  arrayRef out 0 OUT_LEN

/-- c.rs:510-512 -/
def c_chunk_bytes (ccfg : C.Config) : Bytes → C.chunk_state → R C.chunk_state
  | [], s => .ok s
  | byte :: rest, s => do
    let s ← c_chunk_update ccfg s [byte]
    c_chunk_bytes ccfg rest s

/-- c.rs:495-514, one case with any input, key and flags -/
def compare_hash_chunk_on (cfg : Config) (ccfg : C.Config) (key_words : Vector Word 8) (flags : Byte) (is_root : IsRoot)
    (input : Bytes) : R Unit := do
  let rust_chunk ← (ChunkState.new cfg key_words flags).update input
  let o ← rust_chunk.finalize is_root
  let rust_out := o.to_hash
  -- First test at once.
  let is_root_bool := decide (is_root.flag > 0)
  let c_chunk ← c_chunk_update ccfg (c_chunk_new key_words flags) input
  let c_out ← c_chunk_finalize ccfg c_chunk is_root_bool
  assertEq rust_out c_out
  -- Then test one byte at a time.
  let c_chunk ← c_chunk_bytes ccfg input (c_chunk_new key_words flags)
  let c_out ← c_chunk_finalize ccfg c_chunk is_root_bool
  assertEq rust_out c_out

/-- c.rs:475-517 -/
def test_compare_hash_chunk (cfg : Config) (ccfg : C.Config) : R Unit := do
  let input_buf ← paint_test_input (List.replicate CHUNK_LEN 0)
  forEach (fun is_root => forEach (fun case => do
    let input ← sliceTo input_buf case
    compare_hash_chunk_on cfg ccfg #v[10, 11, 12, 13, 14, 15, 16, 17] Flags.KEYED_HASH is_root input)
    [0, 1, BLOCK_LEN - 1, BLOCK_LEN, BLOCK_LEN + 1, CHUNK_LEN - 1, CHUNK_LEN]) [IsRoot.notRoot, IsRoot.root]

/-- c.rs:540-542 -/
def c_hasher_bytes (ccfg : C.Config) : Bytes → C.hasher → R C.hasher
  | [], h => .ok h
  | byte :: rest, h => do
    let h ← C.Ffi.update ccfg h [byte]
    c_hasher_bytes ccfg rest h

/-- c.rs:528-544, one case with any input, key and flags.  `mem` and `mem'` are the uninitialised memory of the two hashers. -/
def compare_hash_tree_on (cfg : Config) (ccfg : C.Config) (mem mem' : Vector Byte C.Ffi.SUBTREE_HASHES_LEN)
    (key_words : Vector Word 8) (flags : Byte) (input : Bytes) : R Unit := do
  let key_bytes := bytes_from_state_words key_words
  let o ← hash_internal cfg input key_words flags
  let rust_hash := o.to_hash
  -- First test at once.
  let c_hasher ← C.Ffi.new mem key_bytes flags
  let c_hasher ← C.Ffi.update ccfg c_hasher input
  let c_hash ← C.Ffi.finalize ccfg c_hasher
  assertEq rust_hash c_hash
  -- Then test one byte at a time.
  let c_hasher ← C.Ffi.new mem' key_bytes flags
  let c_hasher ← c_hasher_bytes ccfg input c_hasher
  let c_hash ← C.Ffi.finalize ccfg c_hasher
  assertEq rust_hash c_hash

/-- c.rs:519-546 -/
def test_compare_hash_tree (cfg : Config) (ccfg : C.Config) (mem mem' : Nat → Vector Byte C.Ffi.SUBTREE_HASHES_LEN) : R Unit := do
  let input_buf ← paint_test_input (List.replicate RT.TEST_CASES_MAX 0)
  forEach (fun case => do
    let input ← sliceTo input_buf case
    compare_hash_tree_on cfg ccfg (mem case) (mem' case) (Vector.replicate 8 5) Flags.KEYED_HASH input) RT.TEST_CASES

/-! ## portable64.rs and c64.rs -/

/-- portable64.rs:238-259 -/
def portable64_hash1_1_on (block : Vector Byte 128) (key : Vector U64 4) (offset : U64) (flags fs fe : Byte) : R Unit := do
  let expected_cv := Portable64.compress key block (BitVec.ofNat 8 Portable64.BLOCK_LEN) offset (flags ||| fs ||| fe)
  let expected_out := Portable64.bytes_from_state_words expected_cv
  let test_out ← Portable64.hash1 block.toList key offset flags fs fe
  assertEq expected_out test_out

/-- portable64.rs:229-260 -/
def portable64_test_hash1_1 : R Unit :=
  portable64_hash1_1_on (Vector.replicate 128 1) (Vector.replicate 4 2) (3 * BitVec.ofNat 64 Portable64.CHUNK_LEN) 4 8 16

/-- portable64.rs:272-307 -/
def portable64_hash1_3_on (blocks : Bytes) (key : Vector U64 4) (offset : U64) (flags fs fe : Byte) : R Unit := do
  let block ← arrayRef blocks 0 Portable64.BLOCK_LEN
  let expected_cv := Portable64.compress key block (BitVec.ofNat 8 Portable64.BLOCK_LEN) offset (flags ||| fs)
  let block ← arrayRef blocks Portable64.BLOCK_LEN Portable64.BLOCK_LEN
  let expected_cv := Portable64.compress expected_cv block (BitVec.ofNat 8 Portable64.BLOCK_LEN) offset flags
  let block ← arrayRef blocks (2 * Portable64.BLOCK_LEN) Portable64.BLOCK_LEN
  let expected_cv := Portable64.compress expected_cv block (BitVec.ofNat 8 Portable64.BLOCK_LEN) offset (flags ||| fe)
  let expected_out := Portable64.bytes_from_state_words expected_cv
  let test_out ← Portable64.hash1 blocks key offset flags fs fe
  assertEq expected_out test_out

/-- portable64.rs:262-308 -/
def portable64_test_hash1_3 : R Unit := do
  let blocks ← paint_test_input (List.replicate (Portable64.BLOCK_LEN * 3) 0)
  portable64_hash1_3_on blocks (Vector.replicate 4 2) (3 * BitVec.ofNat 64 Portable64.CHUNK_LEN) 4 8 16

/-- portable64.rs:314-367 -/
def portable64_hash_many_on (input_buf : Bytes) (key : Vector U64 4) (offset delta : U64) (flags fs fe : Byte) : R Unit := do
  let input0 ← window input_buf (0 * Portable64.BLOCK_LEN) (3 * Portable64.BLOCK_LEN)
  let input1 ← window input_buf (3 * Portable64.BLOCK_LEN) (3 * Portable64.BLOCK_LEN)
  let input2 ← window input_buf (6 * Portable64.BLOCK_LEN) (3 * Portable64.BLOCK_LEN)
  let expected_out : Bytes := List.replicate (3 * Portable64.OUT_LEN) 0
  let d ← mulU64 0 delta
  let off ← addU64 offset d
  let h ← Portable64.hash1 input0 key off flags fs fe
  let expected_out ← writeAt expected_out (0 * Portable64.OUT_LEN) h.toList
  let d ← mulU64 1 delta
  let off ← addU64 offset d
  let h ← Portable64.hash1 input1 key off flags fs fe
  let expected_out ← writeAt expected_out (1 * Portable64.OUT_LEN) h.toList
  let d ← mulU64 2 delta
  let off ← addU64 offset d
  let h ← Portable64.hash1 input2 key off flags fs fe
  let expected_out ← writeAt expected_out (2 * Portable64.OUT_LEN) h.toList
  let test_out ← Portable64.hash_many [input0, input1, input2] key offset delta flags fs fe (List.replicate (Portable64.OUT_LEN * 3) 0)
  assertEq expected_out test_out

/-- portable64.rs:310-368 -/
def portable64_test_hash_many : R Unit := do
  let input_buf ← paint_test_input (List.replicate (Portable64.BLOCK_LEN * 9) 0)
  portable64_hash_many_on input_buf (Vector.replicate 4 2) (3 * BitVec.ofNat 64 Portable64.CHUNK_LEN)
    (BitVec.ofNat 64 Portable64.CHUNK_LEN) 4 8 16

/-- c64.rs:177-187 -/
def CHUNK_OFFSET_DELTAS64 : List U64 :=
  [BitVec.ofNat 64 Portable64.CHUNK_LEN * 0, BitVec.ofNat 64 Portable64.CHUNK_LEN * 1, BitVec.ofNat 64 Portable64.CHUNK_LEN * 2,
   BitVec.ofNat 64 Portable64.CHUNK_LEN * 3, BitVec.ofNat 64 Portable64.CHUNK_LEN * 4, BitVec.ofNat 64 Portable64.CHUNK_LEN * 5,
   BitVec.ofNat 64 Portable64.CHUNK_LEN * 6, BitVec.ofNat 64 Portable64.CHUNK_LEN * 7, BitVec.ofNat 64 Portable64.CHUNK_LEN * 8]

/-- c64.rs:189 -/
def PARENT_OFFSET_DELTAS64 : List U64 := List.replicate 9 0

/-- `CompressFn`, c64.rs:191-197 -/
abbrev CompressFn64 := Vector U64 4 → Bytes → Byte → U64 → Byte → R (Vector U64 4)

/-- c64.rs:209-228 -/
def compare_compress_on64 (compress_fn : CompressFn64) (initial_state : Vector U64 4) (block : Vector Byte 128)
    (block_len : Byte) (offset : U64) (flags : Byte) : R Unit := do
  let rust_state := Portable64.compress initial_state block block_len offset flags
  let c_state ← compress_fn initial_state block.toList block_len offset flags
  assertEq rust_state c_state

/-- c64.rs:199-229 -/
def compare_compress_fn64 (compress_fn : CompressFn64) : R Unit := do
  let block ← painted_block Portable64.BLOCK_LEN 27
  let block ← arrayRef block 0 Portable64.BLOCK_LEN
  compare_compress_on64 compress_fn #v[1, 2, 3, 4] block 27 5 (Flags.CHUNK_END ||| Flags.ROOT)

/-- c64.rs:231-234 -/
def c64_test_compress_portable : R Unit := compare_compress_fn64 C64.Portable.compress_portable
/-- c64.rs:236-240 -/
def c64_test_compress_avx2 : R Unit := compare_compress_fn64 C64.Avx2.compress_avx2
/-- c64.rs:242-246 -/
def c64_test_compress_avx512 : R Unit := compare_compress_fn64 C64.Avx512.compress_avx512

/-- `HashManyFn`, c64.rs:248-259 -/
abbrev HashManyFn64 := List Bytes → Nat → Nat → Vector U64 4 → U64 → List U64 → Byte → Byte → Byte → Bytes → R Bytes

/-- c64.rs:269-347, with any number of inputs, any key and offset -/
def compare_hash_many_on64 (hash_many_fn : HashManyFn64) (num : Nat) (input_buf : Bytes) (key_words : Vector U64 4)
    (offset : U64) : R Unit := do
  let chunks ← windows input_buf Portable64.CHUNK_LEN num 0
  let rust_out ← Portable64.hash_many chunks key_words offset (BitVec.ofNat 64 Portable64.CHUNK_LEN) Flags.KEYED_HASH
    Flags.CHUNK_START Flags.CHUNK_END (List.replicate (num * OUT_LEN) 0)
  let c_out ← hash_many_fn chunks num (Portable64.CHUNK_LEN / Portable64.BLOCK_LEN) key_words offset CHUNK_OFFSET_DELTAS64
    Flags.KEYED_HASH Flags.CHUNK_START Flags.CHUNK_END (List.replicate (num * OUT_LEN) 0)
  compare_out num rust_out c_out
  let parents ← windows input_buf Portable64.BLOCK_LEN num 0
  let rust_out ← Portable64.hash_many parents key_words 0 0 Flags.PARENT 0 0 (List.replicate (num * OUT_LEN) 0)
  let c_out ← hash_many_fn parents num 1 key_words 0 PARENT_OFFSET_DELTAS64 Flags.PARENT 0 0 (List.replicate (num * OUT_LEN) 0)
  compare_out num rust_out c_out

/-- c64.rs:261-348 -/
def compare_hash_many_fn64 (hash_many_fn : HashManyFn64) : R Unit := do
  let input_buf ← paint_test_input (List.replicate (Portable64.CHUNK_LEN * 31) 0)
  compare_hash_many_on64 hash_many_fn 31 input_buf #v[21, 22, 23, 24] (99 * BitVec.ofNat 64 Portable64.CHUNK_LEN)

/-- c64.rs:350-353 -/
def c64_test_hash_many_portable : R Unit := compare_hash_many_fn64 C64.Portable.hash_many_portable
/-- c64.rs:355-359 -/
def c64_test_hash_many_sse41 : R Unit := compare_hash_many_fn64 C64.Sse41.hash_many_sse41
/-- c64.rs:361-365 -/
def c64_test_hash_many_avx2 : R Unit := compare_hash_many_fn64 C64.Avx2.hash_many_avx2
/-- c64.rs:367-371 -/
def c64_test_hash_many_avx512 : R Unit := compare_hash_many_fn64 C64.Avx512.hash_many_avx512
/-- c64.rs:373-377 -/
def c64_test_hash_many_neon (order : ByteOrder) : R Unit := compare_hash_many_fn64 (C64.Neon.hash_many_neon order)

/-! ## copy.rs -/

/-- `Read` for `&[u8]` into a buffer of `n` bytes (std), as the list of results of a copy: as much as fits, until
nothing is left. -/
def sliceReads (n : Nat) (src : Bytes) : List ReadEvent :=
  if _h : 0 < n ∧ 0 < src.length then .ok (src.take n).length (src.take n) :: sliceReads n (src.drop n) else []
termination_by src.length
decreasing_by simp; omega

/-- `Write` for `Vec<u8>` (std) -/
def vecWriter (dest buf : Bytes) : R (Except IoError Unit × Bytes) := .ok (.ok (), dest ++ buf)

/-- copy.rs:75-77, with any bytes; `unwrap` panics on an error -/
def copy_wide_on (cfg : Config) (src : Bytes) : R Unit := do
  let (r, dest, _) ← copy_wide cfg vecWriter (sliceReads (COPY_BUF_LEN cfg) src) []
  match r with
  | .error _ => .error .assert
  | .ok _ => assertEq src dest

/-- copy.rs:71-78 -/
def test_copy_wide (cfg : Config) : R Unit := do
  let src ← paint_test_input (List.replicate 1000000 0)
  copy_wide_on cfg src

/-- copy.rs:80-96.  `bufReaderLen` is the size of the buffer of `std::io::BufReader::new`, which `fill_buf` fills as far as
the source suffices. -/
def test_copy_buffer_sizes (cfg : Config) (bufReaderLen : Nat) : R Unit := do
  let bytes : Bytes := List.replicate (2 * STD_DEFAULT_BUF_LEN) 0
  let internal_buf := bytes.take bufReaderLen
  assertEq internal_buf.length STD_DEFAULT_BUF_LEN
  assertR (internal_buf.length < bytes.length)
  assertR (COPY_BUF_LEN cfg ≥ STD_DEFAULT_BUF_LEN)
  assertR (COPY_BUF_LEN cfg ≥ WIDE_BUF_LEN cfg)
  assertEq 0 (COPY_BUF_LEN cfg % WIDE_BUF_LEN cfg)

/-! ## baokeshed_bin/tests/test.rs -/

/-- `.read().unwrap()` of crate duct: panics unless the exit status is 0, and removes newlines and carriage returns from the
end of what was printed. -/
def runAndRead (cfg : Config) (prof : Profile) (env : Cli.Env) (args : Cli.Args) (stdin : List ReadEvent) : R (List Char) := do
  let o ← Cli.main cfg prof env args stdin
  assertR (o.status = 0)
  return (o.stdout.reverse.dropWhile fun c => c == '\n' || c == '\r').reverse

/-- crate hex, `hex::encode`: two characters of the table for each byte -/
def hexEncode : Bytes → R (List Char)
  | [] => .ok []
  | b :: bs => do
    let c ← tableAt (b >>> 4).toNat
    let d ← tableAt (b &&& 0xf).toNat
    let cs ← hexEncode bs
    return c :: d :: cs

/-- the bytes of a text of one-byte characters, as an argument on the command line -/
def asArg (s : List Char) : Bytes := s.map fun c => BitVec.ofNat 8 c.toNat

/-- test.rs:11-15, with any bytes on standard input in any pieces -/
def cli_hash_one_on (cfg : Config) (prof : Profile) (env : Cli.Env) (input : Bytes) (stdin : List ReadEvent) : R Unit := do
  let h ← hash cfg input
  let expected ← to_hex h
  let output ← runAndRead cfg prof env ⟨[], none, none, none⟩ stdin
  assertEq expected output

/-- test.rs:20-40, with any two files and any bytes on standard input -/
def cli_hash_many_on (cfg : Config) (prof : Profile) (env : Cli.Env) (file1 file2 : List Char) (foo bar baz : Bytes)
    (stdin : List ReadEvent) : R Unit := do
  let output ← runAndRead cfg prof env ⟨[file1, file2, "-".toList], none, none, none⟩ stdin
  let foo_hash ← hash cfg foo
  let bar_hash ← hash cfg bar
  let baz_hash ← hash cfg baz
  let foo_hex ← to_hex foo_hash
  let bar_hex ← to_hex bar_hash
  let baz_hex ← to_hex baz_hash
  let expected := foo_hex ++ "  ".toList ++ file1 ++ "\n".toList ++ bar_hex ++ "  ".toList ++ file2 ++ "\n".toList ++
    baz_hex ++ "  -".toList
  assertEq expected output

/-- test.rs:45-53, with any bytes -/
def cli_hash_length_on (cfg : Config) (prof : Profile) (env : Cli.Env) (input : Bytes) (stdin : List ReadEvent) : R Unit := do
  let h ← (Hasher.new cfg).update cfg input
  let xof ← h.finalize_xof
  let (block1, xof) ← xof.read prof
  let hex1 ← hexEncode block1.toList
  let (block2, _) ← xof.read prof
  let part ← sliceTo block2.toList 36
  let hex2 ← hexEncode part
  let expected := hex1 ++ hex2
  let output ← runAndRead cfg prof env ⟨[], none, none, some 100⟩ stdin
  assertEq expected output

/-- test.rs:58-64, with any key and bytes -/
def cli_hash_key_on (cfg : Config) (prof : Profile) (env : Cli.Env) (key : Vector Byte 32) (input : Bytes)
    (stdin : List ReadEvent) : R Unit := do
  let h ← keyed_hash cfg key input
  let expected ← to_hex h
  let key_hex ← hexEncode key.toList
  let output ← runAndRead cfg prof env ⟨[], some (asArg key_hex), none, none⟩ stdin
  assertEq expected output

/-- test.rs:69-77, with any key and bytes -/
def cli_derive_key_on (cfg : Config) (prof : Profile) (env : Cli.Env) (key : Vector Byte 32) (input : Bytes)
    (stdin : List ReadEvent) : R Unit := do
  let o ← derive_key_xof cfg key input
  let expected ← to_hex o.to_hash
  let key_hex ← hexEncode key.toList
  let output ← runAndRead cfg prof env ⟨[], none, some (asArg key_hex), none⟩ stdin
  assertEq expected output

/-- a byte string literal of Rust -/
def lit (s : String) : Bytes := asArg s.toList

/-- test.rs:10-15 -/
def cli_test_hash_one (cfg : Config) (prof : Profile) (env : Cli.Env) (stdin : List ReadEvent) : R Unit :=
  cli_hash_one_on cfg prof env (lit "foo") stdin

/-- test.rs:17-40 -/
def cli_test_hash_many (cfg : Config) (prof : Profile) (env : Cli.Env) (file1 file2 : List Char) (stdin : List ReadEvent) :
    R Unit :=
  cli_hash_many_on cfg prof env file1 file2 (lit "foo") (lit "bar") (lit "baz") stdin

/-- test.rs:42-53 -/
def cli_test_hash_length (cfg : Config) (prof : Profile) (env : Cli.Env) (stdin : List ReadEvent) : R Unit :=
  cli_hash_length_on cfg prof env (lit "foo") stdin

/-- test.rs:55-64 -/
def cli_test_hash_key (cfg : Config) (prof : Profile) (env : Cli.Env) (stdin : List ReadEvent) : R Unit :=
  cli_hash_key_on cfg prof env (Vector.replicate 32 42) (lit "foo") stdin

/-- test.rs:66-77 -/
def cli_test_derive_key (cfg : Config) (prof : Profile) (env : Cli.Env) (stdin : List ReadEvent) : R Unit :=
  cli_derive_key_on cfg prof env (Vector.replicate 32 99) (lit "context") stdin

end Baokeshed.Model.UT
