import Verif.Model.C.Portable
import Verif.Model.C.Sse41
import Verif.Model.C.Avx2
import Verif.Model.C.Avx512
import Verif.Model.C.Neon

/-!
# Model of /repo/c/baokeshed.c and of its wrapper /repo/src/c.rs

Function by function; see `Verif.Model.C.Impl` for the conventions.  In addition:

* `self->buf` and `self->subtree_hashes` are the bytes of the object from that member to its end (for
  `buf`: to the end of the member).  `subtree_hashes` is the last member, so its length is what the
  *allocator* of the object provided: `MAX_DEPTH * OUT_LEN` bytes if the caller uses the C declaration.
* Nobody initialises `subtree_hashes`, `out`, `block` and so on; what they contain is a parameter.
* A `size_t` has `bits` bits.  Subtractions that the surrounding code does not guard wrap (`subSz`);
  an `int` converted to `size_t` wraps (`intSz`).
* `while` loops are recursive functions.
-/

namespace Baokeshed.Model.C

/-- How the C code is built and run. -/
structure Config where
  /-- `BAOKESHED_USE_AVX512`, build.rs:112 -/
  avx512 : Bool
  /-- `BAOKESHED_USE_AVX2`, build.rs:99 -/
  avx2 : Bool
  /-- `BAOKESHED_USE_SSE41`, build.rs:83 -/
  sse41 : Bool
  /-- `BAOKESHED_USE_NEON`, build.rs:128 -/
  neon : Bool
  /-- `__POPCNT__` -/
  popcnt : Bool
  /-- `NDEBUG` is not defined -/
  asserts : Bool
  /-- width of `size_t` -/
  bits : Nat
  /-- what uninitialised local arrays contain -/
  junk : Nat → Byte
  /-- the byte order of the host; only the NEON code depends on it, the x86 code is for little-endian
  hosts and the rest works with single bytes -/
  order : ByteOrder

/-- `uint8_t x[n];` without initialiser -/
def Config.uninit (cfg : Config) (n : Nat) : Bytes := (List.range n).map cfg.junk

/-- `a - b` on `size_t` -/
def subSz (bits a b : Nat) : Nat := (a + 2 ^ bits - b % 2 ^ bits) % 2 ^ bits

/-- `a * b` on `size_t` -/
def mulSz (bits a b : Nat) : Nat := a * b % 2 ^ bits

/-- conversion of an `int` to `size_t` -/
def intSz (bits : Nat) (i : Int) : Nat := (i % 2 ^ bits).toNat

/-- `memcpy(dst + off, src, n)` with `src` another object -/
def memcpy {α} (dst : List α) (off : Nat) (src : List α) (n : Nat) : R (List α) := do
  let d ← cLoad src 0 n
  cStore dst off d

/-! ## Chunk state -/

/-- baokeshed.c:10-18 -/
structure chunk_state where
  state : Vector Word 8
  key : Vector Word 8
  offset : U64
  count : BitVec 16
  buf : Bytes
  buf_len : Byte
  flags : Byte

/-- baokeshed.c:21-29 -/
def chunk_state_init (key : Vector Word 8) (flags : Byte) : chunk_state where
  state := key
  key := key
  offset := 0
  count := 0
  buf := List.replicate BLOCK_LEN 0
  buf_len := 0
  flags := flags

/-- baokeshed.c:31-37 -/
def chunk_state_reset (self : chunk_state) (new_offset : U64) : chunk_state :=
  { self with state := self.key, offset := new_offset, count := 0, buf := List.replicate BLOCK_LEN 0, buf_len := 0 }

/-- baokeshed.c:39-41.  At least 16 bits hold 65535 + 255 only modulo 2^16, hence the remainder. -/
def chunk_state_len (cfg : Config) (self : chunk_state) : Nat :=
  (self.count.toNat + self.buf_len.toNat) % 2 ^ cfg.bits

/-- baokeshed.c:43-53.  Returns the new state and `take`. -/
def chunk_state_fill_buf (cfg : Config) (self : chunk_state) (input : Bytes) (input_len : Nat) :
    R (chunk_state × Nat) := do
  let take := subSz cfg.bits BLOCK_LEN self.buf_len.toNat
  let take := if take > input_len then input_len else take
  let buf ← memcpy self.buf self.buf_len.toNat input take
  return ({ self with buf, buf_len := self.buf_len + BitVec.ofNat 8 take }, take)

/-- baokeshed.c:55-61 -/
def chunk_state_maybe_start_flag (self : chunk_state) : Byte :=
  if self.count = 0 then CHUNK_START else 0

/-- baokeshed.c:63-72 -/
def compress (cfg : Config) (state : Vector Word 8) (block : Bytes) (block_len : Byte) (offset : U64)
    (flags : Byte) : R (Vector Word 8) :=
  if cfg.avx512 then Avx512.compress_avx512 state block block_len offset flags
  else if cfg.sse41 then Sse41.compress_sse41 state block block_len offset flags
  else Portable.compress_portable state block block_len offset flags

/-- The first part of `chunk_state_update`, baokeshed.c:77-88.  Returns the new state, `input` and
`input_len`. -/
def chunk_state_update_first (cfg : Config) (self : chunk_state) (input : Bytes) (input_len : Nat) :
    R (chunk_state × Bytes × Nat) :=
  if self.buf_len > 0 then do
    let (self, take) ← chunk_state_fill_buf cfg self input input_len
    let input ← cAdvance input take
    let input_len := input_len - take
    if input_len > 0 then
      let state ← compress cfg self.state self.buf (BitVec.ofNat 8 BLOCK_LEN) self.offset
        (self.flags ||| chunk_state_maybe_start_flag self)
      return ({ self with state, count := self.count + BitVec.ofNat 16 BLOCK_LEN, buf_len := 0,
                          buf := List.replicate BLOCK_LEN 0 }, input, input_len)
    else return (self, input, input_len)
  else .ok (self, input, input_len)

/-- The loop of `chunk_state_update`, baokeshed.c:90-96 -/
def chunk_state_update_blocks (cfg : Config) (self : chunk_state) (input : Bytes) (input_len : Nat) :
    R (chunk_state × Bytes × Nat) :=
  if input_len > BLOCK_LEN then do
    let state ← compress cfg self.state input (BitVec.ofNat 8 BLOCK_LEN) self.offset
      (self.flags ||| chunk_state_maybe_start_flag self)
    let input ← cAdvance input BLOCK_LEN
    chunk_state_update_blocks cfg { self with state, count := self.count + BitVec.ofNat 16 BLOCK_LEN } input
      (input_len - BLOCK_LEN)
  else .ok (self, input, input_len)
termination_by input_len
decreasing_by simp [BLOCK_LEN] at *; omega

/-- baokeshed.c:75-101 -/
def chunk_state_update (cfg : Config) (self : chunk_state) (input : Bytes) (input_len : Nat) : R chunk_state := do
  let (self, input, input_len) ← chunk_state_update_first cfg self input input_len
  let (self, input, input_len) ← chunk_state_update_blocks cfg self input input_len
  let (self, take) ← chunk_state_fill_buf cfg self input input_len
  let _input ← cAdvance input take
  return self

/-- baokeshed.c:104-115 -/
def chunk_state_finalize (cfg : Config) (self : chunk_state) (is_root : Bool) (out : Bytes) : R Bytes := do
  let block_flags := self.flags ||| chunk_state_maybe_start_flag self ||| CHUNK_END
  let block_flags := if is_root then block_flags ||| ROOT else block_flags
  let state_copy ← compress cfg self.state self.buf self.buf_len self.offset block_flags
  write_state_bytes state_copy out

/-- baokeshed.c:117-128 -/
def hash_one_parent (cfg : Config) (block : Bytes) (key : Vector Word 8) (is_root : Bool) (flags : Byte)
    (out : Bytes) : R Bytes := do
  let block_flags := flags ||| PARENT
  let block_flags := if is_root then block_flags ||| ROOT else block_flags
  let state ← compress cfg key block (BitVec.ofNat 8 BLOCK_LEN) 0 block_flags
  write_state_bytes state out

/-! ## Hasher -/

/-- baokeshed.c:130-134 -/
structure hasher where
  chunk : chunk_state
  subtree_hashes_len : Byte
  subtree_hashes : Bytes

/-- baokeshed.c:136-141; `mem` is what the member `subtree_hashes` contains beforehand. -/
def hasher_init (mem : Bytes) (key : Bytes) (flags : Byte) : R hasher := do
  let key_words ← load_key_words key
  return { chunk := chunk_state_init key_words flags, subtree_hashes_len := 0, subtree_hashes := mem }

/-- baokeshed.c:143-146 -/
def hasher_needs_merge (cfg : Config) (self : hasher) (total_bytes : U64) : Bool :=
  let total_chunks := total_bytes / BitVec.ofNat 64 CHUNK_LEN
  decide (self.subtree_hashes_len > popcnt cfg.popcnt total_chunks)

/-- baokeshed.c:148-156 -/
def hasher_merge_parent (cfg : Config) (self : hasher) : R hasher := do
  let parent_block_start := mulSz cfg.bits (subSz cfg.bits self.subtree_hashes_len.toNat 2) OUT_LEN
  let out := cfg.uninit OUT_LEN
  let block ← cAdvance self.subtree_hashes parent_block_start
  let out ← hash_one_parent cfg block self.chunk.key false self.chunk.flags out
  let subtree_hashes ← memcpy self.subtree_hashes parent_block_start out OUT_LEN
  return { self with subtree_hashes, subtree_hashes_len := self.subtree_hashes_len - 1 }

theorem hasher_merge_parent_len {cfg : Config} {h h' : hasher} (e : hasher_merge_parent cfg h = .ok h') :
    h'.subtree_hashes_len = h.subtree_hashes_len - 1 := by
  unfold hasher_merge_parent at e
  simp only [bind, Except.bind] at e
  repeat' split at e
  all_goals cases e
  rfl

/-- `while (hasher_needs_merge(self, offset)) { hasher_merge_parent(self); }`, baokeshed.c:161-163 and
249-251 -/
def merge_loop (cfg : Config) (self : hasher) (offset : U64) : R hasher :=
  if _h : hasher_needs_merge cfg self offset then
    match _e : hasher_merge_parent cfg self with
    | .error e => .error e
    | .ok self' => merge_loop cfg self' offset
  else .ok self
termination_by self.subtree_hashes_len.toNat
decreasing_by
  rw [hasher_merge_parent_len _e, BitVec.toNat_sub]
  simp only [hasher_needs_merge, gt_iff_lt, decide_eq_true_eq, BitVec.lt_def] at _h
  have := self.subtree_hashes_len.isLt
  have h1 : (1 : Byte).toNat = 1 := rfl
  omega

/-- baokeshed.c:158-167 -/
def hasher_push_chunk_hash (cfg : Config) (self : hasher) (hash : Bytes) (offset : U64) : R hasher := do
  assertR (cfg.asserts = true → self.subtree_hashes_len.toNat < MAX_DEPTH)
  let self ← merge_loop cfg self offset
  let subtree_hashes ← memcpy self.subtree_hashes (self.subtree_hashes_len.toNat * OUT_LEN) hash OUT_LEN
  return { self with subtree_hashes, subtree_hashes_len := self.subtree_hashes_len + 1 }

/-- baokeshed.c:169-190 -/
def hash_many (cfg : Config) (inputs : List Bytes) (num_inputs blocks : Nat) (key_words : Vector Word 8)
    (offset : U64) (offset_deltas : List U64) (flags flags_start flags_end : Byte) (out : Bytes) : R Bytes :=
  if cfg.avx512 then
    Avx512.hash_many_avx512 inputs num_inputs blocks key_words offset offset_deltas flags flags_start flags_end out
  else if cfg.avx2 then
    Avx2.hash_many_avx2 inputs num_inputs blocks key_words offset offset_deltas flags flags_start flags_end out
  else if cfg.sse41 then
    Sse41.hash_many_sse41 inputs num_inputs blocks key_words offset offset_deltas flags flags_start flags_end out
  else if cfg.neon then
    Neon.hash_many_neon cfg.order inputs num_inputs blocks key_words offset offset_deltas flags flags_start flags_end out
  else
    Portable.hash_many_portable inputs num_inputs blocks key_words offset offset_deltas flags flags_start flags_end out

/-- The inner loop of `hasher_update`, baokeshed.c:224-229.  Returns `chunks`, `input_bytes`,
`input_len` and `num_chunks`. -/
def collect_chunks (chunks : List Bytes) (input_bytes : Bytes) (input_len num_chunks : Nat) :
    R (List Bytes × Bytes × Nat × Nat) :=
  if input_len ≥ CHUNK_LEN ∧ num_chunks < MAX_SIMD_DEGREE then do
    let chunks ← cStore chunks num_chunks [input_bytes]
    let input_bytes ← cAdvance input_bytes CHUNK_LEN
    collect_chunks chunks input_bytes (input_len - CHUNK_LEN) (num_chunks + 1)
  else .ok (chunks, input_bytes, input_len, num_chunks)
termination_by MAX_SIMD_DEGREE - num_chunks
decreasing_by simp only [MAX_SIMD_DEGREE] at *; omega

/-- The `for` loop of `hasher_update`, baokeshed.c:233-239; `left` more iterations. -/
def push_chunks (cfg : Config) (self : hasher) (out : Bytes) (chunk_index : Nat) : (left : Nat) → R hasher
  | 0 => .ok self
  | left + 1 => do
    let hash ← cAdvance out (chunk_index * OUT_LEN)
    let self ← hasher_push_chunk_hash cfg self hash self.chunk.offset
    push_chunks cfg { self with chunk := { self.chunk with offset := self.chunk.offset + BitVec.ofNat 64 CHUNK_LEN } }
      out (chunk_index + 1) left

theorem collect_le {chunks c : List Bytes} {input b : Bytes} {input_len num_chunks l n : Nat}
    (e : collect_chunks chunks input input_len num_chunks = .ok (c, b, l, n)) : l ≤ input_len := by
  induction hk : MAX_SIMD_DEGREE - num_chunks generalizing chunks input input_len num_chunks with
  | zero =>
    rw [collect_chunks, if_neg (by simp only [MAX_SIMD_DEGREE] at *; omega)] at e
    cases e; exact Nat.le_refl _
  | succ k ih =>
    rw [collect_chunks] at e
    split at e
    next h =>
      simp only [bind, Except.bind] at e
      repeat' split at e
      all_goals try cases e
      have := ih e (by simp only [MAX_SIMD_DEGREE] at *; omega)
      omega
    next => cases e; exact Nat.le_refl _

theorem collect_lt {chunks c : List Bytes} {input b : Bytes} {input_len l n : Nat} (h : input_len ≥ CHUNK_LEN)
    (e : collect_chunks chunks input input_len 0 = .ok (c, b, l, n)) : l < input_len := by
  rw [collect_chunks, if_pos ⟨h, by decide⟩] at e
  simp only [bind, Except.bind] at e
  repeat' split at e
  all_goals try cases e
  have := collect_le e
  simp only [CHUNK_LEN] at *
  omega

/-- The outer loop of `hasher_update`, baokeshed.c:223-241.  `num_chunks` is 0 at its head.  Returns the
new state, `input_bytes` and `input_len`. -/
def update_loop (cfg : Config) (self : hasher) (out : Bytes) (chunks : List Bytes) (input_bytes : Bytes)
    (input_len : Nat) : R (hasher × Bytes × Nat) :=
  if _h : input_len ≥ CHUNK_LEN then
    match _e : collect_chunks chunks input_bytes input_len 0 with
    | .error e => .error e
    | .ok (chunks, input_bytes, input_len, num_chunks) => do
      let out ← hash_many cfg chunks num_chunks (CHUNK_LEN / BLOCK_LEN) self.chunk.key self.chunk.offset
        CHUNK_OFFSET_DELTAS self.chunk.flags CHUNK_START CHUNK_END out
      let self ← push_chunks cfg self out 0 num_chunks
      update_loop cfg self out chunks input_bytes input_len
  else .ok (self, input_bytes, input_len)
termination_by input_len
decreasing_by exact collect_lt _h _e

/-- The second part of `hasher_update`, baokeshed.c:218-255 -/
def hasher_update_rest (cfg : Config) (self : hasher) (input_bytes : Bytes) (input_len : Nat) : R hasher := do
  let out := cfg.uninit (OUT_LEN * MAX_SIMD_DEGREE)
  let chunks : List Bytes := List.replicate MAX_SIMD_DEGREE []
  let (self, input_bytes, input_len) ← update_loop cfg self out chunks input_bytes input_len
  if input_len > 0 then
    let self ← merge_loop cfg self self.chunk.offset
    let chunk ← chunk_state_update cfg self.chunk input_bytes input_len
    return { self with chunk }
  else return self

/-- baokeshed.c:192-256 -/
def hasher_update (cfg : Config) (self : hasher) (input : Bytes) (input_len : Nat) : R hasher := do
  let input_bytes := input
  let is_first_chunk := self.chunk.offset = 0
  let maybe_root := is_first_chunk ∧ input_len = CHUNK_LEN
  if maybe_root ∨ chunk_state_len cfg self.chunk > 0 then
    let take := subSz cfg.bits CHUNK_LEN (chunk_state_len cfg self.chunk)
    let take := if take > input_len then input_len else take
    let chunk ← chunk_state_update cfg self.chunk input_bytes take
    let self := { self with chunk }
    let input_bytes ← cAdvance input_bytes take
    let input_len := input_len - take
    if input_len > 0 then
      let out := cfg.uninit OUT_LEN
      let out ← chunk_state_finalize cfg self.chunk false out
      let self ← hasher_push_chunk_hash cfg self out self.chunk.offset
      let self := { self with chunk := chunk_state_reset self.chunk (self.chunk.offset + BitVec.ofNat 64 CHUNK_LEN) }
      hasher_update_rest cfg self input_bytes input_len
    else return self
  else hasher_update_rest cfg self input_bytes input_len

/-- The loop of `hasher_finalize`, baokeshed.c:279-292.  At most `fuel` iterations: the first index is
below `256 * 32` and a multiple of 32, or outside the object, so 256 are enough. -/
def finalize_loop (cfg : Config) (self : hasher) (out : Bytes) : (fuel : Nat) → (working_hash : Bytes) →
    (next_subtree_start : Nat) → R Bytes
  | 0, _, _ => .error .ub
  | fuel + 1, working_hash, next_subtree_start => do
    let is_root := decide (next_subtree_start = 0)
    let block := cfg.uninit BLOCK_LEN
    let src ← cAdvance self.subtree_hashes next_subtree_start
    let block ← memcpy block 0 src OUT_LEN
    let block ← memcpy block OUT_LEN working_hash OUT_LEN
    let working_hash ← hash_one_parent cfg block self.chunk.key is_root self.chunk.flags working_hash
    if is_root then memcpy out 0 working_hash OUT_LEN
    else finalize_loop cfg self out fuel working_hash (subSz cfg.bits next_subtree_start OUT_LEN)

/-- baokeshed.c:258-293.  Returns the new contents of the memory behind `out`. -/
def hasher_finalize (cfg : Config) (self : hasher) (out : Bytes) : R Bytes := do
  if self.subtree_hashes_len = 0 then chunk_state_finalize cfg self.chunk true out
  else
    let working_hash := cfg.uninit OUT_LEN
    if chunk_state_len cfg self.chunk > 0 then
      let working_hash ← chunk_state_finalize cfg self.chunk false working_hash
      let next_subtree_start := intSz cfg.bits (((self.subtree_hashes_len.toNat : Int) - 1) * OUT_LEN)
      finalize_loop cfg self out 256 working_hash next_subtree_start
    else
      let last_hash_start := intSz cfg.bits (((self.subtree_hashes_len.toNat : Int) - 1) * OUT_LEN)
      let src ← cAdvance self.subtree_hashes last_hash_start
      let working_hash ← memcpy working_hash 0 src OUT_LEN
      let next_subtree_start := intSz cfg.bits (((self.subtree_hashes_len.toNat : Int) - 2) * OUT_LEN)
      finalize_loop cfg self out 256 working_hash next_subtree_start

/-! ## The Rust wrapper, src/c.rs -/

namespace Ffi

/-- The length of `subtree_hashes` in the Rust declaration of the struct, src/c.rs:28.  (The struct has 7
more bytes of padding at its end.) -/
def SUBTREE_HASHES_LEN : Nat := 1664

/-- src/c.rs:32-38; `mem` is the uninitialised member `subtree_hashes`. -/
def new (mem : Vector Byte SUBTREE_HASHES_LEN) (key : Vector Byte 32) (flags : Byte) : R hasher :=
  hasher_init mem.toList key.toList flags

/-- src/c.rs:40-44 -/
def update (cfg : Config) (self : hasher) (input : Bytes) : R hasher :=
  hasher_update cfg self input input.length

/-- src/c.rs:46-52 -/
def finalize (cfg : Config) (self : hasher) : R (Vector Byte 32) := do
  let out : Bytes := List.replicate OUT_LEN 0
  let out ← hasher_finalize cfg self out
  arrayRef out 0 OUT_LEN

end Ffi

end Baokeshed.Model.C
