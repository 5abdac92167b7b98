import Verif.Model.World
import Verif.Model.Api
import Verif.Model.Reference
import Verif.Model.Portable64
import Verif.Model.C.Hasher
import Verif.Model.C64.Portable
import Verif.Model.C64.Sse41
import Verif.Model.C64.Avx2
import Verif.Model.C64.Avx512
import Verif.Model.C64.Neon

/-!
# Model of /repo/benches/bench.rs

Every benchmark of the file.  What the benchmark gets from outside is a parameter (`Env`): the page size, the bytes of
the random generator, the order into which the offsets are shuffled, and the number `k` of calls that `Bencher::iter`
makes.  Times are not modelled.

A benchmark returns the number of bytes it declares (`Bencher::bytes`, from which the throughput is computed) and what
its calls computed; `none` if it returns early because the processor lacks an instruction set.

The pointers of the `chunks` benchmarks come from slices of one chunk each, so the model lets the kernel read one chunk
through each of them; a null pointer is an empty list, from which nothing can be read.
-/

namespace Baokeshed.Model.Bench

/-- bench.rs:10 -/
def LONG : Nat := 2 ^ 16
/-- bench.rs:13 -/
def VERYLONG : Nat := 2 ^ 20
/-- bench.rs:15 -/
abbrev BLOCK_LEN_32 : Nat := BLOCK_LEN
/-- bench.rs:16 -/
abbrev BLOCK_LEN_64 : Nat := Portable64.BLOCK_LEN
/-- bench.rs:17 -/
abbrev CHUNK_LEN_32 : Nat := CHUNK_LEN
/-- bench.rs:19 -/
abbrev CHUNK_LEN_64 : Nat := Portable64.CHUNK_LEN
/-- bench.rs:25 -/
def OFFSET_DELTAS : List U64 := List.replicate 17 0

/-- What a benchmark gets from outside. -/
structure Env where
  /-- the build and the processor -/
  cfg : Config
  /-- the build of the C code -/
  c : C.Config
  /-- `page_size::get()` -/
  page_size : Nat
  /-- `rng.fill_bytes`: the new contents of a buffer of the given length -/
  fill : Nat → Bytes
  /-- `offsets.shuffle(&mut rng)` -/
  shuffle : List Nat → List Nat
  /-- the uninitialised memory that the `j`-th `c::Hasher` finds -/
  stale : Nat → Vector Byte C.Ffi.SUBTREE_HASHES_LEN

/-- What a benchmark reports: `Bencher::bytes` and what was computed. -/
structure Report (α : Type) where
  bytes : U64
  result : α

/-- bench.rs:30-35 -/
structure RandomInput where
  buf : Bytes
  len : Nat
  offsets : List Nat
  offset_index : Nat

/-- `vec![..; n]` or `collect()` of `n` elements of `size` bytes: more than `isize::MAX` bytes are refused. -/
def allocate (cfg : Config) (size n : Nat) : R Unit :=
  if size * n < 2 ^ (cfg.usizeBits - 1) then .ok () else .error .capacity

/-- bench.rs:38-52; `bytes` is `b.bytes`, 0 for a new `Bencher` -/
def RandomInput.new (env : Env) (bytes : U64) (len : Nat) : R (U64 × RandomInput) := do
  let bytes ← addU64 bytes (BitVec.ofNat 64 len)
  let page_size := env.page_size
  let n ← addN env.cfg.usizeBits len page_size
  allocate env.cfg 1 n
  let buf := env.fill n
  allocate env.cfg (env.cfg.usizeBits / 8) page_size
  let offsets := env.shuffle (List.range page_size)
  return (bytes, { buf := buf, len := len, offsets := offsets, offset_index := 0 })

/-- bench.rs:54-61 -/
def RandomInput.get (env : Env) (self : RandomInput) : R (Bytes × RandomInput) := do
  match self.offsets[self.offset_index]? with
  | none => .error .bounds
  | some offset =>
    let offset_index ← addN env.cfg.usizeBits self.offset_index 1
    let offset_index := if self.offsets.length ≤ offset_index then 0 else offset_index
    let tail ← sliceFrom self.buf offset
    let slice ← sliceTo tail self.len
    return (slice, { self with offset_index := offset_index })

/-- `b.iter(f)`: `k` calls of the closure `f`, whose captured variables are the state; `j` is the number of the call.
(`test::Bencher` chooses `k` from the clock.) -/
def iter {σ α : Type} (f : Nat → σ → R (α × σ)) : (k j : Nat) → σ → R (List α × σ)
  | 0, _, s => .ok ([], s)
  | k + 1, j, s => do
    let (a, s) ← f j s
    let (as, s) ← iter f k (j + 1) s
    return (a :: as, s)

/-! ## One block -/

/-- The benchmarks of a compression function of 32-bit words, bench.rs:66-69 and 83-88, 114-117, 123-128, 151-156: the same
block again and again, the state carried from call to call. -/
def compress32 (env : Env) (compress : Vector Word 8 → Vector Byte 64 → Byte → U64 → Byte → R (Vector Word 8)) (k : Nat) :
    R (Report (Vector Word 8)) := do
  let state : Vector Word 8 := Vector.replicate 8 1
  let (bytes, r) ← RandomInput.new env 0 BLOCK_LEN_32
  let (input, _) ← r.get env
  let input ← arrayRef input 0 BLOCK_LEN_32
  let (_, state) ← iter (fun _ state => do
    let state ← compress state input (BitVec.ofNat 8 BLOCK_LEN_32) 0 0
    return ((), state)) k 0 state
  return ⟨bytes, state⟩

/-- The same for 64-bit words, bench.rs:74-77, 134-145, 162-173, and 94-105 with a state of eight words (`n` = 8). -/
def compress64 (env : Env) (n : Nat) (compress : Vector U64 n → Vector Byte 128 → Byte → U64 → Byte → R (Vector U64 n)) (k : Nat) :
    R (Report (Vector U64 n)) := do
  let state : Vector U64 n := Vector.replicate n 1
  let (bytes, r) ← RandomInput.new env 0 BLOCK_LEN_64
  let (input, _) ← r.get env
  let input ← arrayRef input 0 BLOCK_LEN_64
  let (_, state) ← iter (fun _ state => do
    let state ← compress state input (BitVec.ofNat 8 BLOCK_LEN_64) 0 0
    return ((), state)) k 0 state
  return ⟨bytes, state⟩

/-- bench.rs:65-70 -/
def bench_compress_portable_rust (env : Env) (k : Nat) : R (Report (Vector Word 8)) :=
  compress32 env (fun state input len offset flags => .ok (Portable.compress state input len offset flags)) k

/-- bench.rs:73-78 -/
def bench_compress_portable_rust64 (env : Env) (k : Nat) : R (Report (Vector U64 4)) :=
  compress64 env 4 (fun state input len offset flags => .ok (Portable64.compress state input len offset flags)) k

/-- bench.rs:82-89 -/
def bench_compress_portable_c (env : Env) (k : Nat) : R (Report (Vector Word 8)) :=
  compress32 env (fun state input => C.Portable.compress_portable state input.toList) k

/-- bench.rs:93-106.  The C function takes four words, the array has eight: a pointer to its first word is passed. -/
def bench_compress_portable_c64 (env : Env) (k : Nat) : R (Report (Vector U64 8)) :=
  compress64 env 8 (fun state input len offset flags => do
    let new ← C64.Portable.compress_portable #v[state[0], state[1], state[2], state[3]] input.toList len offset flags
    return #v[new[0], new[1], new[2], new[3], state[4], state[5], state[6], state[7]]) k

/-- bench.rs:110-118 -/
def bench_compress_sse41_rust (env : Env) (k : Nat) : R (Option (Report (Vector Word 8))) :=
  if !env.cfg.hasSse41 then .ok none
  else some <$> compress32 env (fun state input len offset flags => .ok (Sse41.compress state input len offset flags)) k

/-- bench.rs:122-129 -/
def bench_compress_sse41_c (env : Env) (k : Nat) : R (Report (Vector Word 8)) :=
  compress32 env (fun state input => C.Sse41.compress_sse41 state input.toList) k

/-- bench.rs:133-146 -/
def bench_compress_avx2_c64 (env : Env) (k : Nat) : R (Report (Vector U64 4)) :=
  compress64 env 4 (fun state input => C64.Avx2.compress_avx2 state input.toList) k

/-- bench.rs:150-157 -/
def bench_compress_avx512_c (env : Env) (k : Nat) : R (Report (Vector Word 8)) :=
  compress32 env (fun state input => C.Avx512.compress_avx512 state input.toList) k

/-- bench.rs:161-174 -/
def bench_compress_avx512_c64 (env : Env) (k : Nat) : R (Report (Vector U64 4)) :=
  compress64 env 4 (fun state input => C64.Avx512.compress_avx512 state input.toList) k

/-! ## Several chunks -/

/-- `for (input, chunk) in inputs.iter_mut().zip(chunks)`: the pointers of `inputs` are overwritten one after the other,
bench.rs:188-193 and the like -/
def set_pointers : (inputs chunks : List Bytes) → List Bytes
  | _ :: inputs, chunk :: chunks => chunk :: set_pointers inputs chunks
  | inputs, _ => inputs

/-- The benchmarks of the kernels, bench.rs:183-205 and the like: each call gets the next random slice, cuts it into `n`
chunks and hashes them into `out`, which is carried from call to call. -/
def chunks (env : Env) (n chunk_len : Nat) (kernel : (inputs : List Bytes) → (out : Bytes) → R Bytes) (k : Nat) :
    R (Report (List Bytes)) := do
  let out : Bytes := List.replicate (OUT_LEN * n) 0
  let (bytes, input) ← RandomInput.new env 0 (chunk_len * n)
  let (outs, _) ← iter (fun _ (input, out) => do
    let inputs : List Bytes := List.replicate n []
    let (slice, input) ← RandomInput.get env input
    let inputs := set_pointers inputs (chunksExact chunk_len slice)
    let out ← kernel inputs out
    return (out, (input, out))) k 0 (input, out)
  return ⟨bytes, outs⟩

/-- the C kernels of 32-bit words, bench.rs:223-233 and the like -/
def kernel32 (hash : List Bytes → Nat → Vector Word 8 → U64 → List U64 → Byte → Byte → Byte → Bytes → R Bytes)
    (inputs : List Bytes) (out : Bytes) : R Bytes :=
  hash inputs (CHUNK_LEN_32 / BLOCK_LEN_32) (Vector.replicate 8 1) 0 OFFSET_DELTAS 0 0 0 out

/-- the C kernels of 64-bit words, bench.rs:252-262 and the like -/
def kernel64 (hash : List Bytes → Nat → Vector U64 4 → U64 → List U64 → Byte → Byte → Byte → Bytes → R Bytes)
    (inputs : List Bytes) (out : Bytes) : R Bytes :=
  hash inputs (CHUNK_LEN_64 / BLOCK_LEN_64) (Vector.replicate 4 1) 0 OFFSET_DELTAS 0 0 0 out

/-- bench.rs:178-206 -/
def bench_chunks_128bit_sse41_rust (env : Env) (k : Nat) : R (Option (Report (List Bytes))) :=
  if !env.cfg.hasSse41 then .ok none
  else some <$> chunks env 4 CHUNK_LEN_32 (fun inputs out => do
    let inputs ← arrayRef inputs 0 4
    Sse41.hash4 inputs (CHUNK_LEN_32 / BLOCK_LEN_32) (Vector.replicate 8 1) 0 0 0 0 0 out) k

/-- bench.rs:210-235 -/
def bench_chunks_128bit_sse41_c (env : Env) (k : Nat) : R (Report (List Bytes)) :=
  chunks env 4 CHUNK_LEN_32 (kernel32 C.Sse41.hash4_sse41) k

/-- bench.rs:239-264 -/
def bench_chunks_128bit_sse41_c64 (env : Env) (k : Nat) : R (Report (List Bytes)) :=
  chunks env 2 CHUNK_LEN_64 (kernel64 C64.Sse41.hash2_sse41) k

/-- bench.rs:268-293 -/
def bench_chunks_128bit_avx512_c (env : Env) (k : Nat) : R (Report (List Bytes)) :=
  chunks env 4 CHUNK_LEN_32 (kernel32 C.Avx512.hash4_avx512) k

/-- bench.rs:297-322 -/
def bench_chunks_128bit_avx512_c64 (env : Env) (k : Nat) : R (Report (List Bytes)) :=
  chunks env 2 CHUNK_LEN_64 (kernel64 C64.Avx512.hash2_avx512) k

/-- bench.rs:326-351 -/
def bench_chunks_128bit_neon_c (env : Env) (k : Nat) : R (Report (List Bytes)) :=
  chunks env 4 CHUNK_LEN_32 (kernel32 (C.Neon.hash4_neon env.c.order)) k

/-- bench.rs:355-380 -/
def bench_chunks_128bit_neon_c64 (env : Env) (k : Nat) : R (Report (List Bytes)) :=
  chunks env 2 CHUNK_LEN_64 (kernel64 (C64.Neon.hash2_neon env.c.order)) k

/-- bench.rs:384-412 -/
def bench_chunks_256bit_avx2_rust (env : Env) (k : Nat) : R (Option (Report (List Bytes))) :=
  if !env.cfg.hasAvx2 then .ok none
  else some <$> chunks env 8 CHUNK_LEN_32 (fun inputs out => do
    let inputs ← arrayRef inputs 0 8
    Avx2.hash8 inputs (CHUNK_LEN_32 / BLOCK_LEN_32) (Vector.replicate 8 1) 0 0 0 0 0 out) k

/-- bench.rs:416-441 -/
def bench_chunks_256bit_avx2_c (env : Env) (k : Nat) : R (Report (List Bytes)) :=
  chunks env 8 CHUNK_LEN_32 (kernel32 C.Avx2.hash8_avx2) k

/-- bench.rs:445-470 -/
def bench_chunks_256bit_avx2_c64 (env : Env) (k : Nat) : R (Report (List Bytes)) :=
  chunks env 4 CHUNK_LEN_64 (kernel64 C64.Avx2.hash4_avx2) k

/-- bench.rs:474-499 -/
def bench_chunks_256bit_avx512_c (env : Env) (k : Nat) : R (Report (List Bytes)) :=
  chunks env 8 CHUNK_LEN_32 (kernel32 C.Avx512.hash8_avx512) k

/-- bench.rs:503-528 -/
def bench_chunks_256bit_avx512_c64 (env : Env) (k : Nat) : R (Report (List Bytes)) :=
  chunks env 4 CHUNK_LEN_64 (kernel64 C64.Avx512.hash4_avx512) k

/-- bench.rs:532-557 -/
def bench_chunks_512bit_avx512_c (env : Env) (k : Nat) : R (Report (List Bytes)) :=
  chunks env 16 CHUNK_LEN_32 (kernel32 C.Avx512.hash16_avx512) k

/-- bench.rs:561-586 -/
def bench_chunks_512bit_avx512_c64 (env : Env) (k : Nat) : R (Report (List Bytes)) :=
  chunks env 8 CHUNK_LEN_64 (kernel64 C64.Avx512.hash8_avx512) k

/-! ## Whole inputs -/

/-- The benchmarks that hash the next random slice in each call, bench.rs:591-592 and the like; `s` is what else the
closure carries from call to call -/
def whole_with {σ α : Type} (env : Env) (len : Nat) (s : σ) (f : (j : Nat) → σ → Bytes → R (α × σ)) (k : Nat) :
    R (Report (List α)) := do
  let (bytes, input) ← RandomInput.new env 0 len
  let (rs, _) ← iter (fun j (input, s) => do
    let (slice, input) ← RandomInput.get env input
    let (r, s) ← f j s slice
    return (r, (input, s))) k 0 (input, s)
  return ⟨bytes, rs⟩

/-- The benchmarks that hash the same slice in each call, bench.rs:609-611 and the like -/
def once_with {σ α : Type} (env : Env) (len : Nat) (s : σ) (f : (j : Nat) → σ → Bytes → R (α × σ)) (k : Nat) :
    R (Report (List α)) := do
  let (bytes, r) ← RandomInput.new env 0 len
  let (input, _) ← r.get env
  let (rs, _) ← iter (fun j s => f j s input) k 0 s
  return ⟨bytes, rs⟩

/-- a closure that carries nothing from call to call -/
def stateless {α : Type} (f : (j : Nat) → Bytes → R α) (j : Nat) (_ : Unit) (input : Bytes) : R (α × Unit) := do
  let r ← f j input
  return (r, ())

/-- `whole_with` for such a closure -/
def whole {α : Type} (env : Env) (len : Nat) (f : (j : Nat) → Bytes → R α) (k : Nat) : R (Report (List α)) :=
  whole_with env len () (stateless f) k

/-- `once_with` for such a closure -/
def whole_once {α : Type} (env : Env) (len : Nat) (f : (j : Nat) → Bytes → R α) (k : Nat) : R (Report (List α)) :=
  once_with env len () (stateless f) k

/-- bench.rs:618-620, 628-630, 639-641 -/
def hasher_rust (env : Env) (input : Bytes) : R (Vector Byte 32) := do
  let hasher := Hasher.new env.cfg
  let hasher ← hasher.update env.cfg input
  hasher.finalize

/-- bench.rs:650-652, 661-663, 673-675 -/
def hasher_c (env : Env) (j : Nat) (input : Bytes) : R (Vector Byte 32) := do
  let hasher ← C.Ffi.new (env.stale j) (Vector.replicate 32 0) 0
  let hasher ← C.Ffi.update env.c hasher input
  C.Ffi.finalize env.c hasher

/-- bench.rs:684-686, 695-697, 707-709; `output` is carried from call to call -/
def reference (_ : Nat) (output input : Bytes) : R (Bytes × Bytes) := do
  let hasher := Ref.Hasher.new
  let hasher ← hasher.update input
  let output ← hasher.finalize output
  return (output, output)

/-- bench.rs:590-593 -/
def bench_hash_00_verylong_rust (env : Env) : Nat → R (Report (List (Vector Byte 32))) :=
  whole env VERYLONG fun _ => hash env.cfg
/-- bench.rs:596-599 -/
def bench_hash_01_long_rust (env : Env) : Nat → R (Report (List (Vector Byte 32))) :=
  whole env LONG fun _ => hash env.cfg
/-- bench.rs:602-605 -/
def bench_hash_02_chunk_rust (env : Env) : Nat → R (Report (List (Vector Byte 32))) :=
  whole env CHUNK_LEN_32 fun _ => hash env.cfg
/-- bench.rs:608-612 -/
def bench_hash_03_block_rust (env : Env) : Nat → R (Report (List (Vector Byte 32))) :=
  whole_once env BLOCK_LEN_32 fun _ => hash env.cfg
/-- bench.rs:615-622 -/
def bench_hasher_01_long_rust (env : Env) : Nat → R (Report (List (Vector Byte 32))) :=
  whole env LONG fun _ => hasher_rust env
/-- bench.rs:625-632 -/
def bench_hasher_02_chunk_rust (env : Env) : Nat → R (Report (List (Vector Byte 32))) :=
  whole env CHUNK_LEN_32 fun _ => hasher_rust env
/-- bench.rs:635-643 -/
def bench_hasher_03_block_rust (env : Env) : Nat → R (Report (List (Vector Byte 32))) :=
  whole_once env BLOCK_LEN_32 fun _ => hasher_rust env
/-- bench.rs:647-654 -/
def bench_hasher_01_long_c (env : Env) : Nat → R (Report (List (Vector Byte 32))) :=
  whole env LONG (hasher_c env)
/-- bench.rs:658-665 -/
def bench_hasher_02_chunk_c (env : Env) : Nat → R (Report (List (Vector Byte 32))) :=
  whole env CHUNK_LEN_32 (hasher_c env)
/-- bench.rs:669-677 -/
def bench_hasher_03_block_c (env : Env) : Nat → R (Report (List (Vector Byte 32))) :=
  whole_once env BLOCK_LEN_32 (hasher_c env)
/-- bench.rs:680-688 -/
def bench_reference_01_long (env : Env) : Nat → R (Report (List Bytes)) :=
  whole_with env LONG (List.replicate 32 0) reference
/-- bench.rs:691-699 -/
def bench_reference_02_chunk (env : Env) : Nat → R (Report (List Bytes)) :=
  whole_with env CHUNK_LEN_32 (List.replicate 32 0) reference
/-- bench.rs:702-711 -/
def bench_reference_03_block (env : Env) : Nat → R (Report (List Bytes)) :=
  once_with env BLOCK_LEN_32 (List.replicate 32 0) reference

/-- bench.rs:714-719 -/
def bench_xof (env : Env) (prof : Profile) (k : Nat) : R (Report (List Bytes)) := do
  let hasher := Hasher.new env.cfg
  let xof ← hasher.finalize_xof
  let (first, xof) ← xof.read prof
  let bytes := BitVec.ofNat 64 first.toList.length
  let (rs, _) ← iter (fun _ xof => do
    let (r, xof) ← xof.read prof
    return (r.toList, xof)) k 0 xof
  return ⟨bytes, rs⟩

end Baokeshed.Model.Bench
