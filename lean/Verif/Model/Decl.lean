import Verif.Basic
import Verif.Model.Build

/-!
# Model of the declarations on both sides of the foreign function interface

/repo/src/c.rs and /repo/src/c64.rs declare in Rust what /repo/c and /repo/c64 define in C: two structs and 35 functions.  Here are
both sides, as data, and the rules by which compilers lay out structs.

* An `Abi` says how integers are aligned; their sizes are the same everywhere.  `size_t` is `usize`, as Rust requires of a platform.
* `place` is the layout of C, which `#[repr(C)]` asks for: members in order, each at the next multiple of its alignment.  For other
  Rust structs the compiler may use any order; that is left to the theorems.
* Parameters declared as arrays are pointers (C11 6.7.6.3, paragraph 7).
-/

namespace Baokeshed.Model.Decl

/-! ## Layout -/

/-- size and alignment of a type, in bytes -/
structure Lay where
  size : Nat
  align : Nat
deriving DecidableEq, Repr

/-- the alignments of integers on a platform -/
structure Abi where
  align16 : Nat
  align32 : Nat
  align64 : Nat
deriving DecidableEq, Repr

/-- what alignments there are: on x86-64 and AArch64 an integer is aligned to its size, on 32-bit x86 (except Windows) `align64` is 4,
on m68k `align32` and `align64` are 2, on AVR all are 1 -/
def Abi.Ok (a : Abi) : Prop :=
  (a.align16 = 1 ∨ a.align16 = 2) ∧ (a.align32 = 1 ∨ a.align32 = 2 ∨ a.align32 = 4) ∧
    (a.align64 = 1 ∨ a.align64 = 2 ∨ a.align64 = 4 ∨ a.align64 = 8)

def u8 : Lay := ⟨1, 1⟩
def u16 (a : Abi) : Lay := ⟨2, a.align16⟩
def u32 (a : Abi) : Lay := ⟨4, a.align32⟩
def u64 (a : Abi) : Lay := ⟨8, a.align64⟩
def array (t : Lay) (n : Nat) : Lay := ⟨t.size * n, t.align⟩

/-- the next multiple of `a` -/
def roundUp (n a : Nat) : Nat := (n + (a - 1)) / a * a

/-- the offsets of members, from `start` -/
def place (start : Nat) : List Lay → List Nat
  | [] => []
  | t :: ts => roundUp start t.align :: place (roundUp start t.align + t.size) ts

/-- where the last member ends -/
def endOf (start : Nat) : List Lay → Nat
  | [] => start
  | t :: ts => endOf (roundUp start t.align + t.size) ts

/-- the strictest alignment -/
def strictest (ts : List Lay) : Nat := ts.foldr (fun t a => max t.align a) 1

/-- the type of structs with these members -/
def struct (ts : List Lay) : Lay := ⟨roundUp (endOf 0 ts) (strictest ts), strictest ts⟩

/-! ## The structs -/

/-- `ChunkState`, src/c.rs:13-21: `state`, `key`, `offset`, `count`, `buf`, `buf_len`, `flags` -/
def rustChunkState (a : Abi) : List Lay := [array (u32 a) 8, array (u32 a) 8, u64 a, u16 a, array u8 64, u8, u8]

/-- `Hasher`, src/c.rs:25-29: `chunk`, `subtree_hashes_len`, `subtree_hashes` -/
def rustHasher (a : Abi) : List Lay := [struct (rustChunkState a), u8, array u8 1664]

/-- `chunk_state`, c/baokeshed.c:10-18, with `BLOCK_LEN` from c/baokeshed_impl.h:14 -/
def cChunkState (a : Abi) : List Lay := [array (u32 a) 8, array (u32 a) 8, u64 a, u16 a, array u8 64, u8, u8]

/-- `hasher`, c/baokeshed.c:130-134, with `MAX_DEPTH` and `OUT_LEN` from c/baokeshed_impl.h:17-18 -/
def cHasher (a : Abi) : List Lay := [struct (cChunkState a), u8, array u8 (53 * 32)]

/-- `ChunkState` of the reference implementation, reference_impl/reference_impl.rs:142-149, in the order of the text -/
def refChunkState (a : Abi) : List Lay := [array (u32 a) 8, u64 a, array u8 64, u8, u8, u32 a]

/-- `Hasher` of the reference implementation, reference_impl/reference_impl.rs:232-237, in the order of the text; `chunk` is the type
`ChunkState`, whose layout is up to the compiler -/
def refHasher (a : Abi) (chunk : Lay) : List Lay := [chunk, array (u32 a) 8, array (array (u32 a) 8) 53, u8]

/-- The size that `test_reference_impl_size` expects, src/test.rs:455. -/
def refSize : Nat := 1848

/-! ## The functions -/

/-- types of arguments in Rust -/
inductive RTy
  | u8 | u32 | u64 | usize | bool | void | chunkState | hasher
  | const (t : RTy)
  | mut (t : RTy)
deriving DecidableEq, Repr

/-- types of parameters in C; `const` says whether what is pointed at is `const` -/
inductive CTy
  | uint8 | uint32 | uint64 | size | bool | void | chunkState | hasher
  | ptr (const : Bool) (t : CTy)
  | array (const : Bool) (t : CTy) (n : Nat)
deriving DecidableEq, Repr

/-- what is passed -/
inductive Arg
  | int (bits : Nat) | size | bool | void | chunkState | hasher
  | ptr (const : Bool) (t : Arg)
deriving DecidableEq, Repr

def RTy.arg : RTy → Arg
  | .u8 => .int 8
  | .u32 => .int 32
  | .u64 => .int 64
  | .usize => .size
  | .bool => .bool
  | .void => .void
  | .chunkState => .chunkState
  | .hasher => .hasher
  | .const t => .ptr true t.arg
  | .mut t => .ptr false t.arg

def CTy.arg : CTy → Arg
  | .uint8 => .int 8
  | .uint32 => .int 32
  | .uint64 => .int 64
  | .size => .size
  | .bool => .bool
  | .void => .void
  | .chunkState => .chunkState
  | .hasher => .hasher
  | .ptr c t => .ptr c t.arg
  | .array c t _ => .ptr c t.arg

/-- The functions that src/c.rs declares, with the types of their arguments; none returns a value. -/
def rustDecls : List (String × List RTy) := [
  -- src/c.rs:57
  ("hasher_init", [.mut .hasher, .const .u8, .u8]),
  -- src/c.rs:58-62
  ("hasher_update", [.mut .hasher, .const .void, .usize]),
  -- src/c.rs:63
  ("hasher_finalize", [.const .hasher, .mut .u8]),
  -- src/c.rs:64-70
  ("compress_portable", [.mut .u32, .const .u8, .u8, .u64, .u8]),
  -- src/c.rs:72-78
  ("compress_sse41", [.mut .u32, .const .u8, .u8, .u64, .u8]),
  -- src/c.rs:80-86
  ("compress_avx512", [.mut .u32, .const .u8, .u8, .u64, .u8]),
  -- src/c.rs:88-98
  ("hash4_sse41", [.const (.const .u8), .usize, .const .u32, .u64, .const .u64, .u8, .u8, .u8, .mut .u8]),
  -- src/c.rs:100-110
  ("hash4_avx512", [.const (.const .u8), .usize, .const .u32, .u64, .const .u64, .u8, .u8, .u8, .mut .u8]),
  -- src/c.rs:112-122
  ("hash4_neon", [.const (.const .u8), .usize, .const .u32, .u64, .const .u64, .u8, .u8, .u8, .mut .u8]),
  -- src/c.rs:124-134
  ("hash8_avx2", [.const (.const .u8), .usize, .const .u32, .u64, .const .u64, .u8, .u8, .u8, .mut .u8]),
  -- src/c.rs:136-146
  ("hash8_avx512", [.const (.const .u8), .usize, .const .u32, .u64, .const .u64, .u8, .u8, .u8, .mut .u8]),
  -- src/c.rs:148-158
  ("hash16_avx512", [.const (.const .u8), .usize, .const .u32, .u64, .const .u64, .u8, .u8, .u8, .mut .u8]),
  -- src/c.rs:159-170
  ("hash_many_portable", [.const (.const .u8), .usize, .usize, .const .u32, .u64, .const .u64, .u8, .u8, .u8, .mut .u8]),
  -- src/c.rs:172-183
  ("hash_many_sse41", [.const (.const .u8), .usize, .usize, .const .u32, .u64, .const .u64, .u8, .u8, .u8, .mut .u8]),
  -- src/c.rs:185-196
  ("hash_many_avx2", [.const (.const .u8), .usize, .usize, .const .u32, .u64, .const .u64, .u8, .u8, .u8, .mut .u8]),
  -- src/c.rs:198-209
  ("hash_many_avx512", [.const (.const .u8), .usize, .usize, .const .u32, .u64, .const .u64, .u8, .u8, .u8, .mut .u8]),
  -- src/c.rs:211-222
  ("hash_many_neon", [.const (.const .u8), .usize, .usize, .const .u32, .u64, .const .u64, .u8, .u8, .u8, .mut .u8]),
  -- src/c.rs:223
  ("chunk_state_init", [.mut .chunkState, .const .u32, .u8]),
  -- src/c.rs:224-228
  ("chunk_state_update", [.mut .chunkState, .const .u8, .usize]),
  -- src/c.rs:229
  ("chunk_state_finalize", [.const .chunkState, .bool, .mut .u8])]

/-- The functions that src/c64.rs declares, with the types of their arguments; none returns a value. -/
def rustDecls64 : List (String × List RTy) := [
  -- src/c64.rs:8-14
  ("baokeshed64_compress_portable", [.mut .u64, .const .u8, .u8, .u64, .u8]),
  -- src/c64.rs:16-22
  ("baokeshed64_compress_avx2", [.mut .u64, .const .u8, .u8, .u64, .u8]),
  -- src/c64.rs:24-30
  ("baokeshed64_compress_avx512", [.mut .u64, .const .u8, .u8, .u64, .u8]),
  -- src/c64.rs:31-42
  ("baokeshed64_hash_many_portable", [.const (.const .u8), .usize, .usize, .const .u64, .u64, .const .u64, .u8, .u8, .u8, .mut .u8]),
  -- src/c64.rs:44-54
  ("baokeshed64_hash2_sse41", [.const (.const .u8), .usize, .const .u64, .u64, .const .u64, .u8, .u8, .u8, .mut .u8]),
  -- src/c64.rs:56-66
  ("baokeshed64_hash2_avx512", [.const (.const .u8), .usize, .const .u64, .u64, .const .u64, .u8, .u8, .u8, .mut .u8]),
  -- src/c64.rs:68-78
  ("baokeshed64_hash2_neon", [.const (.const .u8), .usize, .const .u64, .u64, .const .u64, .u8, .u8, .u8, .mut .u8]),
  -- src/c64.rs:80-90
  ("baokeshed64_hash4_avx2", [.const (.const .u8), .usize, .const .u64, .u64, .const .u64, .u8, .u8, .u8, .mut .u8]),
  -- src/c64.rs:92-102
  ("baokeshed64_hash4_avx512", [.const (.const .u8), .usize, .const .u64, .u64, .const .u64, .u8, .u8, .u8, .mut .u8]),
  -- src/c64.rs:104-114
  ("baokeshed64_hash8_avx512", [.const (.const .u8), .usize, .const .u64, .u64, .const .u64, .u8, .u8, .u8, .mut .u8]),
  -- src/c64.rs:116-127
  ("baokeshed64_hash_many_sse41", [.const (.const .u8), .usize, .usize, .const .u64, .u64, .const .u64, .u8, .u8, .u8, .mut .u8]),
  -- src/c64.rs:129-140
  ("baokeshed64_hash_many_neon", [.const (.const .u8), .usize, .usize, .const .u64, .u64, .const .u64, .u8, .u8, .u8, .mut .u8]),
  -- src/c64.rs:142-153
  ("baokeshed64_hash_many_avx2", [.const (.const .u8), .usize, .usize, .const .u64, .u64, .const .u64, .u8, .u8, .u8, .mut .u8]),
  -- src/c64.rs:155-166
  ("baokeshed64_hash_many_avx512", [.const (.const .u8), .usize, .usize, .const .u64, .u64, .const .u64, .u8, .u8, .u8, .mut .u8])]

/-- The functions with external linkage that a file of C defines, with their parameters; all are `void`. -/
def cDefs : Build.CFile → List (String × List CTy)
  | .main => [
    -- c/baokeshed.c:21
    ("chunk_state_init", [.ptr false .chunkState, .array true .uint32 8, .uint8]),
    -- c/baokeshed.c:31
    ("chunk_state_reset", [.ptr false .chunkState, .uint64]),
    -- c/baokeshed.c:75-76
    ("chunk_state_update", [.ptr false .chunkState, .ptr true .uint8, .size]),
    -- c/baokeshed.c:104-105
    ("chunk_state_finalize", [.ptr true .chunkState, .bool, .array false .uint8 32]),
    -- c/baokeshed.c:136
    ("hasher_init", [.ptr false .hasher, .array true .uint8 32, .uint8]),
    -- c/baokeshed.c:192
    ("hasher_update", [.ptr false .hasher, .ptr true .void, .size]),
    -- c/baokeshed.c:258
    ("hasher_finalize", [.ptr true .hasher, .array false .uint8 32])]
  | .portable => [
    -- c/baokeshed_portable.c:33-34
    ("compress_portable", [.array false .uint32 8, .array true .uint8 64, .uint8, .uint64, .uint8]),
    -- c/baokeshed_portable.c:94-98
    ("hash_many_portable", [.ptr true (.ptr true .uint8), .size, .size, .array true .uint32 8, .uint64, .array true .uint64 2, .uint8, .uint8, .uint8, .ptr false .uint8])]
  | .sse41 => [
    -- c/baokeshed_sse41.c:79-80
    ("compress_sse41", [.array false .uint32 8, .array true .uint8 64, .uint8, .uint64, .uint8]),
    -- c/baokeshed_sse41.c:424-427
    ("hash4_sse41", [.ptr true (.ptr true .uint8), .size, .array true .uint32 8, .uint64, .array true .uint64 4, .uint8, .uint8, .uint8, .ptr false .uint8]),
    -- c/baokeshed_sse41.c:504-508
    ("hash_many_sse41", [.ptr true (.ptr true .uint8), .size, .size, .array true .uint32 8, .uint64, .array true .uint64 5, .uint8, .uint8, .uint8, .ptr false .uint8])]
  | .avx2 => [
    -- c/baokeshed_avx2.c:240-243
    ("hash8_avx2", [.ptr true (.ptr true .uint8), .size, .array true .uint32 8, .uint64, .array true .uint64 8, .uint8, .uint8, .uint8, .ptr false .uint8]),
    -- c/baokeshed_avx2.c:298-301
    ("hash_many_avx2", [.ptr true (.ptr true .uint8), .size, .size, .array true .uint32 8, .uint64, .array true .uint64 9, .uint8, .uint8, .uint8, .ptr false .uint8])]
  | .avx512 => [
    -- c/baokeshed_avx512.c:112-113
    ("compress_avx512", [.array false .uint32 8, .array true .uint8 64, .uint8, .uint64, .uint8]),
    -- c/baokeshed_avx512.c:459-462
    ("hash4_avx512", [.ptr true (.ptr true .uint8), .size, .array true .uint32 8, .uint64, .array true .uint64 4, .uint8, .uint8, .uint8, .ptr false .uint8]),
    -- c/baokeshed_avx512.c:706-709
    ("hash8_avx512", [.ptr true (.ptr true .uint8), .size, .array true .uint32 8, .uint64, .array true .uint64 8, .uint8, .uint8, .uint8, .ptr false .uint8]),
    -- c/baokeshed_avx512.c:1017-1020
    ("hash16_avx512", [.ptr true (.ptr true .uint8), .size, .array true .uint32 8, .uint64, .array true .uint64 16, .uint8, .uint8, .uint8, .ptr false .uint8]),
    -- c/baokeshed_avx512.c:1117-1121
    ("hash_many_avx512", [.ptr true (.ptr true .uint8), .size, .size, .array true .uint32 8, .uint64, .array true .uint64 17, .uint8, .uint8, .uint8, .ptr false .uint8])]
  | .neon => [
    -- c/baokeshed_neon.c:225-228
    ("hash4_neon", [.ptr true (.ptr true .uint8), .size, .array true .uint32 8, .uint64, .array true .uint64 4, .uint8, .uint8, .uint8, .ptr false .uint8]),
    -- c/baokeshed_neon.c:312-315
    ("hash_many_neon", [.ptr true (.ptr true .uint8), .size, .size, .array true .uint32 8, .uint64, .array true .uint64 17, .uint8, .uint8, .uint8, .ptr false .uint8])]
  | .portable64 => [
    -- c64/baokeshed64_portable.c:33-36
    ("baokeshed64_compress_portable", [.array false .uint64 4, .array true .uint8 128, .uint8, .uint64, .uint8]),
    -- c64/baokeshed64_portable.c:81-87
    ("baokeshed64_hash_many_portable", [.ptr true (.ptr true .uint8), .size, .size, .array true .uint64 4, .uint64, .array true .uint64 2, .uint8, .uint8, .uint8, .ptr false .uint8])]
  | .sse41_64 => [
    -- c64/baokeshed64_sse41.c:203-207
    ("baokeshed64_hash2_sse41", [.ptr true (.ptr true .uint8), .size, .array true .uint64 4, .uint64, .array true .uint64 2, .uint8, .uint8, .uint8, .ptr false .uint8]),
    -- c64/baokeshed64_sse41.c:259-264
    ("baokeshed64_hash_many_sse41", [.ptr true (.ptr true .uint8), .size, .size, .array true .uint64 4, .uint64, .array true .uint64 3, .uint8, .uint8, .uint8, .ptr false .uint8])]
  | .avx2_64 => [
    -- c64/baokeshed64_avx2.c:85-88
    ("baokeshed64_compress_avx2", [.array false .uint64 4, .array true .uint8 128, .uint8, .uint64, .uint8]),
    -- c64/baokeshed64_avx2.c:438-442
    ("baokeshed64_hash4_avx2", [.ptr true (.ptr true .uint8), .size, .array true .uint64 4, .uint64, .array true .uint64 4, .uint8, .uint8, .uint8, .ptr false .uint8]),
    -- c64/baokeshed64_avx2.c:491-496
    ("baokeshed64_hash_many_avx2", [.ptr true (.ptr true .uint8), .size, .size, .array true .uint64 4, .uint64, .array true .uint64 5, .uint8, .uint8, .uint8, .ptr false .uint8])]
  | .avx512_64 => [
    -- c64/baokeshed64_avx512.c:119-122
    ("baokeshed64_compress_avx512", [.array false .uint64 4, .array true .uint8 128, .uint8, .uint64, .uint8]),
    -- c64/baokeshed64_avx512.c:476-480
    ("baokeshed64_hash2_avx512", [.ptr true (.ptr true .uint8), .size, .array true .uint64 4, .uint64, .array true .uint64 2, .uint8, .uint8, .uint8, .ptr false .uint8]),
    -- c64/baokeshed64_avx512.c:698-702
    ("baokeshed64_hash4_avx512", [.ptr true (.ptr true .uint8), .size, .array true .uint64 4, .uint64, .array true .uint64 4, .uint8, .uint8, .uint8, .ptr false .uint8]),
    -- c64/baokeshed64_avx512.c:949-953
    ("baokeshed64_hash8_avx512", [.ptr true (.ptr true .uint8), .size, .array true .uint64 4, .uint64, .array true .uint64 8, .uint8, .uint8, .uint8, .ptr false .uint8]),
    -- c64/baokeshed64_avx512.c:1039-1044
    ("baokeshed64_hash_many_avx512", [.ptr true (.ptr true .uint8), .size, .size, .array true .uint64 4, .uint64, .array true .uint64 9, .uint8, .uint8, .uint8, .ptr false .uint8])]
  | .neon64 => [
    -- c64/baokeshed64_neon.c:217-221
    ("baokeshed64_hash2_neon", [.ptr true (.ptr true .uint8), .size, .array true .uint64 4, .uint64, .array true .uint64 2, .uint8, .uint8, .uint8, .ptr false .uint8]),
    -- c64/baokeshed64_neon.c:299-304
    ("baokeshed64_hash_many_neon", [.ptr true (.ptr true .uint8), .size, .size, .array true .uint64 4, .uint64, .array true .uint64 17, .uint8, .uint8, .uint8, .ptr false .uint8])]

/-- The prototypes in c/baokeshed_impl.h; all are `void`. -/
def cProtos : List (String × List CTy) := [
  -- c/baokeshed_impl.h:139-140
  ("compress_portable", [.array false .uint32 8, .array true .uint8 64, .uint8, .uint64, .uint8]),
  -- c/baokeshed_impl.h:141-142
  ("compress_sse41", [.array false .uint32 8, .array true .uint8 64, .uint8, .uint64, .uint8]),
  -- c/baokeshed_impl.h:143-144
  ("compress_avx512", [.array false .uint32 8, .array true .uint8 64, .uint8, .uint64, .uint8]),
  -- c/baokeshed_impl.h:145-149
  ("hash_many_portable", [.ptr true (.ptr true .uint8), .size, .size, .array true .uint32 8, .uint64, .array true .uint64 2, .uint8, .uint8, .uint8, .ptr false .uint8]),
  -- c/baokeshed_impl.h:150-154
  ("hash_many_sse41", [.ptr true (.ptr true .uint8), .size, .size, .array true .uint32 8, .uint64, .array true .uint64 5, .uint8, .uint8, .uint8, .ptr false .uint8]),
  -- c/baokeshed_impl.h:155-158
  ("hash_many_avx2", [.ptr true (.ptr true .uint8), .size, .size, .array true .uint32 8, .uint64, .array true .uint64 9, .uint8, .uint8, .uint8, .ptr false .uint8]),
  -- c/baokeshed_impl.h:159-163
  ("hash_many_avx512", [.ptr true (.ptr true .uint8), .size, .size, .array true .uint32 8, .uint64, .array true .uint64 17, .uint8, .uint8, .uint8, .ptr false .uint8]),
  -- c/baokeshed_impl.h:164-167
  ("hash_many_neon", [.ptr true (.ptr true .uint8), .size, .size, .array true .uint32 8, .uint64, .array true .uint64 17, .uint8, .uint8, .uint8, .ptr false .uint8])]

/-- The prototypes in c64/baokeshed64_impl.h; all are `void`. -/
def cProtos64 : List (String × List CTy) := [
  -- c64/baokeshed64_impl.h:133-136
  ("baokeshed64_compress_portable", [.array false .uint64 4, .array true .uint8 128, .uint8, .uint64, .uint8]),
  -- c64/baokeshed64_impl.h:137-140
  ("baokeshed64_compress_avx2", [.array false .uint64 4, .array true .uint8 128, .uint8, .uint64, .uint8]),
  -- c64/baokeshed64_impl.h:141-144
  ("baokeshed64_compress_avx512", [.array false .uint64 4, .array true .uint8 128, .uint8, .uint64, .uint8]),
  -- c64/baokeshed64_impl.h:145-151
  ("baokeshed64_hash_many_portable", [.ptr true (.ptr true .uint8), .size, .size, .array true .uint64 4, .uint64, .array true .uint64 2, .uint8, .uint8, .uint8, .ptr false .uint8]),
  -- c64/baokeshed64_impl.h:152-157
  ("baokeshed64_hash_many_sse41", [.ptr true (.ptr true .uint8), .size, .size, .array true .uint64 4, .uint64, .array true .uint64 3, .uint8, .uint8, .uint8, .ptr false .uint8]),
  -- c64/baokeshed64_impl.h:158-163
  ("baokeshed64_hash_many_avx2", [.ptr true (.ptr true .uint8), .size, .size, .array true .uint64 4, .uint64, .array true .uint64 5, .uint8, .uint8, .uint8, .ptr false .uint8]),
  -- c64/baokeshed64_impl.h:164-169
  ("baokeshed64_hash_many_avx512", [.ptr true (.ptr true .uint8), .size, .size, .array true .uint64 4, .uint64, .array true .uint64 9, .uint8, .uint8, .uint8, .ptr false .uint8]),
  -- c64/baokeshed64_impl.h:170-175
  ("baokeshed64_hash_many_neon", [.ptr true (.ptr true .uint8), .size, .size, .array true .uint64 4, .uint64, .array true .uint64 3, .uint8, .uint8, .uint8, .ptr false .uint8])]

end Baokeshed.Model.Decl
