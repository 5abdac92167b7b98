import Verif.Model.Simd

/-!
# Semantics of the AVX-512 intrinsics used by the C code

As in `Verif.Model.Simd`: each definition is the Intel Intrinsics Guide operation of the same name.
-/

namespace Baokeshed.Model

/-- an unaligned load of `k` 64-bit elements of a `uint64_t` array, from element `off` on
(x86 memory: element `i` of the register is array element `off + i`) -/
def loadU64s (k : Nat) (p : List U64) (off : Nat) : R (BitVec (64 * k)) :=
  if off + k ≤ p.length then .ok (fromLanes 64 k fun i => p.getD (off + i) 0) else .error .ub

/-! ## 128-bit -/

/-- rotate right each 32-bit element; `_mm_ror_epi32`, used at c/baokeshed_avx512.c:47 -/
def mm_ror_epi32 (a : M128) (n : Nat) : M128 := fromLanes 32 4 fun i => (lane 32 a i).rotateRight n

/-! ## 256-bit -/

/-- rotate right each 32-bit element; `_mm256_ror_epi32`, used at c/baokeshed_avx512.c:49 -/
def mm256_ror_epi32 (a : M256) (n : Nat) : M256 := fromLanes 32 8 fun i => (lane 32 a i).rotateRight n
/-- `_mm256_add_epi64`, used at c/baokeshed_avx512.c:453 -/
def mm256_add_epi64 (a b : M256) : M256 := fromLanes 64 4 fun i => lane 64 a i + lane 64 b i
/-- `_mm256_set1_epi64x`, used at c/baokeshed_avx512.c:453 -/
def mm256_set1_epi64x (x : U64) : M256 := fromLanes 64 4 fun _ => x
/-- `_mm256_srli_epi64`, used at c/baokeshed_avx512.c:456 -/
def mm256_srli_epi64 (a : M256) (n : Nat) : M256 := fromLanes 64 4 fun i => lane 64 a i >>> n
/-- truncate each 64-bit element to 32 bits; `_mm256_cvtepi64_epi32`, used at c/baokeshed_avx512.c:455 -/
def mm256_cvtepi64_epi32 (a : M256) : M128 := fromLanes 32 4 fun i => (lane 64 a i).setWidth 32

/-! ## 512-bit -/

/-- `_mm512_loadu_si512`; used at c/baokeshed_avx512.c:14 -/
def mm512_loadu_si512 (p : Bytes) (off : Nat) : R M512 := loadBytes 64 p off
/-- `_mm512_add_epi32`, used at c/baokeshed_avx512.c:29 -/
def mm512_add_epi32 (a b : M512) : M512 := fromLanes 32 16 fun i => lane 32 a i + lane 32 b i
/-- `_mm512_xor_si512`, used at c/baokeshed_avx512.c:35 -/
def mm512_xor_si512 (a b : M512) : M512 := a ^^^ b
/-- `_mm512_set1_epi32`, used at c/baokeshed_avx512.c:41 -/
def mm512_set1_epi32 (x : Word) : M512 := fromLanes 32 16 fun _ => x
/-- rotate right each 32-bit element; `_mm512_ror_epi32`, used at c/baokeshed_avx512.c:51 -/
def mm512_ror_epi32 (a : M512) (n : Nat) : M512 := fromLanes 32 16 fun i => (lane 32 a i).rotateRight n
/-- `_mm512_add_epi64`, used at c/baokeshed_avx512.c:700 -/
def mm512_add_epi64 (a b : M512) : M512 := fromLanes 64 8 fun i => lane 64 a i + lane 64 b i
/-- `_mm512_set1_epi64`, used at c/baokeshed_avx512.c:700 -/
def mm512_set1_epi64 (x : U64) : M512 := fromLanes 64 8 fun _ => x
/-- `_mm512_srli_epi64`, used at c/baokeshed_avx512.c:703 -/
def mm512_srli_epi64 (a : M512) (n : Nat) : M512 := fromLanes 64 8 fun i => lane 64 a i >>> n
/-- truncate each 64-bit element to 32 bits; `_mm512_cvtepi64_epi32`, used at c/baokeshed_avx512.c:702 -/
def mm512_cvtepi64_epi32 (a : M512) : M256 := fromLanes 32 8 fun i => (lane 64 a i).setWidth 32
/-- `_mm512_setr_epi32`, arguments as an array; used at c/baokeshed_avx512.c:1009 -/
def mm512_setr_epi32 (xs : Vector Nat 16) : M512 :=
  fromLanes 32 16 fun i => BitVec.ofNat 32 (xs.toList.getD i 0)
/-- `_mm512_permutex2var_epi32(a, idx, b)`: bits 0..3 of each index select an element of `a`, or
of `b` if bit 4 is set; used at c/baokeshed_avx512.c:1013 -/
def mm512_permutex2var_epi32 (a idx b : M512) : M512 := fromLanes 32 16 fun i =>
  let k := (lane 32 idx i).toNat
  if k.testBit 4 then lane 32 b (k % 16) else lane 32 a (k % 16)
/-- apply a 128-bit operation to the four 128-bit quarters -/
def quarters512 (f : M128 → M128 → M128) (a b : M512) : M512 :=
  fromLanes 128 4 fun i => f (lane 128 a i) (lane 128 b i)
/-- `_mm512_unpacklo_epi32`, used at c/baokeshed_avx512.c:904 -/
def mm512_unpacklo_epi32 (a b : M512) : M512 := quarters512 mm_unpacklo_epi32 a b
/-- `_mm512_unpackhi_epi32`, used at c/baokeshed_avx512.c:905 -/
def mm512_unpackhi_epi32 (a b : M512) : M512 := quarters512 mm_unpackhi_epi32 a b
/-- `_mm512_unpacklo_epi64`, used at c/baokeshed_avx512.c:926 -/
def mm512_unpacklo_epi64 (a b : M512) : M512 := quarters512 mm_unpacklo_epi64 a b
/-- `_mm512_unpackhi_epi64`, used at c/baokeshed_avx512.c:927 -/
def mm512_unpackhi_epi64 (a b : M512) : M512 := quarters512 mm_unpackhi_epi64 a b
/-- `_mm512_shuffle_i32x4`: two quarters of `a`, then two of `b`, selected by the immediate; used at c/baokeshed_avx512.c:890 -/
def mm512_shuffle_i32x4 (a b : M512) (imm : Nat) : M512 := fromLanes 128 4 fun i =>
  if i < 2 then lane 128 a (imm2 imm i) else lane 128 b (imm2 imm i)
/-- the low half; `_mm512_castsi512_si256`, used at c/baokeshed_avx512.c:1074 -/
def mm512_castsi512_si256 (a : M512) : M256 := lane 256 a 0

end Baokeshed.Model
