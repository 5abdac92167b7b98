import Verif.Model.Simd512

/-!
# Semantics of the SIMD intrinsics used by the 64-bit C code only

As in `Verif.Model.Simd` and `Verif.Model.SimdNeon`.
-/

namespace Baokeshed.Model

/-! ## x86, 128-bit -/

/-- `_mm_add_epi64`, used at c64/baokeshed64_sse41.c:15 -/
def mm_add_epi64 (a b : M128) : M128 := fromLanes 64 2 fun i => lane 64 a i + lane 64 b i
/-- `_mm_set1_epi64x`, used at c64/baokeshed64_sse41.c:20 -/
def mm_set1_epi64x (x : U64) : M128 := fromLanes 64 2 fun _ => x
/-- arguments from the most significant element down; `_mm_set_epi64x`, used at c64/baokeshed64_sse41.c:23 -/
def mm_set_epi64x (e1 e0 : U64) : M128 := fromLanes 64 2 fun i => match i with | 0 => e0 | _ => e1
/-- arguments from the least significant byte up; `_mm_setr_epi8`, used at c64/baokeshed64_sse41.c:33 -/
def mm_setr_epi8 (bs : Vector Nat 16) : M128 :=
  fromLanes 8 16 fun i => BitVec.ofNat 8 (bs.toList.getD i 0)
/-- `_mm_srli_epi64`, used at c64/baokeshed64_sse41.c:42 -/
def mm_srli_epi64 (a : M128) (n : Nat) : M128 := fromLanes 64 2 fun i => lane 64 a i >>> n
/-- rotate right each 64-bit element; `_mm_ror_epi64`, used at c64/baokeshed64_avx512.c:52 -/
def mm_ror_epi64 (a : M128) (n : Nat) : M128 := fromLanes 64 2 fun i => (lane 64 a i).rotateRight n

/-! ## x86, 256-bit -/

/-- `_mm256_setr_epi64x`, used at c64/baokeshed64_avx2.c:23 -/
def mm256_setr_epi64x (a b c d : U64) : M256 :=
  fromLanes 64 4 fun i => match i with | 0 => a | 1 => b | 2 => c | _ => d
/-- arguments from the least significant byte up; `_mm256_setr_epi8`, used at c64/baokeshed64_avx2.c:31 -/
def mm256_setr_epi8 (bs : Vector Nat 32) : M256 :=
  fromLanes 8 32 fun i => BitVec.ofNat 8 (bs.toList.getD i 0)
/-- `_mm256_shuffle_epi32`: shuffles within each 128-bit half; used at c64/baokeshed64_avx2.c:27 -/
def mm256_shuffle_epi32 (a : M256) (imm : Nat) : M256 :=
  fromLanes 128 2 fun i => mm_shuffle_epi32 (lane 128 a i) imm
/-- `_mm256_permute4x64_epi64`: element `i` is the one selected by field `i` of the immediate; used at c64/baokeshed64_avx2.c:73 -/
def mm256_permute4x64_epi64 (a : M256) (imm : Nat) : M256 :=
  fromLanes 64 4 fun i => lane 64 a (imm2 imm i)
/-- `_mm256_blend_epi32`: element `i` is that of `b` if bit `i` of the immediate is set; used at c64/baokeshed64_avx2.c:118 -/
def mm256_blend_epi32 (a b : M256) (imm : Nat) : M256 := fromLanes 32 8 fun i =>
  if imm.testBit i then lane 32 b i else lane 32 a i
/-- `_mm256_alignr_epi8`: within each 128-bit half; used at c64/baokeshed64_avx2.c:141 -/
def mm256_alignr_epi8 (a b : M256) (n : Nat) : M256 := halves256 (fun x y => mm_alignr_epi8 x y n) a b
/-- both halves are `a`; `_mm256_broadcastsi128_si256`, used at c64/baokeshed64_avx2.c:94 -/
def mm256_broadcastsi128_si256 (a : M128) : M256 := fromLanes 128 2 fun _ => a
/-- rotate right each 64-bit element; `_mm256_ror_epi64`, used at c64/baokeshed64_avx512.c:54 -/
def mm256_ror_epi64 (a : M256) (n : Nat) : M256 := fromLanes 64 4 fun i => (lane 64 a i).rotateRight n

/-! ## x86, 512-bit -/

/-- rotate right each 64-bit element; `_mm512_ror_epi64`, used at c64/baokeshed64_avx512.c:56 -/
def mm512_ror_epi64 (a : M512) (n : Nat) : M512 := fromLanes 64 8 fun i => (lane 64 a i).rotateRight n

/-! ## NEON: a `uint64x2_t` is a 128-bit register with two 64-bit elements -/

/-- `vaddq_u64`, used at c64/baokeshed64_neon.c:19 -/
def vaddq_u64 (a b : M128) : M128 := fromLanes 64 2 fun i => lane 64 a i + lane 64 b i
/-- `veorq_u64`, used at c64/baokeshed64_neon.c:23 -/
def veorq_u64 (a b : M128) : M128 := a ^^^ b
/-- `vorrq_u64`, used at c64/baokeshed64_neon.c:34 -/
def vorrq_u64 (a b : M128) : M128 := a ||| b
/-- `vshrq_n_u64`, used at c64/baokeshed64_neon.c:34 -/
def vshrq_n_u64 (a : M128) (n : Nat) : M128 := fromLanes 64 2 fun i => lane 64 a i >>> n
/-- `vshlq_n_u64`, used at c64/baokeshed64_neon.c:34 -/
def vshlq_n_u64 (a : M128) (n : Nat) : M128 := fromLanes 64 2 fun i => lane 64 a i <<< n
/-- load one element to all lanes; `vld1q_dup_u64`, used at c64/baokeshed64_neon.c:26 -/
def vld1q_dup_u64 (x : U64) : M128 := fromLanes 64 2 fun _ => x
/-- load two elements of an array; `vld1q_u64`, used at c64/baokeshed64_neon.c:30 -/
def vld1q_u64 (xs : Vector U64 2) : M128 := fromLanes 64 2 fun i => xs.toList.getD i 0

/-! ## Arrays of 64-bit words in memory (little endian) -/

/-- the `uint64_t[2]` a 128-bit register has been stored to -/
def u64s2 (x : M128) : Vector U64 2 := #v[lane 64 x 0, lane 64 x 1]
/-- the `uint64_t[4]` a 256-bit register has been stored to -/
def u64s4 (x : M256) : Vector U64 4 := #v[lane 64 x 0, lane 64 x 1, lane 64 x 2, lane 64 x 3]
/-- the bytes of a `uint64_t[4]` -/
def memOfU64s (ws : Vector U64 4) : Bytes := ws.toList.flatMap fun w => regBytes 8 w

end Baokeshed.Model
