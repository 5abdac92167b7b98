import Verif.Basic

/-!
# Semantics of the x86 SIMD intrinsics used by the code

Registers are bit vectors.  `lane w x i` is the `i`-th `w`-bit element of `x` (element 0 is
the least significant, as in Intel's pseudo-code `x[w*i+w-1 : w*i]`), and `fromLanes w k f`
is the register whose `k` elements of `w` bits are `f 0, f 1, ...`.  Each definition below is
the Intel Intrinsics Guide operation of the same name.
-/

namespace Baokeshed.Model

/-- element `i` of width `w` -/
def lane (w : Nat) {n : Nat} (x : BitVec n) (i : Nat) : BitVec w := x.extractLsb' (w * i) w

/-- the register with elements `f 0, ..., f (k-1)` of width `w` -/
def fromLanes (w : Nat) : (k : Nat) → (f : Nat → BitVec w) → BitVec (w * k)
  | 0, _ => 0#0
  | k + 1, f => (f k ++ fromLanes w k f).cast (by rw [Nat.mul_succ, Nat.add_comm])

abbrev M128 := BitVec 128
abbrev M256 := BitVec 256
abbrev M512 := BitVec 512

/-- the `k` bytes of a register in memory order (x86 is little endian) -/
def regBytes (k : Nat) {n : Nat} (x : BitVec n) : Bytes := (List.range k).map fun i => lane 8 x i

/-- an unaligned load of `k` bytes at `p + off`; out of bounds reads are undefined behaviour -/
def loadBytes (k : Nat) (p : Bytes) (off : Nat) : R (BitVec (8 * k)) :=
  if off + k ≤ p.length then .ok (fromLanes 8 k fun i => p.getD (off + i) 0) else .error .ub

/-- `_MM_SHUFFLE(z, y, x, w)`; used at src/sse41.rs:102 -/
def MM_SHUFFLE (z y x w : Nat) : Nat := (z <<< 6) ||| (y <<< 4) ||| (x <<< 2) ||| w

/-- the two-bit field `i` of an immediate -/
def imm2 (imm i : Nat) : Nat := (imm >>> (2 * i)) % 4

/-! ## 128-bit -/

/-- `_mm_loadu_si128`; used at src/sse41.rs:14 -/
def mm_loadu_si128 (p : Bytes) (off : Nat) : R M128 := loadBytes 16 p off

/-- `_mm_add_epi32`, used at src/sse41.rs:25 -/
def mm_add_epi32 (a b : M128) : M128 := fromLanes 32 4 fun i => lane 32 a i + lane 32 b i
/-- `_mm_xor_si128`, used at src/sse41.rs:30 -/
def mm_xor_si128 (a b : M128) : M128 := a ^^^ b
/-- `_mm_or_si128`, used at c64/baokeshed64_sse41.c:42 -/
def mm_or_si128 (a b : M128) : M128 := a ||| b
/-- `_mm_set1_epi32`, used at src/sse41.rs:35 -/
def mm_set1_epi32 (x : Word) : M128 := fromLanes 32 4 fun _ => x
/-- `_mm_setr_epi32`, used at src/sse41.rs:40 -/
def mm_setr_epi32 (a b c d : Word) : M128 :=
  fromLanes 32 4 fun i => match i with | 0 => a | 1 => b | 2 => c | _ => d
/-- arguments from the most significant byte down; `_mm_set_epi8`, used at src/sse41.rs:47 -/
def mm_set_epi8 (bs : Vector Nat 16) : M128 :=
  fromLanes 8 16 fun i => BitVec.ofNat 8 (bs.toList.getD (15 - i) 0)
/-- `_mm_shuffle_epi8` (PSHUFB); used at src/sse41.rs:45 -/
def mm_shuffle_epi8 (a m : M128) : M128 := fromLanes 8 16 fun i =>
  if (lane 8 m i).msb then 0 else lane 8 a ((lane 8 m i).toNat % 16)
/-- `_mm_srli_epi32`, used at src/sse41.rs:53 -/
def mm_srli_epi32 (a : M128) (n : Nat) : M128 := fromLanes 32 4 fun i => lane 32 a i >>> n
/-- `_mm_slli_epi32`, used at src/sse41.rs:53 -/
def mm_slli_epi32 (a : M128) (n : Nat) : M128 := fromLanes 32 4 fun i => lane 32 a i <<< n
/-- `_mm_shuffle_epi32`, used at src/sse41.rs:113 -/
def mm_shuffle_epi32 (a : M128) (imm : Nat) : M128 := fromLanes 32 4 fun i => lane 32 a (imm2 imm i)
/-- `_mm_shuffle_ps` (the casts to and from `__m128` do not change bits); used at src/sse41.rs:149 -/
def mm_shuffle_ps (a b : M128) (imm : Nat) : M128 := fromLanes 32 4 fun i =>
  if i < 2 then lane 32 a (imm2 imm i) else lane 32 b (imm2 imm i)
/-- `_mm_blend_epi16`, used at src/sse41.rs:164 -/
def mm_blend_epi16 (a b : M128) (imm : Nat) : M128 := fromLanes 16 8 fun i =>
  if imm.testBit i then lane 16 b i else lane 16 a i
/-- shift left by `n` bytes; `_mm_slli_si128`, used at src/sse41.rs:173 -/
def mm_slli_si128 (a : M128) (n : Nat) : M128 := a <<< (8 * n)
/-- shift right by `n` bytes; `_mm_srli_si128`, used at src/sse41.rs:208 -/
def mm_srli_si128 (a : M128) (n : Nat) : M128 := a >>> (8 * n)
/-- concatenate `a` (high) and `b` (low), shift right by `n` bytes, keep the low half; `_mm_alignr_epi8`, used at src/sse41.rs:235 -/
def mm_alignr_epi8 (a b : M128) (n : Nat) : M128 := ((a ++ b) >>> (8 * n)).setWidth 128
/-- `_mm_unpacklo_epi32`, used at src/sse41.rs:201 -/
def mm_unpacklo_epi32 (a b : M128) : M128 :=
  mm_setr_epi32 (lane 32 a 0) (lane 32 b 0) (lane 32 a 1) (lane 32 b 1)
/-- `_mm_unpackhi_epi32`, used at src/sse41.rs:188 -/
def mm_unpackhi_epi32 (a b : M128) : M128 :=
  mm_setr_epi32 (lane 32 a 2) (lane 32 b 2) (lane 32 a 3) (lane 32 b 3)
/-- `_mm_unpacklo_epi64`, used at src/sse41.rs:241 -/
def mm_unpacklo_epi64 (a b : M128) : M128 :=
  fromLanes 64 2 fun i => match i with | 0 => lane 64 a 0 | _ => lane 64 b 0
/-- `_mm_unpackhi_epi64`, used at src/sse41.rs:242 -/
def mm_unpackhi_epi64 (a b : M128) : M128 :=
  fromLanes 64 2 fun i => match i with | 0 => lane 64 a 1 | _ => lane 64 b 1

/-! ## 256-bit -/

/-- `_mm256_loadu_si256`; used at src/avx2.rs:14 -/
def mm256_loadu_si256 (p : Bytes) (off : Nat) : R M256 := loadBytes 32 p off

/-- `_mm256_add_epi32`, used at src/avx2.rs:25 -/
def mm256_add_epi32 (a b : M256) : M256 := fromLanes 32 8 fun i => lane 32 a i + lane 32 b i
/-- `_mm256_xor_si256`, used at src/avx2.rs:30 -/
def mm256_xor_si256 (a b : M256) : M256 := a ^^^ b
/-- `_mm256_or_si256`, used at src/avx2.rs:58 -/
def mm256_or_si256 (a b : M256) : M256 := a ||| b
/-- `_mm256_set1_epi32`, used at src/avx2.rs:35 -/
def mm256_set1_epi32 (x : Word) : M256 := fromLanes 32 8 fun _ => x
/-- `_mm256_setr_epi32`, used at src/avx2.rs:40 -/
def mm256_setr_epi32 (a b c d e f g h : Word) : M256 := fromLanes 32 8 fun i =>
  match i with | 0 => a | 1 => b | 2 => c | 3 => d | 4 => e | 5 => f | 6 => g | _ => h
/-- arguments from the most significant byte down; `_mm256_set_epi8`, used at src/avx2.rs:49 -/
def mm256_set_epi8 (bs : Vector Nat 32) : M256 :=
  fromLanes 8 32 fun i => BitVec.ofNat 8 (bs.toList.getD (31 - i) 0)
/-- `_mm256_shuffle_epi8`: shuffles within each 128-bit half; used at src/avx2.rs:47 -/
def mm256_shuffle_epi8 (a m : M256) : M256 := fromLanes 8 32 fun i =>
  if (lane 8 m i).msb then 0 else lane 8 a (i / 16 * 16 + (lane 8 m i).toNat % 16)
/-- `_mm256_srli_epi32`, used at src/avx2.rs:58 -/
def mm256_srli_epi32 (a : M256) (n : Nat) : M256 := fromLanes 32 8 fun i => lane 32 a i >>> n
/-- `_mm256_slli_epi32`, used at src/avx2.rs:58 -/
def mm256_slli_epi32 (a : M256) (n : Nat) : M256 := fromLanes 32 8 fun i => lane 32 a i <<< n
/-- apply a 128-bit operation to both 128-bit halves -/
def halves256 (f : M128 → M128 → M128) (a b : M256) : M256 :=
  fromLanes 128 2 fun i => f (lane 128 a i) (lane 128 b i)
/-- `_mm256_unpacklo_epi32`, used at src/avx2.rs:211 -/
def mm256_unpacklo_epi32 (a b : M256) : M256 := halves256 mm_unpacklo_epi32 a b
/-- `_mm256_unpackhi_epi32`, used at src/avx2.rs:212 -/
def mm256_unpackhi_epi32 (a b : M256) : M256 := halves256 mm_unpackhi_epi32 a b
/-- `_mm256_unpacklo_epi64`, used at src/avx2.rs:221 -/
def mm256_unpacklo_epi64 (a b : M256) : M256 := halves256 mm_unpacklo_epi64 a b
/-- `_mm256_unpackhi_epi64`, used at src/avx2.rs:222 -/
def mm256_unpackhi_epi64 (a b : M256) : M256 := halves256 mm_unpackhi_epi64 a b
/-- `_mm256_permute2x128_si256`: each 4-bit half of the immediate selects a 128-bit element
of `a` or `b`, or zero; used at src/avx2.rs:197 -/
def mm256_permute2x128_si256 (a b : M256) (imm : Nat) : M256 := fromLanes 128 2 fun i =>
  let c := (imm >>> (4 * i)) % 16
  if c.testBit 3 then 0
  else match c % 4 with | 0 => lane 128 a 0 | 1 => lane 128 a 1 | 2 => lane 128 b 0
                        | _ => lane 128 b 1

end Baokeshed.Model
