import Verif.Model.Simd

/-!
# Semantics of the NEON intrinsics used by the C code

A `uint32x4_t` is a 128-bit register with four 32-bit elements, a `uint32x2_t` a 64-bit one with
two.  Each definition is the operation of the same name in the Arm intrinsics reference; they are
defined by the numbers of the elements and do not depend on the byte order of the host.  What does
depend on it is `memcpy` between memory and a variable of such a type, and between memory and a
`uint32_t` (`ByteOrder`).
-/

namespace Baokeshed.Model

/-- The byte order of an ARM host, as the procedure call standards define it for data in memory.
On a little-endian host element 0 of a vector is at the lowest address.  AArch64, big-endian: a
vector is stored as one 128-bit number ("as if it were stored with a single STR of the entire
register").  AArch32, big-endian: it is stored as two 64-bit numbers.  A `uint32_t` is stored with
its most significant byte first on both. -/
inductive ByteOrder where
  | little
  | bigA64
  | bigA32
  deriving DecidableEq

/-- Where byte `i` of a 128-bit vector register (0 is the least significant) is in memory. -/
def ByteOrder.at (o : ByteOrder) (i : Nat) : Nat :=
  match o with
  | .little => i
  | .bigA64 => 15 - i
  | .bigA32 => if i < 8 then 7 - i else 23 - i

/-- The register that has the bytes of `x` in the order of the host, and the other way round. -/
def ByteOrder.vec (o : ByteOrder) (x : M128) : M128 :=
  match o with
  | .little => x
  | o => fromLanes 8 16 fun i => lane 8 x (o.at i)

/-- `vaddq_u32`, used at c/baokeshed_neon.c:19 -/
def vaddq_u32 (a b : M128) : M128 := fromLanes 32 4 fun i => lane 32 a i + lane 32 b i
/-- `veorq_u32`, used at c/baokeshed_neon.c:23 -/
def veorq_u32 (a b : M128) : M128 := a ^^^ b
/-- `vorrq_u32`, used at c/baokeshed_neon.c:34 -/
def vorrq_u32 (a b : M128) : M128 := a ||| b
/-- `vshrq_n_u32`, used at c/baokeshed_neon.c:34 -/
def vshrq_n_u32 (a : M128) (n : Nat) : M128 := fromLanes 32 4 fun i => lane 32 a i >>> n
/-- `vshlq_n_u32`, used at c/baokeshed_neon.c:34 -/
def vshlq_n_u32 (a : M128) (n : Nat) : M128 := fromLanes 32 4 fun i => lane 32 a i <<< n
/-- load one element to all lanes; `vld1q_dup_u32`, used at c/baokeshed_neon.c:26 -/
def vld1q_dup_u32 (x : Word) : M128 := fromLanes 32 4 fun _ => x
/-- load four elements of an array; `vld1q_u32`, used at c/baokeshed_neon.c:30 -/
def vld1q_u32 (xs : Vector Word 4) : M128 := fromLanes 32 4 fun i => xs.toList.getD i 0
/-- `vtrnq_u32(a, b).val[0]`: the even elements, interleaved; used at c/baokeshed_neon.c:177 -/
def vtrnq_u32_val0 (a b : M128) : M128 :=
  fromLanes 32 4 fun i => if i % 2 = 0 then lane 32 a i else lane 32 b (i - 1)
/-- `vtrnq_u32(a, b).val[1]`: the odd elements, interleaved; used at c/baokeshed_neon.c:177 -/
def vtrnq_u32_val1 (a b : M128) : M128 :=
  fromLanes 32 4 fun i => if i % 2 = 0 then lane 32 a (i + 1) else lane 32 b i
/-- `vget_low_u32`, used at c/baokeshed_neon.c:182 -/
def vget_low_u32 (a : M128) : BitVec 64 := lane 64 a 0
/-- `vget_high_u32`, used at c/baokeshed_neon.c:186 -/
def vget_high_u32 (a : M128) : BitVec 64 := lane 64 a 1
/-- `vcombine_u32`, used at c/baokeshed_neon.c:182 -/
def vcombine_u32 (lo hi : BitVec 64) : M128 :=
  fromLanes 64 2 fun i => match i with | 0 => lo | _ => hi

end Baokeshed.Model
