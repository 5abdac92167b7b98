import Verif.Model.Isa

/-!
# How busy the SIMD units are

The least number of kernel calls with which `n` inputs of `len` bytes can be hashed on each platform: as many calls
as possible of the widest kernel first.
-/

namespace Baokeshed.Spec
open Baokeshed.Model Baokeshed.Model.I

/-- The kernel calls for `n` inputs of `len` bytes. -/
def kernels : Platform → (len n : Nat) → List Ev
  | .portable, len, n => List.replicate n (.hash1 false len)
  | .sse41, len, n => List.replicate (n / 4) (.hash4 len) ++ List.replicate (n % 4) (.hash1 true len)
  | .avx2, len, n => List.replicate (n / 8) (.hash8 len) ++
      (List.replicate (n % 8 / 4) (.hash4 len) ++ List.replicate (n % 8 % 4) (.hash1 true len))

/-- Calls of a kernel with whole chunks. -/
def chunkKernel : Ev → Bool
  | .hash1 _ len => len == 2048
  | .hash4 len => len == 2048
  | .hash8 len => len == 2048
  | _ => false

/-- Everything but the calls of `hash_many` as such (their kernel calls count) and the compression of parent
nodes. -/
def chunkWork : Ev → Bool
  | .compress _ flags => (flags &&& 4) == 0
  | .manySse41 | .manyAvx2 => false
  | _ => true

end Baokeshed.Spec
