import Verif.Model.C.Isa

/-!
# How busy the SIMD units are in the C code

The least number of kernel calls with which `n` inputs can be hashed by each build: as many calls as possible of the
widest kernel first.
-/

namespace Baokeshed.Spec.CLanes
open Baokeshed.Model Baokeshed.Model.CI

/-- The kernel calls for `n` inputs of `blocks` blocks. -/
def kernels (cfg : C.Config) (blocks n : Nat) : List Ev :=
  if cfg.avx512 then
    List.replicate (n / 16) (.hash .avx512 16 blocks) ++ (List.replicate (n % 16 / 8) (.hash .avx512 8 blocks) ++
      (List.replicate (n % 8 / 4) (.hash .avx512 4 blocks) ++ List.replicate (n % 4) (.hash1 (some .avx512) blocks)))
  else if cfg.avx2 then
    List.replicate (n / 8) (.hash .avx2 8 blocks) ++ (List.replicate (n % 8 / 4) (.hash .sse41 4 blocks) ++
      List.replicate (n % 4) (.hash1 (some .sse41) blocks))
  else if cfg.sse41 then
    List.replicate (n / 4) (.hash .sse41 4 blocks) ++ List.replicate (n % 4) (.hash1 (some .sse41) blocks)
  else if cfg.neon then
    List.replicate (n / 4) (.hash .neon 4 blocks) ++ List.replicate (n % 4) (.hash1 (some .neon) blocks)
  else List.replicate n (.hash1 none blocks)

/-- The number of lanes of the widest kernel. -/
def lanes (cfg : C.Config) : Nat :=
  if cfg.avx512 then 16 else if cfg.avx2 then 8 else if cfg.sse41 then 4 else if cfg.neon then 4 else 1

/-- What the build contains, build.rs:79-135.  (hash_many_avx2 calls hash_many_sse41, so a build with AVX2 without SSE4.1
does not link; C50 excludes it.) -/
def built (cfg : C.Config) : Isa → Prop
  | .sse41 => cfg.sse41 = true ∨ cfg.avx2 = true
  | .avx2 => cfg.avx2 = true
  | .avx512 => cfg.avx512 = true
  | .neon => cfg.neon = true

/-- The best function for single blocks.  (There is none in baokeshed_avx2.c and baokeshed_neon.c.) -/
def best (cfg : C.Config) : Option Isa :=
  if cfg.avx512 then some .avx512 else if cfg.sse41 then some .sse41 else none

/-- Calls of a kernel with whole chunks. -/
def chunkKernel : Ev → Bool
  | .hash1 _ blocks => blocks == 32
  | .hash _ _ blocks => blocks == 32
  | _ => false

/-- Everything but the calls of `hash_many` as such (their kernel calls count) and the compression of parent nodes. -/
def chunkWork : Ev → Bool
  | .compress _ flags => (flags &&& 4) == 0
  | .many _ => false
  | _ => true

/-- How many inputs the event hashes. -/
def width : Ev → Nat
  | .hash1 _ _ => 1
  | .hash _ n _ => n
  | _ => 0

/-- How many bytes the event copies into a block buffer. -/
def weight : Ev → Nat
  | .copy n => n
  | _ => 0

/-- How many bytes are copied into block buffers. -/
def copied (l : List Ev) : Nat := (l.map weight).sum

end Baokeshed.Spec.CLanes
