import Verif.Model.Avx2

/-!
# Model of /repo/src/platform.rs
-/

namespace Baokeshed.Model

/-- What the compiled code and the machine it runs on fix: the target architecture, the answers
of `is_x86_feature_detected!`, and the width of `usize`. -/
structure Config where
  /-- `cfg(any(target_arch = "x86", target_arch = "x86_64"))` -/
  x86 : Bool
  /-- `is_x86_feature_detected!("avx2")` -/
  hasAvx2 : Bool
  /-- `is_x86_feature_detected!("sse4.1")` -/
  hasSse41 : Bool
  /-- number of bits of `usize` -/
  usizeBits : Nat
  deriving DecidableEq

/-- Rust supports pointers of 16, 32 and 64 bits. -/
def Config.Valid (cfg : Config) : Prop := 16 ≤ cfg.usizeBits ∧ cfg.usizeBits ≤ 64

/-- A slice of `n` bytes can exist: Rust limits every allocation to `isize::MAX` bytes. -/
def Config.Fits (cfg : Config) (n : Nat) : Prop := n < 2 ^ (cfg.usizeBits - 1)

/-- platform.rs:6-9 -/
def MAX_SIMD_DEGREE (cfg : Config) : Nat := if cfg.x86 then 8 else 1

/-- platform.rs:15-18 -/
def MAX_SIMD_DEGREE_OR_2 (cfg : Config) : Nat := if cfg.x86 then 8 else 2

/-- platform.rs:20-27.  The last two exist on x86 only; `detect` respects that. -/
inductive Platform where
  | portable
  | sse41
  | avx2
  deriving DecidableEq, Repr

namespace Platform

/-- platform.rs:30-41 -/
def detect (cfg : Config) : Platform :=
  if cfg.x86 then
    if cfg.hasAvx2 then .avx2
    else if cfg.hasSse41 then .sse41
    else .portable
  else .portable

/-- platform.rs:43-51 -/
def simd_degree : Platform → Nat
  | .portable => 1
  | .sse41 => 4
  | .avx2 => 8

/-- platform.rs:53-69 -/
def compress (p : Platform) (cv : Vector Word 8) (block : Vector Byte 64) (block_len : Byte)
    (offset : U64) (flags : Byte) : Vector Word 8 :=
  match p with
  | .portable => Portable.compress cv block block_len offset flags
  | .sse41 | .avx2 => Sse41.compress cv block block_len offset flags

/-- platform.rs:71-87 -/
def compress_xof (p : Platform) (cv : Vector Word 8) (block : Vector Byte 64) (block_len : Byte)
    (offset : U64) (flags : Byte) : Vector Byte 64 :=
  match p with
  | .portable => Portable.compress_xof cv block block_len offset flags
  | .sse41 | .avx2 => Sse41.compress_xof cv block block_len offset flags

/-- platform.rs:89-140.  `capacity` is `A::CAPACITY`, the common length of the inputs. -/
def hash_many (p : Platform) (capacity : Nat) (inputs : List Bytes) (key : Vector Word 8)
    (offset offset_delta : U64) (flags flags_start flags_end : Byte) (out : Bytes) : R Bytes :=
  match p with
  | .portable => Portable.hash_many inputs key offset offset_delta flags flags_start flags_end out
  | .sse41 => Sse41.hash_many capacity inputs key offset offset_delta flags flags_start flags_end out
  | .avx2 => Avx2.hash_many capacity inputs key offset offset_delta flags flags_start flags_end out

end Platform
end Baokeshed.Model
