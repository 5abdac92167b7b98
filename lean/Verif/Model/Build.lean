import Verif.Basic

/-!
# Model of /repo/build.rs, of the features in /repo/Cargo.toml:9-16, and of what the compiled files
define and refer to

* A feature is on if its environment variable `CARGO_FEATURE_…` is set (cargo sets it for every enabled
  feature, with its dependencies).
* `cc::Build` is reduced to the list of files, the flags and the macros.  Errors of the C compiler and of
  the file system are not modelled; `print`s of `rerun-if` are not modelled.
* The symbol tables list the functions with external linkage (neither `static` nor `INLINE`, which
  includes `static`; the constants in the headers are `static` too) and the calls of functions that
  the file itself does not define (those of libc excepted).
-/

namespace Baokeshed.Model.Build

open Baokeshed

/-- Cargo.toml:11-16, apart from `rayon` and `default`, which build.rs does not look at. -/
inductive Feature
  | c_portable | c_sse41 | c_avx2 | c_avx512 | c_neon | c_detect
deriving DecidableEq, Repr

/-- The features that a feature enables, Cargo.toml:11-16. -/
def Feature.deps : Feature → List Feature
  | .c_portable => []
  | .c_sse41 => [.c_portable]
  | .c_avx2 => [.c_portable, .c_sse41]
  | .c_avx512 => [.c_portable, .c_sse41, .c_avx2]
  | .c_neon => [.c_portable]
  | .c_detect => [.c_portable]

/-- The machine that runs build.rs. -/
structure Host where
  /-- `target_arch` of the build script is `x86` or `x86_64` -/
  x86 : Bool
  /-- `is_x86_feature_detected!` of each -/
  sse41 : Bool
  avx2 : Bool
  avx512f : Bool
  avx512vl : Bool

/-- build.rs:13-15 -/
def Host.is_avx512_detected (h : Host) : Bool := h.avx512f && h.avx512vl

/-- The C files. -/
inductive CFile
  | main | portable | sse41 | avx2 | avx512 | neon
  | portable64 | sse41_64 | avx2_64 | avx512_64 | neon64
deriving DecidableEq, Repr

/-- The variables `CARGO_FEATURE_C_…`, build.rs:3-6; also the `cfg(feature = …)` of the crate. -/
structure Vars where
  sse41 : Bool
  avx2 : Bool
  avx512 : Bool
  neon : Bool
deriving DecidableEq, Repr

/-- One `cc::Build` that gets compiled. -/
structure Unit where
  files : List CFile
  flags : List String
  defines : List String
deriving DecidableEq, Repr

/-- What a successful run of build.rs leaves: the libraries, and the features with which the crate gets
compiled (`cargo:rustc-cfg`). -/
structure Built where
  units : List Unit
  cfg : Vars
deriving DecidableEq, Repr

/-- `str::split("-")`, std -/
def split : List Char → List (List Char)
  | [] => [[]]
  | c :: cs =>
    if c = '-' then [] :: split cs
    else match split cs with
      | [] => [[c]]
      | w :: ws => (c :: w) :: ws

/-- build.rs:23-42.  Sets the variables, and prints the `rustc-cfg` for the same. -/
def detect_x86_features (h : Host) (v : Vars) : R Vars :=
  if h.x86 then do
    let v := if h.sse41 then { v with sse41 := true } else v
    let v := if h.avx2 then { v with avx2 := true } else v
    let v := if h.is_avx512_detected then { v with avx512 := true } else v
    return v
  else
    .error .assert

/-- build.rs:54-60, `new_build` -/
def newFlags (is_windows : Bool) : List String := if is_windows then [] else ["-std=c11"]

/-- build.rs:77-92 -/
def sse41Unit (is_windows : Bool) : Unit :=
  { files := [.sse41, .sse41_64]
    flags := newFlags is_windows ++ (if is_windows then [] else ["-msse4.1"])
    defines := [] }

/-- build.rs:94-105 -/
def avx2Unit (is_windows : Bool) : Unit :=
  { files := [.avx2, .avx2_64]
    flags := newFlags is_windows ++ (if is_windows then ["/arch:AVX2"] else ["-mavx2"])
    defines := [] }

/-- build.rs:107-121 -/
def avx512Unit (is_windows : Bool) : Unit :=
  { files := [.avx512, .avx512_64]
    flags := newFlags is_windows ++
      (if is_windows then ["/arch:AVX512"] else ["-mavx512f", "-mavx512vl"])
    defines := [] }

/-- build.rs:123-135 -/
def neonUnit (is_windows is_armv7 : Bool) : Unit :=
  { files := [.neon, .neon64]
    flags := newFlags is_windows ++
      (if is_armv7 then ["-mfpu=neon-vfpv4", "-mfloat-abi=hard"] else [])
    defines := [] }

/-- build.rs:44-157.  `en` tells which variables `CARGO_FEATURE_…` cargo has set. -/
def main (en : Feature → Bool) (h : Host) (target : List Char) : R Built := do
  let v : Vars := ⟨en .c_sse41, en .c_avx2, en .c_avx512, en .c_neon⟩
  if !en .c_portable then
    return { units := [], cfg := v }
  let target_components := split target
  let some target_arch := target_components[0]? | .error .bounds
  let is_armv7 : Bool := target_arch = "armv7".toList
  let some target_os := target_components[2]? | .error .bounds
  let is_windows : Bool := target_os = "windows".toList
  let v ←
    if en .c_detect then do
      if !(target_arch = "x86".toList || target_arch = "x86_64".toList) then .error .assert
      detect_x86_features h v
    else pure v
  -- the order of compilation; the main file comes last
  let units : List Unit :=
    [{ files := [.portable, .portable64], flags := newFlags is_windows, defines := [] }] ++
    (if v.sse41 then [sse41Unit is_windows] else []) ++
    (if v.avx2 then [avx2Unit is_windows] else []) ++
    (if v.avx512 then [avx512Unit is_windows] else []) ++
    (if v.neon then [neonUnit is_windows is_armv7] else []) ++
    [{ files := [.main], flags := newFlags is_windows,
       defines :=
        (if v.sse41 then ["BAOKESHED_USE_SSE41"] else []) ++
        (if v.avx2 then ["BAOKESHED_USE_AVX2"] else []) ++
        (if v.avx512 then ["BAOKESHED_USE_AVX512"] else []) ++
        (if v.neon then ["BAOKESHED_USE_NEON"] else []) }]
  return { units, cfg := v }

/-! ## Symbols -/

/-- The functions with external linkage that a file defines. -/
def CFile.defs : CFile → List String
  -- c/baokeshed.c:21, 31, 75, 104, 136, 193, 258
  | .main => ["chunk_state_init", "chunk_state_reset", "chunk_state_update", "chunk_state_finalize",
      "hasher_init", "hasher_update", "hasher_finalize"]
  -- c/baokeshed_portable.c:33, 94
  | .portable => ["compress_portable", "hash_many_portable"]
  -- c/baokeshed_sse41.c:79, 424, 504
  | .sse41 => ["compress_sse41", "hash4_sse41", "hash_many_sse41"]
  -- c/baokeshed_avx2.c:240, 298
  | .avx2 => ["hash8_avx2", "hash_many_avx2"]
  -- c/baokeshed_avx512.c:112, 459, 706, 1017, 1117
  | .avx512 => ["compress_avx512", "hash4_avx512", "hash8_avx512", "hash16_avx512",
      "hash_many_avx512"]
  -- c/baokeshed_neon.c:225, 312
  | .neon => ["hash4_neon", "hash_many_neon"]
  -- c64/baokeshed64_portable.c:33, 81
  | .portable64 => ["baokeshed64_compress_portable", "baokeshed64_hash_many_portable"]
  -- c64/baokeshed64_sse41.c:203, 259
  | .sse41_64 => ["baokeshed64_hash2_sse41", "baokeshed64_hash_many_sse41"]
  -- c64/baokeshed64_avx2.c:85, 438, 491
  | .avx2_64 => ["baokeshed64_compress_avx2", "baokeshed64_hash4_avx2", "baokeshed64_hash_many_avx2"]
  -- c64/baokeshed64_avx512.c:119, 476, 698, 949, 1039
  | .avx512_64 => ["baokeshed64_compress_avx512", "baokeshed64_hash2_avx512",
      "baokeshed64_hash4_avx512", "baokeshed64_hash8_avx512", "baokeshed64_hash_many_avx512"]
  -- c64/baokeshed64_neon.c:217, 299
  | .neon64 => ["baokeshed64_hash2_neon", "baokeshed64_hash_many_neon"]

/-- The functions that a file calls and does not define, when it is compiled with these macros. -/
def CFile.refs (defines : List String) : CFile → List String
  -- c/baokeshed.c:65-71, 174-189
  | .main =>
    [if "BAOKESHED_USE_AVX512" ∈ defines then "compress_avx512"
     else if "BAOKESHED_USE_SSE41" ∈ defines then "compress_sse41"
     else "compress_portable",
     if "BAOKESHED_USE_AVX512" ∈ defines then "hash_many_avx512"
     else if "BAOKESHED_USE_AVX2" ∈ defines then "hash_many_avx2"
     else if "BAOKESHED_USE_SSE41" ∈ defines then "hash_many_sse41"
     else if "BAOKESHED_USE_NEON" ∈ defines then "hash_many_neon"
     else "hash_many_portable"]
  | .portable => []
  | .sse41 => []
  -- c/baokeshed_avx2.c:310
  | .avx2 => ["hash_many_sse41"]
  | .avx512 => []
  -- c/baokeshed_neon.c:304
  | .neon => ["compress_portable"]
  | .portable64 => []
  -- c64/baokeshed64_sse41.c:273
  | .sse41_64 => ["baokeshed64_hash_many_portable"]
  -- c64/baokeshed64_avx2.c:505
  | .avx2_64 => ["baokeshed64_hash_many_sse41"]
  | .avx512_64 => []
  -- c64/baokeshed64_neon.c:291
  | .neon64 => ["baokeshed64_compress_portable"]

/-- The functions declared by the crate: src/c.rs:55-231 and src/c64.rs:6-168, which lib.rs:43-47
includes with the feature `c_portable` only. -/
def rustRefs (portable : Bool) (cfg : Vars) : List String :=
  if portable then
    -- src/c.rs:57-70, 159, 223-229
    ["hasher_init", "hasher_update", "hasher_finalize", "compress_portable", "hash_many_portable",
      "chunk_state_init", "chunk_state_update", "chunk_state_finalize"] ++
    -- src/c.rs:71, 87, 171
    (if cfg.sse41 then ["compress_sse41", "hash4_sse41", "hash_many_sse41"] else []) ++
    -- src/c.rs:123, 184
    (if cfg.avx2 then ["hash8_avx2", "hash_many_avx2"] else []) ++
    -- src/c.rs:79, 99, 135, 147, 197
    (if cfg.avx512 then ["compress_avx512", "hash4_avx512", "hash8_avx512", "hash16_avx512",
      "hash_many_avx512"] else []) ++
    -- src/c.rs:111, 210
    (if cfg.neon then ["hash4_neon", "hash_many_neon"] else []) ++
    -- src/c64.rs:8, 31
    ["baokeshed64_compress_portable", "baokeshed64_hash_many_portable"] ++
    -- src/c64.rs:43, 115
    (if cfg.sse41 then ["baokeshed64_hash2_sse41", "baokeshed64_hash_many_sse41"] else []) ++
    -- src/c64.rs:15, 79, 141
    (if cfg.avx2 then ["baokeshed64_compress_avx2", "baokeshed64_hash4_avx2",
      "baokeshed64_hash_many_avx2"] else []) ++
    -- src/c64.rs:23, 55, 91, 103, 154
    (if cfg.avx512 then ["baokeshed64_compress_avx512", "baokeshed64_hash2_avx512",
      "baokeshed64_hash4_avx512", "baokeshed64_hash8_avx512", "baokeshed64_hash_many_avx512"]
      else []) ++
    -- src/c64.rs:67, 128
    (if cfg.neon then ["baokeshed64_hash2_neon", "baokeshed64_hash_many_neon"] else [])
  else []

/-! ## Instruction sets -/

inductive Isa
  | sse41 | avx2 | avx512f | avx512vl | neon
deriving DecidableEq, Repr

/-- The instruction sets whose intrinsics a file uses beyond what every CPU of the architecture has:
c/baokeshed_sse41.c:3, c/baokeshed_avx2.c:3 and c/baokeshed_avx512.c:3 include immintrin.h,
c/baokeshed_neon.c:3 arm_neon.h; likewise in c64. -/
def CFile.isas : CFile → List Isa
  | .main | .portable | .portable64 => []
  | .sse41 | .sse41_64 => [.sse41]
  | .avx2 | .avx2_64 => [.avx2]
  | .avx512 | .avx512_64 => [.avx512f, .avx512vl]
  | .neon | .neon64 => [.neon]

/-- Whether the host has an instruction set. -/
def Host.has (h : Host) : Isa → Bool
  | .sse41 => h.sse41
  | .avx2 => h.avx2
  | .avx512f => h.avx512f
  | .avx512vl => h.avx512vl
  | .neon => false

end Baokeshed.Model.Build
