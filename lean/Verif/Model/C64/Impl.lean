import Verif.Model.C.Impl
import Verif.Model.Simd64

/-!
# Model of /repo/c64/baokeshed64_impl.h

The C conventions are those of `Verif.Model.C.Impl`.
-/

namespace Baokeshed.Model.C64
open Baokeshed.Model
open Baokeshed.Model.C (cIndex cAdvance cStore)

/-- baokeshed64_impl.h:14 -/
abbrev BLOCK_LEN : Nat := 128
/-- baokeshed64_impl.h:15 -/
abbrev CHUNK_LEN : Nat := 4096
/-- baokeshed64_impl.h:16 -/
abbrev KEY_LEN : Nat := 32
/-- baokeshed64_impl.h:17 -/
abbrev OUT_LEN : Nat := 32

/-- baokeshed64_impl.h:37-40 -/
def IV : Vector U64 8 :=
  #v[0x6A09E667F3BCC908, 0xBB67AE8584CAA73B, 0x3C6EF372FE94F82B, 0xA54FF53A5F1D36F1,
     0x510E527FADE682D1, 0x9B05688C2B3E6C1F, 0x1F83D9ABFB41BD6B, 0x5BE0CD19137E2179]

/-- baokeshed64_impl.h:42-51 -/
def MSG_SCHEDULE : Vector (Vector (Fin 16) 16) 8 :=
  #v[#v[0, 1, 2, 3, 4, 5, 6, 7, 8, 9, 10, 11, 12, 13, 14, 15],
     #v[14, 10, 4, 8, 9, 15, 13, 6, 1, 12, 0, 2, 11, 7, 5, 3],
     #v[11, 8, 12, 0, 5, 2, 15, 13, 10, 14, 3, 6, 7, 1, 9, 4],
     #v[7, 9, 3, 1, 13, 12, 11, 14, 2, 6, 5, 10, 4, 0, 15, 8],
     #v[9, 0, 5, 7, 2, 4, 10, 15, 14, 1, 11, 12, 6, 8, 3, 13],
     #v[2, 12, 6, 10, 0, 11, 8, 3, 4, 13, 7, 5, 15, 14, 1, 9],
     #v[12, 5, 1, 15, 14, 13, 4, 10, 0, 7, 6, 3, 9, 2, 8, 11],
     #v[13, 11, 7, 14, 12, 1, 3, 9, 5, 0, 15, 4, 8, 6, 2, 10]]

/-- baokeshed64_impl.h:53-59 -/
def CHUNK_OFFSET_DELTAS : List U64 :=
  [4096 * 0, 4096 * 1, 4096 * 2, 4096 * 3, 4096 * 4, 4096 * 5, 4096 * 6, 4096 * 7, 4096 * 8,
   4096 * 9, 4096 * 10, 4096 * 11, 4096 * 12, 4096 * 13, 4096 * 14, 4096 * 15, 4096 * 16]

/-- baokeshed64_impl.h:61-67 -/
def load64 (src : Bytes) (off : Nat) : R U64 := do
  let p0 ← cIndex src (off + 0)
  let p1 ← cIndex src (off + 1)
  let p2 ← cIndex src (off + 2)
  let p3 ← cIndex src (off + 3)
  let p4 ← cIndex src (off + 4)
  let p5 ← cIndex src (off + 5)
  let p6 ← cIndex src (off + 6)
  let p7 ← cIndex src (off + 7)
  return (p0.setWidth 64 <<< 0) |||
    (p1.setWidth 64 <<< 8) |||
    (p2.setWidth 64 <<< 16) |||
    (p3.setWidth 64 <<< 24) |||
    (p4.setWidth 64 <<< 32) |||
    (p5.setWidth 64 <<< 40) |||
    (p6.setWidth 64 <<< 48) |||
    (p7.setWidth 64 <<< 56)

/-- baokeshed64_impl.h:69-79, the eight byte stores in one step -/
def store64 (dst : Bytes) (off : Nat) (w : U64) : R Bytes :=
  cStore dst off [(w >>> 0).setWidth 8,
    (w >>> 8).setWidth 8,
    (w >>> 16).setWidth 8,
    (w >>> 24).setWidth 8,
    (w >>> 32).setWidth 8,
    (w >>> 40).setWidth 8,
    (w >>> 48).setWidth 8,
    (w >>> 56).setWidth 8]

/-- baokeshed64_impl.h:81-83 -/
def rotr64 (w : U64) (c : Nat) : U64 := (w >>> c) ||| (w <<< (64 - c))

/-- baokeshed64_impl.h:99-116 -/
def load_msg_words (block : Bytes) : R (Vector U64 16) := do
  let w0 ← load64 block (8 * 0)
  let w1 ← load64 block (8 * 1)
  let w2 ← load64 block (8 * 2)
  let w3 ← load64 block (8 * 3)
  let w4 ← load64 block (8 * 4)
  let w5 ← load64 block (8 * 5)
  let w6 ← load64 block (8 * 6)
  let w7 ← load64 block (8 * 7)
  let w8 ← load64 block (8 * 8)
  let w9 ← load64 block (8 * 9)
  let w10 ← load64 block (8 * 10)
  let w11 ← load64 block (8 * 11)
  let w12 ← load64 block (8 * 12)
  let w13 ← load64 block (8 * 13)
  let w14 ← load64 block (8 * 14)
  let w15 ← load64 block (8 * 15)
  return #v[w0, w1, w2, w3, w4, w5, w6, w7, w8, w9, w10, w11, w12, w13, w14, w15]

/-- baokeshed64_impl.h:118-123 -/
def load_key_words (key : Bytes) : R (Vector U64 4) := do
  let w0 ← load64 key (8 * 0)
  let w1 ← load64 key (8 * 1)
  let w2 ← load64 key (8 * 2)
  let w3 ← load64 key (8 * 3)
  return #v[w0, w1, w2, w3]

/-- baokeshed64_impl.h:125-130 -/
def write_state_bytes (state : Vector U64 4) (out : Bytes) : R Bytes := do
  let out ← store64 out (8 * 0) state[0]
  let out ← store64 out (8 * 1) state[1]
  let out ← store64 out (8 * 2) state[2]
  store64 out (8 * 3) state[3]

end Baokeshed.Model.C64
