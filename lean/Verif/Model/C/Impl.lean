import Verif.Model.Sse41

/-!
# Model of /repo/c/baokeshed_impl.h

C conventions, used by all files of this directory.

* A pointer is the list of the elements from the pointed-to one to the end of its object, so an
  access beyond the list is an access outside the object: undefined behaviour, `Panic.ub`.  So is
  moving a pointer further than one past the end.  An output pointer is the old contents of the
  memory behind it; the function returns the new contents.
* Functions that write through `state` or `self` return the new value.
* `size_t` values are natural numbers.  Where a computation on them could wrap, the definition says
  so and wraps (see `Verif.Model.C.Hasher`).
* Unsigned arithmetic on fixed-width types wraps, as in C.  `uint8_t` operands of `|` are promoted
  to `int` and the result converted back to `uint8_t`, which is the 8-bit operation.
-/

namespace Baokeshed.Model.C

/-! ## Memory -/

/-- `p[i]` -/
def cIndex {α} (p : List α) (i : Nat) : R α :=
  match p[i]? with
  | some x => .ok x
  | none => .error .ub

/-- `&p[n]` or `p + n` -/
def cAdvance {α} (p : List α) (n : Nat) : R (List α) := if n ≤ p.length then .ok (p.drop n) else .error .ub

/-- store the elements `d` at `p + off` -/
def cStore {α} (p : List α) (off : Nat) (d : List α) : R (List α) :=
  if off + d.length ≤ p.length then .ok (p.take off ++ d ++ p.drop (off + d.length)) else .error .ub

/-- read `n` elements at `p + off` (the source of a `memcpy`) -/
def cLoad {α} (p : List α) (off n : Nat) : R (List α) :=
  if off + n ≤ p.length then .ok ((p.drop off).take n) else .error .ub

/-! ## Constants -/

/-- baokeshed_impl.h:14 -/
abbrev BLOCK_LEN : Nat := 64
/-- baokeshed_impl.h:15 -/
abbrev CHUNK_LEN : Nat := 2048
/-- baokeshed_impl.h:16 -/
abbrev KEY_LEN : Nat := 32
/-- baokeshed_impl.h:17 -/
abbrev OUT_LEN : Nat := 32
/-- baokeshed_impl.h:18 -/
abbrev MAX_DEPTH : Nat := 53
/-- baokeshed_impl.h:19 -/
abbrev MAX_SIMD_DEGREE : Nat := 16

/-- baokeshed_impl.h:22 -/
abbrev CHUNK_START : Byte := 1
/-- baokeshed_impl.h:23 -/
abbrev CHUNK_END : Byte := 2
/-- baokeshed_impl.h:24 -/
abbrev PARENT : Byte := 4
/-- baokeshed_impl.h:25 -/
abbrev ROOT : Byte := 8
/-- baokeshed_impl.h:26 -/
abbrev KEYED_HASH : Byte := 16
/-- baokeshed_impl.h:27 -/
abbrev DERIVE_KEY : Byte := 32

/-- baokeshed_impl.h:37-39 -/
def IV : Vector Word 8 :=
  #v[0x6A09E667, 0xBB67AE85, 0x3C6EF372, 0xA54FF53A,
     0x510E527F, 0x9B05688C, 0x1F83D9AB, 0x5BE0CD19]

/-- baokeshed_impl.h:41-49 -/
def MSG_SCHEDULE : Vector (Vector (Fin 16) 16) 7 :=
  #v[#v[0, 1, 2, 3, 4, 5, 6, 7, 8, 9, 10, 11, 12, 13, 14, 15],
     #v[14, 10, 4, 8, 9, 15, 13, 6, 1, 12, 0, 2, 11, 7, 5, 3],
     #v[11, 8, 12, 0, 5, 2, 15, 13, 10, 14, 3, 6, 7, 1, 9, 4],
     #v[7, 9, 3, 1, 13, 12, 11, 14, 2, 6, 5, 10, 4, 0, 15, 8],
     #v[9, 0, 5, 7, 2, 4, 10, 15, 14, 1, 11, 12, 6, 8, 3, 13],
     #v[2, 12, 6, 10, 0, 11, 8, 3, 4, 13, 7, 5, 15, 14, 1, 9],
     #v[12, 5, 1, 15, 14, 13, 4, 10, 0, 7, 6, 3, 9, 2, 8, 11]]

/-- baokeshed_impl.h:51-57 -/
def CHUNK_OFFSET_DELTAS : List U64 :=
  [2048 * 0, 2048 * 1, 2048 * 2, 2048 * 3, 2048 * 4, 2048 * 5, 2048 * 6, 2048 * 7, 2048 * 8, 2048 * 9,
   2048 * 10, 2048 * 11, 2048 * 12, 2048 * 13, 2048 * 14, 2048 * 15, 2048 * 16]

/-! ## Helpers -/

/-- baokeshed_impl.h:59-63 -/
def load32 (src : Bytes) (off : Nat) : R Word := do
  let p0 ← cIndex src off
  let p1 ← cIndex src (off + 1)
  let p2 ← cIndex src (off + 2)
  let p3 ← cIndex src (off + 3)
  return (p0.setWidth 32 <<< 0) ||| (p1.setWidth 32 <<< 8) ||| (p2.setWidth 32 <<< 16) |||
    (p3.setWidth 32 <<< 24)

/-- baokeshed_impl.h:65-71, the four byte stores in one step -/
def store32 (dst : Bytes) (off : Nat) (w : Word) : R Bytes :=
  cStore dst off [(w >>> 0).setWidth 8, (w >>> 8).setWidth 8, (w >>> 16).setWidth 8, (w >>> 24).setWidth 8]

/-- baokeshed_impl.h:73-75 -/
def rotr32 (w : Word) (c : Nat) : Word := (w >>> c) ||| (w <<< (32 - c))

/-- The loop of `popcnt`, baokeshed_impl.h:83-86 -/
def popcnt_loop (x : U64) (count : Byte) : Byte :=
  if _h : x ≠ 0 then popcnt_loop (x >>> 1) (count + (x.setWidth 8 &&& 1)) else count
termination_by x.toNat
decreasing_by
  have : x.toNat ≠ 0 := fun h => _h (BitVec.eq_of_toNat_eq (by simpa using h))
  rw [BitVec.toNat_ushiftRight, Nat.shiftRight_eq_div_pow]
  omega

/-- baokeshed_impl.h:78-89; `hw` is `__POPCNT__`.  `_mm_popcnt_u64` is the number of 1 bits. -/
def popcnt (hw : Bool) (x : U64) : Byte :=
  if hw then BitVec.ofNat 8 (popcount x.toNat) else popcnt_loop x 0

/-- baokeshed_impl.h:91 -/
def offset_low (offset : U64) : Word := offset.setWidth 32
/-- baokeshed_impl.h:93-95 -/
def offset_high (offset : U64) : Word := (offset >>> 32).setWidth 32

/-- baokeshed_impl.h:97-114 -/
def load_msg_words (block : Bytes) : R (Vector Word 16) := do
  let w0 ← load32 block (4 * 0)
  let w1 ← load32 block (4 * 1)
  let w2 ← load32 block (4 * 2)
  let w3 ← load32 block (4 * 3)
  let w4 ← load32 block (4 * 4)
  let w5 ← load32 block (4 * 5)
  let w6 ← load32 block (4 * 6)
  let w7 ← load32 block (4 * 7)
  let w8 ← load32 block (4 * 8)
  let w9 ← load32 block (4 * 9)
  let w10 ← load32 block (4 * 10)
  let w11 ← load32 block (4 * 11)
  let w12 ← load32 block (4 * 12)
  let w13 ← load32 block (4 * 13)
  let w14 ← load32 block (4 * 14)
  let w15 ← load32 block (4 * 15)
  return #v[w0, w1, w2, w3, w4, w5, w6, w7, w8, w9, w10, w11, w12, w13, w14, w15]

/-- baokeshed_impl.h:116-125 -/
def load_key_words (key : Bytes) : R (Vector Word 8) := do
  let w0 ← load32 key (4 * 0)
  let w1 ← load32 key (4 * 1)
  let w2 ← load32 key (4 * 2)
  let w3 ← load32 key (4 * 3)
  let w4 ← load32 key (4 * 4)
  let w5 ← load32 key (4 * 5)
  let w6 ← load32 key (4 * 6)
  let w7 ← load32 key (4 * 7)
  return #v[w0, w1, w2, w3, w4, w5, w6, w7]

/-- baokeshed_impl.h:127-136 -/
def write_state_bytes (state : Vector Word 8) (out : Bytes) : R Bytes := do
  let out ← store32 out (4 * 0) state[0]
  let out ← store32 out (4 * 1) state[1]
  let out ← store32 out (4 * 2) state[2]
  let out ← store32 out (4 * 3) state[3]
  let out ← store32 out (4 * 4) state[4]
  let out ← store32 out (4 * 5) state[5]
  let out ← store32 out (4 * 6) state[6]
  store32 out (4 * 7) state[7]

end Baokeshed.Model.C
