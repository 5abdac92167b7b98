import Verif.Basic

/-!
# Specification of the 64-bit variant

The experimental variant of the compression function on 64-bit words, in the form of BLAKE2b:
blocks of 128 bytes, chaining values of four words, eight rounds.  Written independently of the
implementations (/repo/src/portable64.rs, /repo/c64), as `Verif.Spec` is for the 32-bit one.
-/

namespace Baokeshed.Spec64

/-- The initialisation constants: BLAKE2b / SHA-512 IV (RFC 7693, section 2.6). -/
def iv : Fin 8 → U64
  | 0 => 0x6A09E667F3BCC908 | 1 => 0xBB67AE8584CAA73B | 2 => 0x3C6EF372FE94F82B
  | 3 => 0xA54FF53A5F1D36F1 | 4 => 0x510E527FADE682D1 | 5 => 0x9B05688C2B3E6C1F
  | 6 => 0x1F83D9ABFB41BD6B | 7 => 0x5BE0CD19137E2179

/-- The BLAKE2 message permutations (RFC 7693, section 2.7), first eight. -/
def sigma : Fin 8 → Vector (Fin 16) 16
  | 0 => #v[ 0,  1,  2,  3,  4,  5,  6,  7,  8,  9, 10, 11, 12, 13, 14, 15]
  | 1 => #v[14, 10,  4,  8,  9, 15, 13,  6,  1, 12,  0,  2, 11,  7,  5,  3]
  | 2 => #v[11,  8, 12,  0,  5,  2, 15, 13, 10, 14,  3,  6,  7,  1,  9,  4]
  | 3 => #v[ 7,  9,  3,  1, 13, 12, 11, 14,  2,  6,  5, 10,  4,  0, 15,  8]
  | 4 => #v[ 9,  0,  5,  7,  2,  4, 10, 15, 14,  1, 11, 12,  6,  8,  3, 13]
  | 5 => #v[ 2, 12,  6, 10,  0, 11,  8,  3,  4, 13,  7,  5, 15, 14,  1,  9]
  | 6 => #v[12,  5,  1, 15, 14, 13,  4, 10,  0,  7,  6,  3,  9,  2,  8, 11]
  | 7 => #v[13, 11,  7, 14, 12,  1,  3,  9,  5,  0, 15,  4,  8,  6,  2, 10]

/-- The mixing function of BLAKE2b (RFC 7693, section 3.1). -/
def mix (a b c d x y : U64) : U64 × U64 × U64 × U64 :=
  let a := a + b + x
  let d := (d ^^^ a).rotateRight 32
  let c := c + d
  let b := (b ^^^ c).rotateRight 24
  let a := a + b + y
  let d := (d ^^^ a).rotateRight 16
  let c := c + d
  let b := (b ^^^ c).rotateRight 63
  (a, b, c, d)

/-- The 4x4 state, as four rows. -/
structure Matrix where
  (a b c d : Fin 4 → U64)

/-- Mix every column `i` with message words `x i` and `y i`. -/
def mixColumns (s : Matrix) (x y : Fin 4 → U64) : Matrix where
  a i := (mix (s.a i) (s.b i) (s.c i) (s.d i) (x i) (y i)).1
  b i := (mix (s.a i) (s.b i) (s.c i) (s.d i) (x i) (y i)).2.1
  c i := (mix (s.a i) (s.b i) (s.c i) (s.d i) (x i) (y i)).2.2.1
  d i := (mix (s.a i) (s.b i) (s.c i) (s.d i) (x i) (y i)).2.2.2

/-- Rotate row `k` left by `k`, so that diagonals become columns. -/
def rotateRows (s : Matrix) : Matrix where
  a := s.a
  b i := s.b (i + 1)
  c i := s.c (i + 2)
  d i := s.d (i + 3)

/-- Inverse of `rotateRows`. -/
def unrotateRows (s : Matrix) : Matrix where
  a := s.a
  b i := s.b (i - 1)
  c i := s.c (i - 2)
  d i := s.d (i - 3)

/-- One round: mix the columns, then the diagonals; the message words are taken in the
order given by the permutation `p`. -/
def round (p : Vector (Fin 16) 16) (msg : Fin 16 → U64) (s : Matrix) : Matrix :=
  let s := mixColumns s (fun i => msg p[2 * i.val]) (fun i => msg p[2 * i.val + 1])
  unrotateRows
    (mixColumns (rotateRows s) (fun i => msg p[8 + 2 * i.val]) (fun i => msg p[8 + 2 * i.val + 1]))

/-- The input of one call of the compression function. -/
structure Input where
  /-- input chaining value -/
  cv : Vector U64 4
  /-- message block -/
  block : Vector Byte 128
  /-- number of message bytes in the block -/
  blockLen : Byte
  /-- byte offset -/
  offset : U64
  /-- domain flags -/
  flags : Byte
  deriving DecidableEq

/-- The `i`-th little-endian 64-bit word of a block. -/
def blockWord (b : Vector Byte 128) (i : Fin 16) : U64 :=
  b[8 * i.val + 7] ++ b[8 * i.val + 6] ++ b[8 * i.val + 5] ++ b[8 * i.val + 4] ++
  b[8 * i.val + 3] ++ b[8 * i.val + 2] ++ b[8 * i.val + 1] ++ b[8 * i.val]

/-- The initial state: chaining value; upper half of the IV; lower half of the IV; offset, one more
IV word, block length, flags. -/
def initial (n : Input) : Matrix where
  a i := n.cv[i.val]
  b i := iv ⟨4 + i.val, by omega⟩
  c i := iv (i.castLE (by omega))
  d
    | 0 => n.offset
    | 1 => iv 5
    | 2 => n.blockLen.setWidth 64
    | 3 => n.flags.setWidth 64

/-- Eight rounds. -/
def permuted (n : Input) : Matrix :=
  (List.finRange 8).foldl (fun s r => round (sigma r) (blockWord n.block) s) (initial n)

/-- The chaining value computed from an input: first row xor second row. -/
def compress (n : Input) : Vector U64 4 :=
  let s := permuted n
  Vector.ofFn fun i : Fin 4 => s.a i ^^^ s.b i

/-- The bytes of a word, least significant first. -/
def wordBytes (w : U64) : Bytes := (List.range 8).map fun k => w.extractLsb' (8 * k) 8

/-- The chaining value as 32 bytes. -/
def cvBytes (cv : Vector U64 4) : Bytes := cv.toList.flatMap wordBytes

/-- The 128-byte output of one compression: the chaining value; the second row xor the input
chaining value; the third and the fourth row. -/
def outBytes (n : Input) : Bytes :=
  let s := permuted n
  (((List.finRange 4).map fun i => s.a i ^^^ s.b i) ++
    ((List.finRange 4).map fun i => s.b i ^^^ n.cv[i]) ++
    (List.finRange 4).map s.c ++ (List.finRange 4).map s.d).flatMap wordBytes

/-- The first 128 bytes of a message, filled with zeros if it is shorter. -/
def pad (m : Bytes) : Vector Byte 128 := Vector.ofFn fun i : Fin 128 => m.getD i.val 0

/-- The chaining value after `blocks` whole blocks of `input`: block `b` is bytes `128 b` to
`128 b + 127`, all blocks carry `flags` and the same `offset`, the first one `first` and the last one
`last` in addition. -/
def blockChain (key : Vector U64 4) (offset : U64) (flags first last : Byte) (blocks : Nat)
    (input : Bytes) : Vector U64 4 :=
  (List.range blocks).foldl (fun cv b => compress
    { cv := cv, block := pad (input.drop (128 * b)), blockLen := 128, offset := offset,
      flags := flags ||| (if b = 0 then first else 0) ||| (if b + 1 = blocks then last else 0) }) key

/-- The 32-byte results for the first `num` inputs one after the other, input `i` at offset
`offset + i * step` (modulo 2^64). -/
def manyOut (key : Vector U64 4) (offset step : U64) (flags first last : Byte) (blocks num : Nat)
    (inputs : List Bytes) : Bytes :=
  (List.range num).flatMap fun i =>
    cvBytes (blockChain key (offset + BitVec.ofNat 64 i * step) flags first last blocks
      (inputs.getD i []))

/-- The same for inputs at any offsets: input `i` at `offset i`. -/
def eachOut (key : Vector U64 4) (offset : Nat → U64) (flags first last : Byte) (blocks num : Nat)
    (inputs : List Bytes) : Bytes :=
  (List.range num).flatMap fun i => cvBytes (blockChain key (offset i) flags first last blocks (inputs.getD i []))

end Baokeshed.Spec64
