import Verif.Basic

/-!
# The specification

The BLAKE3 prototype that baokeshed implements, written down once, independently of any
of its implementations: a compression function in 4x4-matrix form, chunks of 2048 bytes,
a left-balanced binary tree over the chunks, and an output stream of 64-byte blocks.
Everything here is a plain total function; there are no buffers, no panics, no platforms.
-/

namespace Baokeshed.Spec

/-! ## Compression function -/

/-- The initialisation constants: BLAKE2s / SHA-256 IV (RFC 7693, section 2.6). -/
def iv : Fin 8 → Word
  | 0 => 0x6A09E667 | 1 => 0xBB67AE85 | 2 => 0x3C6EF372 | 3 => 0xA54FF53A
  | 4 => 0x510E527F | 5 => 0x9B05688C | 6 => 0x1F83D9AB | 7 => 0x5BE0CD19

/-- The BLAKE2 message permutations (RFC 7693, section 2.7), first seven. -/
def sigma : Fin 7 → Vector (Fin 16) 16
  | 0 => #v[ 0,  1,  2,  3,  4,  5,  6,  7,  8,  9, 10, 11, 12, 13, 14, 15]
  | 1 => #v[14, 10,  4,  8,  9, 15, 13,  6,  1, 12,  0,  2, 11,  7,  5,  3]
  | 2 => #v[11,  8, 12,  0,  5,  2, 15, 13, 10, 14,  3,  6,  7,  1,  9,  4]
  | 3 => #v[ 7,  9,  3,  1, 13, 12, 11, 14,  2,  6,  5, 10,  4,  0, 15,  8]
  | 4 => #v[ 9,  0,  5,  7,  2,  4, 10, 15, 14,  1, 11, 12,  6,  8,  3, 13]
  | 5 => #v[ 2, 12,  6, 10,  0, 11,  8,  3,  4, 13,  7,  5, 15, 14,  1,  9]
  | 6 => #v[12,  5,  1, 15, 14, 13,  4, 10,  0,  7,  6,  3,  9,  2,  8, 11]

/-- The quarter-round mixing function of BLAKE2s (RFC 7693, section 3.1). -/
def mix (a b c d x y : Word) : Word × Word × Word × Word :=
  let a := a + b + x
  let d := (d ^^^ a).rotateRight 16
  let c := c + d
  let b := (b ^^^ c).rotateRight 12
  let a := a + b + y
  let d := (d ^^^ a).rotateRight 8
  let c := c + d
  let b := (b ^^^ c).rotateRight 7
  (a, b, c, d)

/-- The 4x4 state, as four rows. -/
structure Matrix where
  (a b c d : Fin 4 → Word)

/-- Mix every column `i` with message words `x i` and `y i`. -/
def mixColumns (s : Matrix) (x y : Fin 4 → Word) : Matrix where
  a i := (mix (s.a i) (s.b i) (s.c i) (s.d i) (x i) (y i)).1
  b i := (mix (s.a i) (s.b i) (s.c i) (s.d i) (x i) (y i)).2.1
  c i := (mix (s.a i) (s.b i) (s.c i) (s.d i) (x i) (y i)).2.2.1
  d i := (mix (s.a i) (s.b i) (s.c i) (s.d i) (x i) (y i)).2.2.2

/-- Rotate row `k` left by `k`, so that diagonals become columns. -/
def rotateRows (s : Matrix) : Matrix where
  a := s.a
  b i := s.b (i + 1)
  c i := s.c (i + 2)
  d i := s.d (i + 3)

/-- Inverse of `rotateRows`. -/
def unrotateRows (s : Matrix) : Matrix where
  a := s.a
  b i := s.b (i - 1)
  c i := s.c (i - 2)
  d i := s.d (i - 3)

/-- One round: mix the columns, then the diagonals; the message words are taken in the
order given by the permutation `p`. -/
def round (p : Vector (Fin 16) 16) (msg : Fin 16 → Word) (s : Matrix) : Matrix :=
  let s := mixColumns s (fun i => msg p[2 * i.val]) (fun i => msg p[2 * i.val + 1])
  unrotateRows
    (mixColumns (rotateRows s) (fun i => msg p[8 + 2 * i.val]) (fun i => msg p[8 + 2 * i.val + 1]))

/-- The input of one call of the compression function. -/
structure Input where
  /-- input chaining value -/
  cv : Vector Word 8
  /-- message block -/
  block : Vector Byte 64
  /-- number of message bytes in the block -/
  blockLen : Byte
  /-- byte offset -/
  offset : U64
  /-- domain flags -/
  flags : Byte
  deriving DecidableEq

/-- The `i`-th little-endian 32-bit word of a block. -/
def blockWord (b : Vector Byte 64) (i : Fin 16) : Word :=
  b[4 * i.val + 3] ++ b[4 * i.val + 2] ++ b[4 * i.val + 1] ++ b[4 * i.val]

/-- The initial state: chaining value; IV; offset, block length, flags. -/
def initial (n : Input) : Matrix where
  a i := n.cv[i.val]
  b i := n.cv[4 + i.val]
  c i := iv (i.castLE (by omega))
  d
    | 0 => n.offset.extractLsb' 0 32
    | 1 => n.offset.extractLsb' 32 32
    | 2 => n.blockLen.setWidth 32
    | 3 => n.flags.setWidth 32

/-- Seven rounds. -/
def permuted (n : Input) : Matrix :=
  (List.finRange 7).foldl (fun s r => round (sigma r) (blockWord n.block) s) (initial n)

/-- The first eight words of output: upper half of the state xor lower half. -/
def outLow (n : Input) : Vector Word 8 :=
  let s := permuted n
  Vector.ofFn fun i : Fin 8 =>
    if h : i.val < 4 then s.a ⟨i, h⟩ ^^^ s.c ⟨i, h⟩
    else s.b ⟨i - 4, by omega⟩ ^^^ s.d ⟨i - 4, by omega⟩

/-- The second eight words of output: lower half of the state xor the input chaining
value. -/
def outHigh (n : Input) : Vector Word 8 :=
  let s := permuted n
  Vector.ofFn fun i : Fin 8 =>
    if h : i.val < 4 then s.c ⟨i, h⟩ ^^^ n.cv[i]
    else s.d ⟨i - 4, by omega⟩ ^^^ n.cv[i]

/-- The chaining value computed from an input. -/
def compress (n : Input) : Vector Word 8 := outLow n

/-- Words as little-endian bytes. -/
def wordBytes (ws : List Word) : Bytes :=
  ws.flatMap fun w =>
    [w.extractLsb' 0 8, w.extractLsb' 8 8, w.extractLsb' 16 8, w.extractLsb' 24 8]

theorem length_wordBytes (ws : List Word) : (wordBytes ws).length = 4 * ws.length := by
  induction ws with
  | nil => rfl
  | cons w ws ih => simp [wordBytes, List.flatMap_cons] at ih ⊢; omega

/-- The chaining value as 32 bytes. -/
def cvBytes (cv : Vector Word 8) : Vector Byte 32 :=
  ⟨(wordBytes cv.toList).toArray, by simp [length_wordBytes]⟩

/-- The full 64-byte output of one compression. -/
def outBytes (n : Input) : Vector Byte 64 :=
  ⟨(wordBytes ((outLow n).toList ++ (outHigh n).toList)).toArray, by simp [length_wordBytes]⟩

/-! ## Flags, modes -/

def chunkStart : Byte := 1
def chunkEnd : Byte := 2
def parentFlag : Byte := 4
def rootFlag : Byte := 8
def keyedHashFlag : Byte := 16
def deriveKeyFlag : Byte := 32

/-- The three public modes. -/
inductive Mode where
  | hash
  | keyedHash (key : Vector Byte 32)
  | deriveKey (key : Vector Byte 32)
  deriving DecidableEq

/-- The eight key words: the IV, or the key as little-endian words. -/
def Mode.key : Mode → Vector Word 8
  | .hash => Vector.ofFn iv
  | .keyedHash k | .deriveKey k => Vector.ofFn fun i : Fin 8 =>
      k[4 * i.val + 3] ++ k[4 * i.val + 2] ++ k[4 * i.val + 1] ++ k[4 * i.val]

/-- The flag that every compression of the mode carries. -/
def Mode.flag : Mode → Byte
  | .hash => 0
  | .keyedHash _ => keyedHashFlag
  | .deriveKey _ => deriveKeyFlag

/-! ## Tree -/

/-- A block of up to 64 bytes, padded with zeros. -/
def pad (b : Bytes) : Vector Byte 64 := Vector.ofFn fun i : Fin 64 => b.getD i 0

/-- The last compression of a chunk (not yet performed): all blocks but the last are
absorbed into the chaining value.  `fl` are the flags of the next block: `CHUNK_START` is
present in the first block only; `CHUNK_END` is added for the last. -/
def chunkFrom (flags : Byte) (offset : Nat) (cv : Vector Word 8) (fl : Byte) (c : Bytes) : Input :=
  if _h : c.length ≤ 64 then
    { cv, block := pad c, blockLen := BitVec.ofNat 8 c.length, offset := BitVec.ofNat 64 offset,
      flags := fl ||| chunkEnd }
  else
    chunkFrom flags offset
      (compress { cv, block := pad (c.take 64), blockLen := 64,
                  offset := BitVec.ofNat 64 offset, flags := fl })
      flags (c.drop 64)
termination_by c.length
decreasing_by simp; omega

/-- A leaf of the tree. -/
def chunk (key : Vector Word 8) (flags : Byte) (offset : Nat) (c : Bytes) : Input :=
  chunkFrom flags offset key (flags ||| chunkStart) c

/-- An interior node, from the chaining values of its children. -/
def parent (key : Vector Word 8) (flags : Byte) (l r : Vector Word 8) : Input where
  cv := key
  block := cvBytes l ++ cvBytes r
  blockLen := 64
  offset := 0
  flags := flags ||| parentFlag

/-- Number of bytes in the left subtree: the largest power of two of chunks that leaves at
least one byte for the right subtree. -/
def leftLen (n : Nat) : Nat := 2048 * 2 ^ Nat.log2 ((n - 1) / 2048)

theorem leftLen_pos (n : Nat) : 0 < leftLen n := by
  unfold leftLen; have := Nat.two_pow_pos (Nat.log2 ((n - 1) / 2048)); omega

theorem leftLen_lt {n : Nat} (h : 2048 < n) : leftLen n < n := by
  unfold leftLen
  have h0 : (n - 1) / 2048 ≠ 0 := by omega
  have := Nat.log2_self_le h0
  omega

/-- The top node of the subtree over `input`, which starts at byte `offset`. -/
def subtree (key : Vector Word 8) (flags : Byte) (offset : Nat) (input : Bytes) : Input :=
  if h : input.length ≤ 2048 then chunk key flags offset input
  else
    let l := leftLen input.length
    parent key flags
      (compress (subtree key flags offset (input.take l)))
      (compress (subtree key flags (offset + l) (input.drop l)))
termination_by input.length
decreasing_by
  all_goals
    have := leftLen_lt (Nat.lt_of_not_le h)
    have := leftLen_pos input.length
    simp only [List.length_take, List.length_drop]; omega

/-- The root node: the top node of the whole tree, flagged `ROOT`. -/
def root (m : Mode) (input : Bytes) : Input :=
  let n := subtree m.key m.flag 0 input
  { n with flags := n.flags ||| rootFlag }

/-! ## Output -/

/-- Block `k` of the output stream: the root compression at byte offset `64 k`. -/
def streamBlock (m : Mode) (input : Bytes) (k : Nat) : Vector Byte 64 :=
  outBytes { root m input with offset := BitVec.ofNat 64 (64 * k) }

/-- Byte `i` of the output stream. -/
def streamByte (m : Mode) (input : Bytes) (i : Nat) : Byte :=
  (streamBlock m input (i / 64))[i % 64]'(Nat.mod_lt _ (by decide))

/-- The first `n` bytes of output. -/
def output (m : Mode) (input : Bytes) (n : Nat) : Bytes := (List.range n).map (streamByte m input)

/-- The default hash: the first 32 bytes of output. -/
def hash (m : Mode) (input : Bytes) : Vector Byte 32 := Vector.ofFn fun i => streamByte m input i

end Baokeshed.Spec
