import Verif.Basic

/-!
# BLAKE2s and BLAKE2b

RFC 7693, sections 2 and 3, unkeyed with outputs of full length (32 and 64 bytes), in the notation of the RFC.
baokeshed derives its compression functions from these; the file anchors the specifications of `Verif.Spec` and
`Verif.Spec64` in a published standard, of which test vectors exist.
-/

namespace Baokeshed.Blake2

/-- RFC 7693, section 2.7: the ten message permutations -/
def SIGMA : Fin 10 → Vector (Fin 16) 16
  | 0 => #v[ 0,  1,  2,  3,  4,  5,  6,  7,  8,  9, 10, 11, 12, 13, 14, 15]
  | 1 => #v[14, 10,  4,  8,  9, 15, 13,  6,  1, 12,  0,  2, 11,  7,  5,  3]
  | 2 => #v[11,  8, 12,  0,  5,  2, 15, 13, 10, 14,  3,  6,  7,  1,  9,  4]
  | 3 => #v[ 7,  9,  3,  1, 13, 12, 11, 14,  2,  6,  5, 10,  4,  0, 15,  8]
  | 4 => #v[ 9,  0,  5,  7,  2,  4, 10, 15, 14,  1, 11, 12,  6,  8,  3, 13]
  | 5 => #v[ 2, 12,  6, 10,  0, 11,  8,  3,  4, 13,  7,  5, 15, 14,  1,  9]
  | 6 => #v[12,  5,  1, 15, 14, 13,  4, 10,  0,  7,  6,  3,  9,  2,  8, 11]
  | 7 => #v[13, 11,  7, 14, 12,  1,  3,  9,  5,  0, 15,  4,  8,  6,  2, 10]
  | 8 => #v[ 6, 15, 14,  9, 11,  3,  0,  8, 12,  2, 13,  7,  1,  4, 10,  5]
  | 9 => #v[10,  2,  8,  4,  7,  6,  1,  5, 15, 11,  9, 14,  3, 12, 13,  0]

/-! ## Parametrised by the word size -/

/-- The parameters of section 2.1 that differ between the two -/
structure Params (w : Nat) where
  (R1 R2 R3 R4 : Nat)
  IV : Vector (BitVec w) 8
  rounds : Nat

variable {w : Nat}

/-- section 3.1, `G` -/
def G (P : Params w) (v : Vector (BitVec w) 16) (a b c d : Fin 16) (x y : BitVec w) : Vector (BitVec w) 16 :=
  let v := v.set a (v[a] + v[b] + x)
  let v := v.set d ((v[d] ^^^ v[a]).rotateRight P.R1)
  let v := v.set c (v[c] + v[d])
  let v := v.set b ((v[b] ^^^ v[c]).rotateRight P.R2)
  let v := v.set a (v[a] + v[b] + y)
  let v := v.set d ((v[d] ^^^ v[a]).rotateRight P.R3)
  let v := v.set c (v[c] + v[d])
  v.set b ((v[b] ^^^ v[c]).rotateRight P.R4)

/-- section 3.2, the body of the loop over the rounds -/
def round (P : Params w) (s : Vector (Fin 16) 16) (m v : Vector (BitVec w) 16) : Vector (BitVec w) 16 :=
  let v := G P v 0 4 8 12 m[s[0]] m[s[1]]
  let v := G P v 1 5 9 13 m[s[2]] m[s[3]]
  let v := G P v 2 6 10 14 m[s[4]] m[s[5]]
  let v := G P v 3 7 11 15 m[s[6]] m[s[7]]
  let v := G P v 0 5 10 15 m[s[8]] m[s[9]]
  let v := G P v 1 6 11 12 m[s[10]] m[s[11]]
  let v := G P v 2 7 8 13 m[s[12]] m[s[13]]
  G P v 3 4 9 14 m[s[14]] m[s[15]]

/-- section 3.2, the compression function `F`; `t` is the 2w-bit offset counter, `f` the final block flag -/
def F (P : Params w) (h : Vector (BitVec w) 8) (m : Vector (BitVec w) 16) (t : Nat) (f : Bool) : Vector (BitVec w) 8 :=
  let v := h ++ P.IV
  let v := v.set 12 (v[12] ^^^ BitVec.ofNat w t)
  let v := v.set 13 (v[13] ^^^ BitVec.ofNat w (t / 2 ^ w))
  let v := if f then v.set 14 (~~~ v[14]) else v
  let v := (List.range P.rounds).foldl (fun v i => round P (SIGMA (Fin.ofNat 10 i)) m v) v
  Vector.ofFn fun i : Fin 8 => h[i] ^^^ v[i.val] ^^^ v[i.val + 8]

/-- section 2.4: the `i`-th little-endian word of `w` bits, the missing bytes being zeros (section 3.3) -/
def word (w : Nat) (b : Bytes) (i : Nat) : BitVec w :=
  BitVec.ofNat w ((List.range (w / 8)).foldr (fun j acc => (b.getD (w / 8 * i + j) 0).toNat + 256 * acc) 0)

/-- the sixteen words of a block padded with zeros -/
def words (w : Nat) (b : Bytes) : Vector (BitVec w) 16 := Vector.ofFn fun i : Fin 16 => word w b i

/-- the little-endian bytes of words -/
def unwords (h : Vector (BitVec w) 8) : Bytes :=
  h.toList.flatMap fun x => (List.range (w / 8)).map fun j => x.extractLsb' (8 * j) 8

/-- section 3.3, the loop over the data blocks: `t` bytes have been compressed, `d` is left -/
def blocks (P : Params w) (bb : Nat) (hb : 0 < bb) (h : Vector (BitVec w) 8) (t : Nat) (d : Bytes) :
    Vector (BitVec w) 8 :=
  if _h : d.length ≤ bb then F P h (words w d) (t + d.length) true
  else blocks P bb hb (F P h (words w (d.take bb)) (t + bb) false) (t + bb) (d.drop bb)
termination_by d.length
decreasing_by rw [List.length_drop]; omega

/-- sections 2.1, 2.6: BLAKE2s -/
def S : Params 32 where
  R1 := 16
  R2 := 12
  R3 := 8
  R4 := 7
  rounds := 10
  IV := #v[0x6A09E667, 0xBB67AE85, 0x3C6EF372, 0xA54FF53A, 0x510E527F, 0x9B05688C, 0x1F83D9AB, 0x5BE0CD19]

/-- sections 2.1, 2.6: BLAKE2b -/
def B : Params 64 where
  R1 := 32
  R2 := 24
  R3 := 16
  R4 := 63
  rounds := 12
  IV := #v[0x6A09E667F3BCC908, 0xBB67AE8584CAA73B, 0x3C6EF372FE94F82B, 0xA54FF53A5F1D36F1,
           0x510E527FADE682D1, 0x9B05688C2B3E6C1F, 0x1F83D9ABFB41BD6B, 0x5BE0CD19137E2179]

/-- section 3.3, unkeyed: the parameter block is `0x01010000 ^ nn` -/
def blake2s (d : Bytes) : Bytes := unwords (blocks S 64 (by decide) (S.IV.set 0 (S.IV[0] ^^^ 0x01010000 ^^^ 32)) 0 d)

/-- section 3.3, unkeyed -/
def blake2b (d : Bytes) : Bytes := unwords (blocks B 128 (by decide) (B.IV.set 0 (B.IV[0] ^^^ 0x01010000 ^^^ 64)) 0 d)

end Baokeshed.Blake2
