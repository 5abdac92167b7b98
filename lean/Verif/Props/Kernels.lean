import Verif.Props.OneShot

/-!
# C07, C08, C09, C34: the Rust kernels
-/

namespace Baokeshed.Props
open Baokeshed.Model Baokeshed.Proofs

/-- C07.  SSE4.1 compression is the portable one. -/
theorem C07_sse41_compress (cv : Vector Word 8) (block : Vector Byte 64) (block_len : Byte) (offset : U64)
    (flags : Byte) :
    Sse41.compress cv block block_len offset flags = Portable.compress cv block block_len offset flags ∧
    Sse41.compress_xof cv block block_len offset flags = Portable.compress_xof cv block block_len offset flags :=
  ⟨sse41_compress_eq .., sse41_compress_xof_eq ..⟩

/-- C08.  `sse41::hash_many` and `avx2::hash_many` return the same result as `portable::hash_many`:
the same bytes, or the same panic.  Out-of-bounds pointer accesses are a panic (`.ub`) in the model,
which the portable code never produces. -/
theorem C08_simd_hash_many (cap : Nat) (hcap : cap % 64 = 0) (inputs : List Bytes)
    (hx : ∀ x ∈ inputs, x.length = cap) (key : Vector Word 8) (offset delta : U64) (flags fs fe : Byte)
    (out : Bytes) :
    Sse41.hash_many cap inputs key offset delta flags fs fe out =
      Portable.hash_many inputs key offset delta flags fs fe out ∧
    Avx2.hash_many cap inputs key offset delta flags fs fe out =
      Portable.hash_many inputs key offset delta flags fs fe out :=
  ⟨sse41_hash_many_eq cap hcap inputs key offset delta flags fs fe out hx,
    avx2_hash_many_eq cap hcap inputs key offset delta flags fs fe out hx⟩

/-- the common result -/
theorem hash_many_result (cap : Nat) (hcap : cap % 64 = 0) (inputs : List Bytes)
    (hx : ∀ x ∈ inputs, x.length = cap) (key : Vector Word 8) (offset delta : U64) (flags fs fe : Byte)
    (out : Bytes) :
    (Portable.hash_many inputs key offset delta flags fs fe out =
      if out.length < 32 * inputs.length then .error .assert
      else if offset.toNat + inputs.length * delta.toNat < 2 ^ 64 then
        .ok (lanesOut key offset delta flags fs fe 0 inputs ++ out.drop (32 * inputs.length))
      else .error .overflow) := by
  by_cases hout : 32 * inputs.length ≤ out.length
  · rw [if_neg (by omega)]
    have e2 := portable_many_append key delta flags fs fe inputs [] offset out
      (fun x h => by rw [hx x h]; exact hcap) hout
    rw [List.append_nil] at e2
    rw [Portable.hash_many, assertR, if_pos (by simp only [OUT_LEN]; omega), bind_ok, e2]
    split <;> rfl
  · rw [if_pos (by omega), Portable.hash_many, assertR, if_neg (by simp only [OUT_LEN]; omega)]
    rfl

/-- C08.  No access outside the inputs and the output slice (`.ub`), and no panic other than the two
checks above. -/
theorem C08_no_ub (cap : Nat) (hcap : cap % 64 = 0) (inputs : List Bytes)
    (hx : ∀ x ∈ inputs, x.length = cap) (key : Vector Word 8) (offset delta : U64) (flags fs fe : Byte)
    (out : Bytes) (p : Platform) :
    p.hash_many cap inputs key offset delta flags fs fe out ≠ .error .ub ∧
    p.hash_many cap inputs key offset delta flags fs fe out ≠ .error .bounds := by
  have e : p.hash_many cap inputs key offset delta flags fs fe out =
      Portable.hash_many inputs key offset delta flags fs fe out := by
    cases p
    · rfl
    · exact sse41_hash_many_eq cap hcap inputs key offset delta flags fs fe out hx
    · exact avx2_hash_many_eq cap hcap inputs key offset delta flags fs fe out hx
  rw [e, hash_many_result cap hcap inputs hx]
  split
  · simp
  · split <;> simp

-- nine chunks: one batch of eight or two of four, and a rest
example : ∀ x ∈ List.replicate 9 (rep 2048 5), x.length = 2048 := by
  intro x h; rw [List.eq_of_mem_replicate h]; simp

/-- C09.  Portable compression computes the specified function. -/
theorem C09_portable_compress (cv : Vector Word 8) (block : Vector Byte 64) (block_len : Byte) (offset : U64)
    (flags : Byte) :
    Portable.compress cv block block_len offset flags = Spec.compress ⟨cv, block, block_len, offset, flags⟩ ∧
    Portable.compress_xof cv block block_len offset flags = Spec.outBytes ⟨cv, block, block_len, offset, flags⟩ :=
  ⟨compress_eq .., compress_xof_eq ..⟩

/-- C09, all platforms. -/
theorem C09_platform_compress (p : Platform) (cv : Vector Word 8) (block : Vector Byte 64) (block_len : Byte)
    (offset : U64) (flags : Byte) :
    p.compress cv block block_len offset flags = Spec.compress ⟨cv, block, block_len, offset, flags⟩ ∧
    p.compress_xof cv block block_len offset flags = Spec.outBytes ⟨cv, block, block_len, offset, flags⟩ :=
  ⟨plat_compress .., plat_compress_xof ..⟩

/-! ## C34 -/

/-- the number denoted by four little-endian bytes -/
def leNat (b0 b1 b2 b3 : Byte) : Nat := b0.toNat + 256 * b1.toNat + 256 ^ 2 * b2.toNat + 256 ^ 3 * b3.toNat

theorem toNat_append4 (b0 b1 b2 b3 : Byte) : (b3 ++ b2 ++ b1 ++ b0 : BitVec 32).toNat = leNat b0 b1 b2 b3 := by
  simp only [BitVec.toNat_append, Nat.shiftLeft_eq, leNat]
  have h0 := b0.isLt
  have h1 := b1.isLt
  have h2 := b2.isLt
  have h3 := b3.isLt
  rw [show b3.toNat * 2 ^ 8 = 2 ^ 8 * b3.toNat by omega, ← Nat.two_pow_add_eq_or_of_lt h2,
    show (2 ^ 8 * b3.toNat + b2.toNat) * 2 ^ 8 = 2 ^ 8 * (2 ^ 8 * b3.toNat + b2.toNat) by omega,
    ← Nat.two_pow_add_eq_or_of_lt h1]
  rw [show (2 ^ 8 * (2 ^ 8 * b3.toNat + b2.toNat) + b1.toNat) * 2 ^ 8 =
    2 ^ 8 * (2 ^ 8 * (2 ^ 8 * b3.toNat + b2.toNat) + b1.toNat) by omega, ← Nat.two_pow_add_eq_or_of_lt h0]
  omega

/-- C34.  Word `i` of a key is the little-endian number of bytes `4i .. 4i+3`. -/
theorem C34_key_words (k : Vector Byte 32) (i : Nat) (hi : i < 8) :
    (words_from_key_bytes k)[i].toNat = leNat k[4 * i] k[4 * i + 1] k[4 * i + 2] k[4 * i + 3] := by
  rw [key_words_eq, Vector.getElem_ofFn, toNat_append4]

/-- C34.  Word `i` of a block is the little-endian number of bytes `4i .. 4i+3`. -/
theorem C34_block_words (b : Vector Byte 64) (i : Nat) (hi : i < 16) :
    (Portable.words_from_block b)[i].toNat = leNat b[4 * i] b[4 * i + 1] b[4 * i + 2] b[4 * i + 3] := by
  have e : (Portable.words_from_block b)[i] = leWord b[4 * i] b[4 * i + 1] b[4 * i + 2] b[4 * i + 3] := by
    rcases i with _ | _ | _ | _ | _ | _ | _ | _ | _ | _ | _ | _ | _ | _ | _ | _ | i <;> first | rfl | omega
  rw [e, leWord, toNat_append4]

theorem leBytes_leWord (b0 b1 b2 b3 : Byte) : leBytes (leWord b0 b1 b2 b3) = [b0, b1, b2, b3] := by
  have h0 := b0.isLt
  have h1 := b1.isLt
  have h2 := b2.isLt
  have h3 := b3.isLt
  have e := toNat_append4 b0 b1 b2 b3
  unfold leNat at e
  unfold leBytes leWord
  congr
  all_goals
    apply BitVec.eq_of_toNat_eq
    rw [BitVec.extractLsb'_toNat, e, Nat.shiftRight_eq_div_pow]
    omega

theorem leWord_leBytes (w : Word) :
    leWord (w.extractLsb' 0 8) (w.extractLsb' 8 8) (w.extractLsb' 16 8) (w.extractLsb' 24 8) = w := by
  have h := w.isLt
  apply BitVec.eq_of_toNat_eq
  rw [leWord, toNat_append4, leNat]
  simp only [BitVec.extractLsb'_toNat, Nat.shiftRight_eq_div_pow]
  omega

/-- C34.  Key bytes to words and back. -/
theorem C34_key_roundtrip (k : Vector Byte 32) : bytes_from_state_words (words_from_key_bytes k) = k := by
  apply Vector.toList_inj.1
  have e : k.toList = (List.range 32).map fun i => k[i]! := by
    apply List.ext_getElem
    · simp
    · intro i h1 h2; simp at h2 ⊢; simp [h2]
  rw [e]
  simp [bytes_from_state_words, words_from_key_bytes, leBytes_leWord, List.range, List.range.loop]

/-- C34.  State words to bytes and back. -/
theorem C34_words_roundtrip (w : Vector Word 8) : words_from_key_bytes (bytes_from_state_words w) = w := by
  apply Vector.ext
  intro i hi
  have e : (words_from_key_bytes (bytes_from_state_words w))[i] =
      leWord (w[i].extractLsb' 0 8) (w[i].extractLsb' 8 8) (w[i].extractLsb' 16 8) (w[i].extractLsb' 24 8) := by
    rcases i with _ | _ | _ | _ | _ | _ | _ | _ | i <;> first | rfl | omega
  rw [e, leWord_leBytes]

/-- C34.  Different keys have different key words. -/
theorem C34_key_injective (k k' : Vector Byte 32) (h : words_from_key_bytes k = words_from_key_bytes k') :
    k = k' := by
  rw [← C34_key_roundtrip k, h, C34_key_roundtrip]

/-- C34.  Every sixteen words are the words of exactly one block. -/
theorem C34_block_bijective (w : Vector Word 16) :
    ∃ b, Portable.words_from_block b = w ∧ ∀ b', Portable.words_from_block b' = w → b' = b := by
  refine ⟨Vector.ofFn fun i : Fin 64 => (w[i.val / 4]'(by omega)).extractLsb' (8 * (i.val % 4)) 8, ?_, ?_⟩
  · apply Vector.ext
    intro i hi
    apply BitVec.eq_of_toNat_eq
    have h := w[i].isLt
    rw [C34_block_words _ i hi, leNat]
    simp only [Vector.getElem_ofFn, BitVec.extractLsb'_toNat, Nat.shiftRight_eq_div_pow,
      show 4 * i / 4 = i by omega, show (4 * i + 1) / 4 = i by omega, show (4 * i + 2) / 4 = i by omega,
      show (4 * i + 3) / 4 = i by omega, show 4 * i % 4 = 0 by omega, show (4 * i + 1) % 4 = 1 by omega,
      show (4 * i + 2) % 4 = 2 by omega, show (4 * i + 3) % 4 = 3 by omega]
    omega
  · rintro b' rfl
    apply Vector.ext
    intro i hi
    rw [Vector.getElem_ofFn]
    apply BitVec.eq_of_toNat_eq
    have h := C34_block_words b' (i / 4) (by omega)
    have hb : ∀ j (hj : j < 64), b'[j].toNat < 256 := fun j hj => b'[j].isLt
    have h0 := hb (4 * (i / 4)) (by omega)
    have h1 := hb (4 * (i / 4) + 1) (by omega)
    have h2 := hb (4 * (i / 4) + 2) (by omega)
    have h3 := hb (4 * (i / 4) + 3) (by omega)
    rw [BitVec.extractLsb'_toNat, Nat.shiftRight_eq_div_pow, h, leNat]
    have hc : i = 4 * (i / 4) ∨ i = 4 * (i / 4) + 1 ∨ i = 4 * (i / 4) + 2 ∨ i = 4 * (i / 4) + 3 := by omega
    have key : ∀ j (hj : j < 64), i = j → b'[i].toNat = b'[j].toNat := by intro j hj e; subst e; rfl
    rcases hc with e | e | e | e
    · rw [key _ (by omega) e, show i % 4 = 0 by omega]; omega
    · rw [key _ (by omega) e, show i % 4 = 1 by omega]; omega
    · rw [key _ (by omega) e, show i % 4 = 2 by omega]; omega
    · rw [key _ (by omega) e, show i % 4 = 3 by omega]; omega

example : leNat 0x78 0x56 0x34 0x12 = 0x12345678 := by decide

end Baokeshed.Props
