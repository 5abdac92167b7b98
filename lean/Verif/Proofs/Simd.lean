import Verif.Model.Simd
import Verif.Proofs.Portable

/-! # Lane lemmas for the SIMD intrinsics -/

set_option linter.unusedVariables false
set_option linter.unusedSimpArgs false

namespace Baokeshed.Proofs
open Baokeshed.Model

theorem getLsbD_fromLanes (w k : Nat) (f : Nat → BitVec w) (i : Nat) :
    (fromLanes w k f).getLsbD i = (decide (i < w * k) && (f (i / w)).getLsbD (i % w)) := by
  induction k with
  | zero => simp [fromLanes]
  | succ k ih =>
    rw [fromLanes, BitVec.getLsbD_cast, BitVec.getLsbD_append, ih]
    by_cases h : i < w * k
    · have : i < w * (k + 1) := by rw [Nat.mul_succ]; omega
      simp [h, this]
    · rw [if_neg h]
      by_cases h2 : i < w * (k + 1)
      · have hw : 0 < w := by
          rcases Nat.eq_zero_or_pos w with rfl | h'
          · simp at h2
          · exact h'
        have hd : i / w = k := by
          apply Nat.div_eq_of_lt_le
          · rw [Nat.mul_comm]; omega
          · rw [Nat.mul_comm]; omega
        have hm : i % w = i - w * k := by
          have := Nat.div_add_mod i w
          rw [hd] at this; omega
        simp [h2, hd, hm]
      · rw [Nat.mul_succ] at h2
        simp only [Nat.mul_succ, h2, decide_false, Bool.false_and]
        apply BitVec.getLsbD_of_ge; omega

theorem getLsbD_lane (w : Nat) {n : Nat} (x : BitVec n) (i j : Nat) :
    (lane w x i).getLsbD j = (decide (j < w) && x.getLsbD (w * i + j)) := by
  simp [lane]

theorem lane_fromLanes (w k : Nat) (f : Nat → BitVec w) (i : Nat) (h : i < k) :
    lane w (fromLanes w k f) i = f i := by
  apply BitVec.eq_of_getLsbD_eq
  intro j hj
  rw [getLsbD_lane, getLsbD_fromLanes]
  have h1 : w * i + j < w * k := by
    have := Nat.mul_le_mul_left w (Nat.succ_le_of_lt h)
    rw [Nat.mul_succ] at this; omega
  have h2 : (w * i + j) / w = i := by
    rw [Nat.mul_add_div (by omega), Nat.div_eq_of_lt hj]; omega
  have h3 : (w * i + j) % w = j := by
    rw [Nat.mul_add_mod, Nat.mod_eq_of_lt hj]
  simp [hj, h1, h2, h3]

theorem lanes_ext (w k : Nat) {x y : BitVec (w * k)} (h : ∀ i < k, lane w x i = lane w y i) :
    x = y := by
  apply BitVec.eq_of_getLsbD_eq
  intro j hj
  have hw : 0 < w := by
    rcases Nat.eq_zero_or_pos w with rfl | h'
    · simp at hj
    · exact h'
  have hi : j / w < k := Nat.div_lt_of_lt_mul hj
  have := congrArg (fun v => v.getLsbD (j % w)) (h (j / w) hi)
  simp only [getLsbD_lane, Nat.mod_lt _ hw, decide_true, Bool.true_and, Nat.div_add_mod] at this
  exact this

theorem fromLanes_lane (w k : Nat) (x : BitVec (w * k)) : fromLanes w k (lane w x) = x :=
  lanes_ext w k fun i hi => lane_fromLanes w k _ i hi

theorem fromLanes_congr (w k : Nat) {f g : Nat → BitVec w} (h : ∀ i < k, f i = g i) :
    fromLanes w k f = fromLanes w k g :=
  lanes_ext w k fun i hi => by rw [lane_fromLanes _ _ _ _ hi, lane_fromLanes _ _ _ _ hi, h i hi]

/-- a narrower lane of a register given by wider lanes -/
theorem lane_sub (u m : Nat) {n : Nat} (x : BitVec n) (i : Nat) (hm : 0 < m) :
    lane u x i = lane u (lane (u * m) x (i / m)) (i % m) := by
  apply BitVec.eq_of_getLsbD_eq
  intro j hj
  simp only [getLsbD_lane, hj, decide_true, Bool.true_and]
  have h1 : u * (i % m) + j < u * m := by
    have := Nat.mul_le_mul_left u (Nat.succ_le_of_lt (Nat.mod_lt i hm))
    rw [Nat.mul_succ] at this; omega
  have h2 : u * m * (i / m) + (u * (i % m) + j) = u * i + j := by
    have := Nat.div_add_mod i m
    have h3 : u * i = u * (m * (i / m) + i % m) := by rw [this]
    rw [Nat.mul_add, ← Nat.mul_assoc] at h3
    omega
  simp [h1, h2]

theorem lane_lane (u m : Nat) {n : Nat} (x : BitVec n) (i j : Nat) (hj : j < m) :
    lane u (lane (u * m) x i) j = lane u x (m * i + j) := by
  rw [lane_sub u m x (m * i + j) (by omega)]
  rw [Nat.mul_add_div (by omega), Nat.div_eq_of_lt hj, Nat.mul_add_mod, Nat.mod_eq_of_lt hj]
  rfl

/-! ## words of 128-bit registers -/

theorem lane_setr0 (a b c d : Word) : lane 32 (mm_setr_epi32 a b c d) 0 = a :=
  lane_fromLanes 32 4 _ 0 (by decide)
theorem lane_setr1 (a b c d : Word) : lane 32 (mm_setr_epi32 a b c d) 1 = b :=
  lane_fromLanes 32 4 _ 1 (by decide)
theorem lane_setr2 (a b c d : Word) : lane 32 (mm_setr_epi32 a b c d) 2 = c :=
  lane_fromLanes 32 4 _ 2 (by decide)
theorem lane_setr3 (a b c d : Word) : lane 32 (mm_setr_epi32 a b c d) 3 = d :=
  lane_fromLanes 32 4 _ 3 (by decide)

theorem ext4 {x : M128} {a b c d : Word} (h0 : lane 32 x 0 = a) (h1 : lane 32 x 1 = b)
    (h2 : lane 32 x 2 = c) (h3 : lane 32 x 3 = d) : x = mm_setr_epi32 a b c d := by
  apply lanes_ext 32 4
  intro i hi
  rcases i with _|_|_|_|i
  · rw [lane_setr0, ← h0]
  · rw [lane_setr1, ← h1]
  · rw [lane_setr2, ← h2]
  · rw [lane_setr3, ← h3]
  · omega

theorem eta4 (x : M128) :
    x = mm_setr_epi32 (lane 32 x 0) (lane 32 x 1) (lane 32 x 2) (lane 32 x 3) :=
  ext4 rfl rfl rfl rfl

theorem lane_add (a b : M128) (i : Nat) (hi : i < 4) :
    lane 32 (mm_add_epi32 a b) i = lane 32 a i + lane 32 b i := lane_fromLanes 32 4 _ i hi

theorem lane_xor {n : Nat} (w : Nat) (a b : BitVec n) (i : Nat) :
    lane w (a ^^^ b) i = lane w a i ^^^ lane w b i := by
  apply BitVec.eq_of_getLsbD_eq; intro j hj
  simp only [getLsbD_lane, BitVec.getLsbD_xor, BitVec.getLsbD_or, hj, decide_true, Bool.true_and]

theorem lane_or {n : Nat} (w : Nat) (a b : BitVec n) (i : Nat) :
    lane w (a ||| b) i = lane w a i ||| lane w b i := by
  apply BitVec.eq_of_getLsbD_eq; intro j hj
  simp only [getLsbD_lane, BitVec.getLsbD_xor, BitVec.getLsbD_or, hj, decide_true, Bool.true_and]

theorem lane_set1 (x : Word) (i : Nat) (hi : i < 4) : lane 32 (mm_set1_epi32 x) i = x :=
  lane_fromLanes 32 4 _ i hi

theorem lane_srli (a : M128) (n i : Nat) (hi : i < 4) :
    lane 32 (mm_srli_epi32 a n) i = lane 32 a i >>> n := lane_fromLanes 32 4 _ i hi
theorem lane_slli (a : M128) (n i : Nat) (hi : i < 4) :
    lane 32 (mm_slli_epi32 a n) i = lane 32 a i <<< n := lane_fromLanes 32 4 _ i hi

/-- rotation of a word as the code computes it with two shifts -/
theorem rot_xor (x : Word) (r : Nat) (h0 : 0 < r) (h : r < 32) :
    (x >>> r) ^^^ (x <<< (32 - r)) = x.rotateRight r := by
  apply BitVec.eq_of_getLsbD_eq; intro i hi
  rw [BitVec.getLsbD_rotateRight_of_lt h]
  simp only [BitVec.getLsbD_xor, BitVec.getLsbD_ushiftRight, BitVec.getLsbD_shiftLeft, hi]
  by_cases h1 : i < 32 - r
  · simp [h1]
  · simp [h1]
    rw [BitVec.getLsbD_of_ge _ (r + i) (by omega)]; simp
    

theorem rot_or (x : Word) (r : Nat) (h0 : 0 < r) (h : r < 32) :
    (x >>> r) ||| (x <<< (32 - r)) = x.rotateRight r := by
  apply BitVec.eq_of_getLsbD_eq; intro i hi
  rw [BitVec.getLsbD_rotateRight_of_lt h]
  simp only [BitVec.getLsbD_or, BitVec.getLsbD_ushiftRight, BitVec.getLsbD_shiftLeft, hi]
  by_cases h1 : i < 32 - r
  · simp [h1]
  · simp [h1]
    rw [BitVec.getLsbD_of_ge _ (r + i) (by omega)]; simp

/-- bytes of a word rotated by whole bytes -/
theorem lane8_rotateRight (x : Word) (k j : Nat) (hk : k < 4) (hj : j < 4) :
    lane 8 (x.rotateRight (8 * k)) j = lane 8 x ((j + k) % 4) := by
  apply BitVec.eq_of_getLsbD_eq; intro i hi
  rw [getLsbD_lane, getLsbD_lane, BitVec.getLsbD_rotateRight_of_lt (by omega)]
  by_cases h : j + k < 4
  · have h1 : 8 * j + i < 32 - 8 * k := by omega
    simp only [Nat.mod_eq_of_lt h, h1, hi, decide_true, cond_true, Bool.true_and]
    congr 1; omega
  · have h1 : ¬ (8 * j + i < 32 - 8 * k) := by omega
    have h2 : 8 * j + i < 32 := by omega
    simp only [show (j + k) % 4 = j + k - 4 by omega, h1, h2, hi, decide_true, decide_false,
      cond_false, Bool.true_and]
    congr 1; omega

/-- PSHUFB with a mask that rotates every word right by `k` bytes -/
theorem lane_shuffle8_rot (x m : M128) (k : Nat) (hk : k < 4)
    (hm : ∀ i < 16, (lane 8 m i).msb = false ∧
      (lane 8 m i).toNat % 16 = 4 * (i / 4) + (i % 4 + k) % 4) (i : Nat) (hi : i < 4) :
    lane 32 (mm_shuffle_epi8 x m) i = (lane 32 x i).rotateRight (8 * k) := by
  apply lanes_ext 8 4
  intro j hj
  rw [lane8_rotateRight _ _ _ hk hj]
  have h1 : lane 8 (lane 32 (mm_shuffle_epi8 x m) i) j = lane 8 (mm_shuffle_epi8 x m) (4 * i + j) :=
    lane_lane 8 4 _ i j hj
  have h2 : lane 8 (lane 32 x i) ((j + k) % 4) = lane 8 x (4 * i + (j + k) % 4) :=
    lane_lane 8 4 _ i _ (by omega)
  rw [h1, h2]
  have h3 : lane 8 (mm_shuffle_epi8 x m) (4 * i + j) = _ :=
    lane_fromLanes 8 16 _ (4 * i + j) (by omega)
  rw [h3]
  obtain ⟨h4, h5⟩ := hm (4 * i + j) (by omega)
  rw [h4, h5, show (4 * i + j) / 4 = i by omega, show (4 * i + j) % 4 = j by omega]
  simp

theorem lane_set8 (bs : Vector Nat 16) (i : Nat) (hi : i < 16) :
    lane 8 (mm_set_epi8 bs) i = BitVec.ofNat 8 (bs.toList.getD (15 - i) 0) :=
  lane_fromLanes 8 16 _ i hi

theorem mask16 : ∀ i < 16,
    (lane 8 (mm_set_epi8 #v[13, 12, 15, 14, 9, 8, 11, 10, 5, 4, 7, 6, 1, 0, 3, 2]) i).msb = false ∧
      (lane 8 (mm_set_epi8 #v[13, 12, 15, 14, 9, 8, 11, 10, 5, 4, 7, 6, 1, 0, 3, 2]) i).toNat % 16 =
        4 * (i / 4) + (i % 4 + 2) % 4 := by
  intro i hi
  rw [lane_set8 _ i hi]
  revert i
  decide

theorem mask8 : ∀ i < 16,
    (lane 8 (mm_set_epi8 #v[12, 15, 14, 13, 8, 11, 10, 9, 4, 7, 6, 5, 0, 3, 2, 1]) i).msb = false ∧
      (lane 8 (mm_set_epi8 #v[12, 15, 14, 13, 8, 11, 10, 9, 4, 7, 6, 5, 0, 3, 2, 1]) i).toNat % 16 =
        4 * (i / 4) + (i % 4 + 1) % 4 := by
  intro i hi
  rw [lane_set8 _ i hi]
  revert i
  decide

/-! ## shuffles of whole words -/

theorem lane_shuffle32 (a : M128) (imm i : Nat) (hi : i < 4) :
    lane 32 (mm_shuffle_epi32 a imm) i = lane 32 a (imm2 imm i) := lane_fromLanes 32 4 _ i hi

theorem lane_shuffle_ps (a b : M128) (imm i : Nat) (hi : i < 4) :
    lane 32 (mm_shuffle_ps a b imm) i =
      if i < 2 then lane 32 a (imm2 imm i) else lane 32 b (imm2 imm i) := lane_fromLanes 32 4 _ i hi

theorem lane_blend (a b : M128) (imm i : Nat) (hi : i < 4)
    (h : imm.testBit (2 * i) = imm.testBit (2 * i + 1)) :
    lane 32 (mm_blend_epi16 a b imm) i = if imm.testBit (2 * i) then lane 32 b i else lane 32 a i := by
  apply lanes_ext 16 2
  intro j hj
  have h1 : lane 16 (lane 32 (mm_blend_epi16 a b imm) i) j =
      lane 16 (mm_blend_epi16 a b imm) (2 * i + j) := lane_lane 16 2 _ i j hj
  have h2 : lane 16 (mm_blend_epi16 a b imm) (2 * i + j) = _ :=
    lane_fromLanes 16 8 _ (2 * i + j) (by omega)
  rw [h1, h2]
  have h3 : imm.testBit (2 * i + j) = imm.testBit (2 * i) := by
    rcases j with _|_|j
    · rfl
    · exact h.symm
    · omega
  rw [h3]
  split
  · exact (lane_lane 16 2 b i j hj).symm
  · exact (lane_lane 16 2 a i j hj).symm

theorem lane_slli_si128 (a : M128) (k i : Nat) (hi : i < 4) :
    lane 32 (mm_slli_si128 a (4 * k)) i = if k ≤ i then lane 32 a (i - k) else 0 := by
  apply BitVec.eq_of_getLsbD_eq; intro j hj
  rw [getLsbD_lane, mm_slli_si128, BitVec.getLsbD_shiftLeft]
  split
  · rw [getLsbD_lane]
    simp only [hj, decide_true, Bool.true_and, show 32 * i + j < 128 by omega,
      show ¬ (32 * i + j < 8 * (4 * k)) by omega, decide_false, Bool.not_false]
    congr 1; omega
  · simp only [hj, decide_true, Bool.true_and, show (32 * i + j < 8 * (4 * k)) by omega,
      Bool.not_true, Bool.and_false, Bool.false_and]
    simp

theorem lane_srli_si128 (a : M128) (k i : Nat) (hi : i < 4) :
    lane 32 (mm_srli_si128 a (4 * k)) i = if i + k < 4 then lane 32 a (i + k) else 0 := by
  apply BitVec.eq_of_getLsbD_eq; intro j hj
  rw [getLsbD_lane, mm_srli_si128, BitVec.getLsbD_ushiftRight]
  split
  · rw [getLsbD_lane]
    simp only [hj, decide_true, Bool.true_and]
    congr 1; omega
  · rw [BitVec.getLsbD_of_ge _ _ (by omega)]; simp

theorem lane_alignr (a b : M128) (k i : Nat) (hi : i < 4) (hk : k ≤ 4) :
    lane 32 (mm_alignr_epi8 a b (4 * k)) i =
      if i + k < 4 then lane 32 b (i + k) else lane 32 a (i + k - 4) := by
  apply BitVec.eq_of_getLsbD_eq; intro j hj
  rw [getLsbD_lane, mm_alignr_epi8, BitVec.getLsbD_setWidth, BitVec.getLsbD_ushiftRight,
    BitVec.getLsbD_append]
  by_cases h : i + k < 4
  · rw [if_pos h, if_pos (by omega), getLsbD_lane]
    simp only [hj, decide_true, Bool.true_and, show 32 * i + j < 128 by omega]
    congr 1; omega
  · rw [if_neg h, if_neg (by omega), getLsbD_lane]
    simp only [hj, decide_true, Bool.true_and, show 32 * i + j < 128 by omega]
    rw [show 8 * (4 * k) + (32 * i + j) - 128 = 32 * (i + k - 4) + j by omega]

theorem lane_unpacklo64 (a b : M128) (i : Nat) (hi : i < 4) :
    lane 32 (mm_unpacklo_epi64 a b) i = if i < 2 then lane 32 a i else lane 32 b (i - 2) := by
  have h1 : lane 32 (lane 64 (mm_unpacklo_epi64 a b) (i / 2)) (i % 2) =
      lane 32 (mm_unpacklo_epi64 a b) (2 * (i / 2) + i % 2) := lane_lane 32 2 _ _ _ (by omega)
  rw [show 2 * (i / 2) + i % 2 = i by omega] at h1
  rw [← h1]
  have h2 : lane 64 (mm_unpacklo_epi64 a b) (i / 2) = _ := lane_fromLanes 64 2 _ (i / 2) (by omega)
  rw [h2]
  by_cases h : i < 2
  · rw [if_pos h, show i / 2 = 0 by omega]
    have := lane_lane 32 2 a 0 (i % 2) (by omega)
    rw [show 2 * 0 + i % 2 = i by omega] at this; exact this
  · rw [if_neg h, show i / 2 = 1 by omega]
    have := lane_lane 32 2 b 0 (i % 2) (by omega)
    rw [show 2 * 0 + i % 2 = i - 2 by omega] at this; exact this

theorem lane_unpackhi64 (a b : M128) (i : Nat) (hi : i < 4) :
    lane 32 (mm_unpackhi_epi64 a b) i = if i < 2 then lane 32 a (i + 2) else lane 32 b i := by
  have h1 : lane 32 (lane 64 (mm_unpackhi_epi64 a b) (i / 2)) (i % 2) =
      lane 32 (mm_unpackhi_epi64 a b) (2 * (i / 2) + i % 2) := lane_lane 32 2 _ _ _ (by omega)
  rw [show 2 * (i / 2) + i % 2 = i by omega] at h1
  rw [← h1]
  have h2 : lane 64 (mm_unpackhi_epi64 a b) (i / 2) = _ := lane_fromLanes 64 2 _ (i / 2) (by omega)
  rw [h2]
  by_cases h : i < 2
  · rw [if_pos h, show i / 2 = 0 by omega]
    have := lane_lane 32 2 a 1 (i % 2) (by omega)
    rw [show 2 * 1 + i % 2 = i + 2 by omega] at this; exact this
  · rw [if_neg h, show i / 2 = 1 by omega]
    have := lane_lane 32 2 b 1 (i % 2) (by omega)
    rw [show 2 * 1 + i % 2 = i by omega] at this; exact this

end Baokeshed.Proofs
