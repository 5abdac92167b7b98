import Verif.Model.Simd64
import Verif.Proofs.HashMany8
import Verif.Proofs.Sse41Compress

/-! # Lane lemmas for the intrinsics of the 64-bit variant -/

set_option linter.unusedVariables false
set_option linter.unusedSimpArgs false

namespace Baokeshed.Proofs.W64
open Baokeshed.Model

/-! ## rotations of a 64-bit word -/

theorem rot_or64 (x : U64) (r : Nat) (h0 : 0 < r) (h : r < 64) :
    (x >>> r) ||| (x <<< (64 - r)) = x.rotateRight r := by
  apply BitVec.eq_of_getLsbD_eq; intro i hi
  rw [BitVec.getLsbD_rotateRight_of_lt h]
  simp only [BitVec.getLsbD_or, BitVec.getLsbD_ushiftRight, BitVec.getLsbD_shiftLeft, hi, decide_true, Bool.true_and]
  by_cases h1 : i < 64 - r
  · simp [h1]
  · have : x.getLsbD (r + i) = false := BitVec.getLsbD_of_ge _ _ (by omega)
    simp [h1, this]

theorem add_self_shl (x : U64) : x + x = x <<< 1 := by
  apply BitVec.eq_of_toNat_eq
  rw [BitVec.toNat_add, BitVec.toNat_shiftLeft, Nat.shiftLeft_eq]
  congr 1; omega

theorem rot63_add (x : U64) : (x >>> 63) ||| (x + x) = x.rotateRight 63 := by
  rw [add_self_shl]; exact rot_or64 x 63 (by decide) (by decide)

/-- pieces of a word rotated by whole pieces -/
theorem lane_rotateRight (w m : Nat) (hw : w * m = 64) (x : U64) (k j : Nat) (hk : k < m) (hj : j < m) :
    lane w (x.rotateRight (w * k)) j = lane w x ((j + k) % m) := by
  have hw0 : 0 < w := by rcases Nat.eq_zero_or_pos w with h | h; · rw [h, Nat.zero_mul] at hw; omega
                         · exact h
  have mono : ∀ a b, a < b → w * a + w ≤ w * b := fun a b h => by
    have := Nat.mul_le_mul_left w (Nat.succ_le_of_lt h); rwa [Nat.mul_succ] at this
  have hk' := mono k m hk
  have hj' := mono j m hj
  apply BitVec.eq_of_getLsbD_eq; intro i hi
  rw [getLsbD_lane, getLsbD_lane, BitVec.getLsbD_rotateRight_of_lt (by omega)]
  have e : w * (j + k) = w * j + w * k := Nat.mul_add ..
  by_cases h : j + k < m
  · have h2 := mono _ _ h
    have h1 : w * j + i < 64 - w * k := by omega
    simp only [Nat.mod_eq_of_lt h, h1, hi, decide_true, cond_true, Bool.true_and]
    congr 1; omega
  · have h2 : w * m ≤ w * (j + k) := Nat.mul_le_mul_left w (by omega)
    have h1 : ¬ (w * j + i < 64 - w * k) := by omega
    have h3 : w * j + i < 64 := by omega
    have h4 : (j + k) % m = j + k - m := by
      rw [Nat.mod_eq_sub_mod (by omega), Nat.mod_eq_of_lt (by omega)]
    have h5 : w * (j + k - m) = w * (j + k) - w * m := Nat.mul_sub ..
    simp only [h4, h1, h3, hi, decide_true, decide_false, cond_false, Bool.true_and]
    congr 1; omega

/-! ## 128-bit -/

theorem lane64_add (a b : M128) (i : Nat) (hi : i < 2) : lane 64 (mm_add_epi64 a b) i = lane 64 a i + lane 64 b i :=
  lane_fromLanes 64 2 _ i hi
theorem lane64_set1 (x : U64) (i : Nat) (hi : i < 2) : lane 64 (mm_set1_epi64x x) i = x := lane_fromLanes 64 2 _ i hi
theorem lane64_set (a b : U64) (i : Nat) (hi : i < 2) : lane 64 (mm_set_epi64x b a) i = #v[a, b][i] := by
  refine (lane_fromLanes 64 2 _ i hi).trans ?_
  rcases i with _|_|i
  all_goals first | rfl | omega
theorem lane64_srli (a : M128) (n i : Nat) (hi : i < 2) : lane 64 (mm_srli_epi64 a n) i = lane 64 a i >>> n :=
  lane_fromLanes 64 2 _ i hi
theorem lane64_ror (a : M128) (n i : Nat) (hi : i < 2) : lane 64 (mm_ror_epi64 a n) i = (lane 64 a i).rotateRight n :=
  lane_fromLanes 64 2 _ i hi
theorem lane64_setr8 (bs : Vector Nat 16) (i : Nat) (hi : i < 16) :
    lane 8 (mm_setr_epi8 bs) i = BitVec.ofNat 8 (bs.toList.getD i 0) := lane_fromLanes 8 16 _ i hi

/-- PSHUFB with a mask that rotates every 64-bit word right by `k` bytes -/
theorem lane64_shuffle8 (x m : M128) (k : Nat) (hk : k < 8)
    (hm : ∀ i < 16, (lane 8 m i).msb = false ∧ (lane 8 m i).toNat % 16 = 8 * (i / 8) + (i % 8 + k) % 8)
    (i : Nat) (hi : i < 2) : lane 64 (mm_shuffle_epi8 x m) i = (lane 64 x i).rotateRight (8 * k) := by
  apply lanes_ext 8 8
  intro j hj
  refine Eq.trans ?_ (lane_rotateRight 8 8 rfl (lane 64 x i) k j hk hj).symm
  have h1 : lane 8 (lane 64 (mm_shuffle_epi8 x m) i) j = lane 8 (mm_shuffle_epi8 x m) (8 * i + j) :=
    lane_lane 8 8 _ i j hj
  have h2 : lane 8 (lane 64 x i) ((j + k) % 8) = lane 8 x (8 * i + (j + k) % 8) :=
    lane_lane 8 8 _ i _ (by omega)
  rw [h2]
  refine h1.trans ?_
  have h3 : lane 8 (mm_shuffle_epi8 x m) (8 * i + j) = _ := lane_fromLanes 8 16 _ (8 * i + j) (by omega)
  rw [h3]
  obtain ⟨h4, h5⟩ := hm (8 * i + j) (by omega)
  rw [h4, h5, show (8 * i + j) / 8 = i by omega, show (8 * i + j) % 8 = j by omega]
  simp

theorem lane64_shuffle32 (x : M128) (i : Nat) (hi : i < 2) :
    lane 64 (mm_shuffle_epi32 x (MM_SHUFFLE 2 3 0 1)) i = (lane 64 x i).rotateRight 32 := by
  apply lanes_ext 32 2
  intro j hj
  refine Eq.trans ?_ (lane_rotateRight 32 2 rfl (lane 64 x i) 1 j (by decide) hj).symm
  refine (lane_lane 32 2 _ i j hj).trans ?_
  refine Eq.trans ?_ (lane_lane 32 2 x i ((j + 1) % 2) (by omega)).symm
  refine (lane_fromLanes 32 4 _ (2 * i + j) (by omega)).trans ?_
  congr 1
  have h : ∀ n < 4, imm2 (MM_SHUFFLE 2 3 0 1) n = 2 * (n / 2) + (n % 2 + 1) % 2 := by decide
  rw [h _ (by omega)]; omega

/-! ## 256-bit -/

theorem lane256_add64 (a b : M256) (i : Nat) (hi : i < 4) :
    lane 64 (mm256_add_epi64 a b) i = lane 64 a i + lane 64 b i := lane_fromLanes 64 4 _ i hi
theorem lane256_set164 (x : U64) (i : Nat) (hi : i < 4) : lane 64 (mm256_set1_epi64x x) i = x :=
  lane_fromLanes 64 4 _ i hi
theorem lane256_setr64 (a b c d : U64) (i : Nat) (hi : i < 4) :
    lane 64 (mm256_setr_epi64x a b c d) i = #v[a, b, c, d][i] := by
  refine (lane_fromLanes 64 4 _ i hi).trans ?_
  rcases i with _|_|_|_|i
  all_goals first | rfl | omega
theorem lane256_srli64 (a : M256) (n i : Nat) (hi : i < 4) : lane 64 (mm256_srli_epi64 a n) i = lane 64 a i >>> n :=
  lane_fromLanes 64 4 _ i hi
theorem lane256_ror64 (a : M256) (n i : Nat) (hi : i < 4) :
    lane 64 (mm256_ror_epi64 a n) i = (lane 64 a i).rotateRight n := lane_fromLanes 64 4 _ i hi
theorem lane256_setr8 (bs : Vector Nat 32) (i : Nat) (hi : i < 32) :
    lane 8 (mm256_setr_epi8 bs) i = BitVec.ofNat 8 (bs.toList.getD i 0) := lane_fromLanes 8 32 _ i hi

theorem lane256_shuffle8 (x m : M256) (k : Nat) (hk : k < 8)
    (hm : ∀ i < 32, (lane 8 m i).msb = false ∧
      i / 16 * 16 + (lane 8 m i).toNat % 16 = 8 * (i / 8) + (i % 8 + k) % 8)
    (i : Nat) (hi : i < 4) : lane 64 (mm256_shuffle_epi8 x m) i = (lane 64 x i).rotateRight (8 * k) := by
  apply lanes_ext 8 8
  intro j hj
  refine Eq.trans ?_ (lane_rotateRight 8 8 rfl (lane 64 x i) k j hk hj).symm
  refine (lane_lane 8 8 _ i j hj).trans ?_
  refine Eq.trans ?_ (lane_lane 8 8 x i ((j + k) % 8) (by omega)).symm
  have h3 : lane 8 (mm256_shuffle_epi8 x m) (8 * i + j) = _ := lane_fromLanes 8 32 _ (8 * i + j) (by omega)
  obtain ⟨h4, h5⟩ := hm (8 * i + j) (by omega)
  refine h3.trans ?_
  rw [h4, h5, if_neg (by decide), show (8 * i + j) / 8 = i by omega, show (8 * i + j) % 8 = j by omega]

/-- 64-bit elements of the 128-bit halves -/
theorem lane64_half {n : Nat} (x : BitVec n) (q j : Nat) (hj : j < 2) : lane 64 x (2 * q + j) = lane 64 (lane 128 x q) j :=
  (lane_lane 64 2 x q j hj).symm

theorem lane256_shuffle32 (x : M256) (i : Nat) (hi : i < 4) :
    lane 64 (mm256_shuffle_epi32 x (MM_SHUFFLE 2 3 0 1)) i = (lane 64 x i).rotateRight 32 := by
  have e : i = 2 * (i / 2) + i % 2 := by omega
  rw [e, lane64_half _ (i / 2) (i % 2) (by omega), lane64_half _ (i / 2) (i % 2) (by omega)]
  have h : lane 128 (mm256_shuffle_epi32 x (MM_SHUFFLE 2 3 0 1)) (i / 2) = _ := lane_fromLanes 128 2 _ (i / 2) (by omega)
  rw [h, lane64_shuffle32 _ _ (by omega)]

theorem lane64_unpacklo (a b : M128) : lane 64 (mm_unpacklo_epi64 a b) 0 = lane 64 a 0 ∧
    lane 64 (mm_unpacklo_epi64 a b) 1 = lane 64 b 0 :=
  ⟨lane_fromLanes 64 2 _ 0 (by decide), lane_fromLanes 64 2 _ 1 (by decide)⟩
theorem lane64_unpackhi (a b : M128) : lane 64 (mm_unpackhi_epi64 a b) 0 = lane 64 a 1 ∧
    lane 64 (mm_unpackhi_epi64 a b) 1 = lane 64 b 1 :=
  ⟨lane_fromLanes 64 2 _ 0 (by decide), lane_fromLanes 64 2 _ 1 (by decide)⟩

theorem half_halves (f : M128 → M128 → M128) (a b : M256) (q : Nat) (hq : q < 2) :
    lane 128 (halves256 f a b) q = f (lane 128 a q) (lane 128 b q) := lane_fromLanes 128 2 _ q hq
theorem half_quarters (f : M128 → M128 → M128) (a b : M512) (q : Nat) (hq : q < 4) :
    lane 128 (quarters512 f a b) q = f (lane 128 a q) (lane 128 b q) := lane_fromLanes 128 4 _ q hq

/-- four 64-bit words -/
abbrev pack4 (a b c d : U64) : M256 := mm256_setr_epi64x a b c d

theorem pack4_0 (a b c d : U64) : lane 64 (pack4 a b c d) 0 = a := lane_fromLanes 64 4 _ 0 (by decide)
theorem pack4_1 (a b c d : U64) : lane 64 (pack4 a b c d) 1 = b := lane_fromLanes 64 4 _ 1 (by decide)
theorem pack4_2 (a b c d : U64) : lane 64 (pack4 a b c d) 2 = c := lane_fromLanes 64 4 _ 2 (by decide)
theorem pack4_3 (a b c d : U64) : lane 64 (pack4 a b c d) 3 = d := lane_fromLanes 64 4 _ 3 (by decide)

theorem pack4_ext {x : M256} {a b c d : U64} (h0 : lane 64 x 0 = a) (h1 : lane 64 x 1 = b) (h2 : lane 64 x 2 = c)
    (h3 : lane 64 x 3 = d) : x = pack4 a b c d := by
  apply lanes_ext 64 4
  intro i hi
  rcases i with _|_|_|_|i
  · rw [pack4_0]; exact h0
  · refine Eq.trans ?_ (pack4_1 a b c d).symm; exact h1
  · refine Eq.trans ?_ (pack4_2 a b c d).symm; exact h2
  · refine Eq.trans ?_ (pack4_3 a b c d).symm; exact h3
  · omega

theorem pack4_eta (x : M256) : x = pack4 (lane 64 x 0) (lane 64 x 1) (lane 64 x 2) (lane 64 x 3) :=
  pack4_ext rfl rfl rfl rfl

/-- the words of a register given by its halves -/
theorem pack4_halves (x : M256) (lo hi : M128) (h0 : lane 128 x 0 = lo) (h1 : lane 128 x 1 = hi) :
    x = pack4 (lane 64 lo 0) (lane 64 lo 1) (lane 64 hi 0) (lane 64 hi 1) := by
  subst h0 h1
  exact pack4_ext (lane64_half x 0 0 (by decide)) (lane64_half x 0 1 (by decide)) (lane64_half x 1 0 (by decide))
    (lane64_half x 1 1 (by decide))

theorem unpacklo256 (a b : M256) : mm256_unpacklo_epi64 a b = pack4 (lane 64 a 0) (lane 64 b 0) (lane 64 a 2) (lane 64 b 2) := by
  unfold mm256_unpacklo_epi64
  rw [pack4_halves _ _ _ (half_halves mm_unpacklo_epi64 a b 0 (by decide)) (half_halves mm_unpacklo_epi64 a b 1 (by decide)),
    (lane64_unpacklo _ _).1, (lane64_unpacklo _ _).2, (lane64_unpacklo _ _).1, (lane64_unpacklo _ _).2,
    ← lane64_half a 0 0 (by decide), ← lane64_half b 0 0 (by decide), ← lane64_half a 1 0 (by decide), ← lane64_half b 1 0 (by decide)]
theorem unpackhi256 (a b : M256) : mm256_unpackhi_epi64 a b = pack4 (lane 64 a 1) (lane 64 b 1) (lane 64 a 3) (lane 64 b 3) := by
  unfold mm256_unpackhi_epi64
  rw [pack4_halves _ _ _ (half_halves mm_unpackhi_epi64 a b 0 (by decide)) (half_halves mm_unpackhi_epi64 a b 1 (by decide)),
    (lane64_unpackhi _ _).1, (lane64_unpackhi _ _).2, (lane64_unpackhi _ _).1, (lane64_unpackhi _ _).2,
    ← lane64_half a 0 1 (by decide), ← lane64_half b 0 1 (by decide), ← lane64_half a 1 1 (by decide), ← lane64_half b 1 1 (by decide)]

theorem perm20 (a b : M256) : mm256_permute2x128_si256 a b 0x20 = pack4 (lane 64 a 0) (lane 64 a 1) (lane 64 b 0) (lane 64 b 1) := by
  rw [pack4_halves (mm256_permute2x128_si256 a b 0x20) (lane 128 a 0) (lane 128 b 0)
    (lane256_permute a b 0x20 0 (by decide)) (lane256_permute a b 0x20 1 (by decide)),
    ← lane64_half a 0 0 (by decide), ← lane64_half a 0 1 (by decide), ← lane64_half b 0 0 (by decide), ← lane64_half b 0 1 (by decide)]
theorem perm31 (a b : M256) : mm256_permute2x128_si256 a b 0x31 = pack4 (lane 64 a 2) (lane 64 a 3) (lane 64 b 2) (lane 64 b 3) := by
  rw [pack4_halves (mm256_permute2x128_si256 a b 0x31) (lane 128 a 1) (lane 128 b 1)
    (lane256_permute a b 0x31 0 (by decide)) (lane256_permute a b 0x31 1 (by decide)),
    ← lane64_half a 1 0 (by decide), ← lane64_half a 1 1 (by decide), ← lane64_half b 1 0 (by decide), ← lane64_half b 1 1 (by decide)]

/-! ## the 4 by 4 transposition -/

theorem tr4_row0 (a b c d : M256) : mm256_permute2x128_si256 (mm256_unpacklo_epi64 a b) (mm256_unpacklo_epi64 c d) 0x20 =
    pack4 (lane 64 a 0) (lane 64 b 0) (lane 64 c 0) (lane 64 d 0) := by
  rw [perm20, unpacklo256, unpacklo256, pack4_0, pack4_0, pack4_1, pack4_1]
theorem tr4_row1 (a b c d : M256) : mm256_permute2x128_si256 (mm256_unpackhi_epi64 a b) (mm256_unpackhi_epi64 c d) 0x20 =
    pack4 (lane 64 a 1) (lane 64 b 1) (lane 64 c 1) (lane 64 d 1) := by
  rw [perm20, unpackhi256, unpackhi256, pack4_0, pack4_0, pack4_1, pack4_1]
theorem tr4_row2 (a b c d : M256) : mm256_permute2x128_si256 (mm256_unpacklo_epi64 a b) (mm256_unpacklo_epi64 c d) 0x31 =
    pack4 (lane 64 a 2) (lane 64 b 2) (lane 64 c 2) (lane 64 d 2) := by
  rw [perm31, unpacklo256, unpacklo256, pack4_2, pack4_2, pack4_3, pack4_3]
theorem tr4_row3 (a b c d : M256) : mm256_permute2x128_si256 (mm256_unpackhi_epi64 a b) (mm256_unpackhi_epi64 c d) 0x31 =
    pack4 (lane 64 a 3) (lane 64 b 3) (lane 64 c 3) (lane 64 d 3) := by
  rw [perm31, unpackhi256, unpackhi256, pack4_2, pack4_2, pack4_3, pack4_3]

theorem vec4_congr {α} {a b c d a' b' c' d' : α} (h0 : a = a') (h1 : b = b') (h2 : c = c') (h3 : d = d') :
    #v[a, b, c, d] = #v[a', b', c', d'] := by subst h0 h1 h2 h3; rfl

/-! ## 512-bit -/

theorem lane512_add64 (a b : M512) (i : Nat) (hi : i < 8) :
    lane 64 (mm512_add_epi64 a b) i = lane 64 a i + lane 64 b i := lane_fromLanes 64 8 _ i hi
theorem lane512_set164 (x : U64) (i : Nat) (hi : i < 8) : lane 64 (mm512_set1_epi64 x) i = x :=
  lane_fromLanes 64 8 _ i hi
theorem lane512_ror64 (a : M512) (n i : Nat) (hi : i < 8) :
    lane 64 (mm512_ror_epi64 a n) i = (lane 64 a i).rotateRight n := lane_fromLanes 64 8 _ i hi

end Baokeshed.Proofs.W64
