import Verif.Proofs.Transposed

/-! # `sse41::compress` and `sse41::compress_xof` equal the portable functions -/

set_option linter.unusedVariables false
set_option linter.unusedSimpArgs false

namespace Baokeshed.Proofs
open Baokeshed.Model

/-! ## operations on registers given by their four words -/

theorem pack_add (a b c d a' b' c' d' : Word) :
    Sse41.add (mm_setr_epi32 a b c d) (mm_setr_epi32 a' b' c' d') =
      mm_setr_epi32 (a + a') (b + b') (c + c') (d + d') := by
  apply ext4 <;>
    simp only [Sse41.add, lane_add _ _ _ (show 0 < 4 by decide), lane_add _ _ _ (show 1 < 4 by decide),
      lane_add _ _ _ (show 2 < 4 by decide), lane_add _ _ _ (show 3 < 4 by decide),
      lane_setr0, lane_setr1, lane_setr2, lane_setr3]

theorem pack_xor (a b c d a' b' c' d' : Word) :
    Sse41.xor (mm_setr_epi32 a b c d) (mm_setr_epi32 a' b' c' d') =
      mm_setr_epi32 (a ^^^ a') (b ^^^ b') (c ^^^ c') (d ^^^ d') := by
  apply ext4 <;>
    simp only [Sse41.xor, mm_xor_si128, lane_xor, lane_setr0, lane_setr1, lane_setr2, lane_setr3]

theorem lane_rot16 (x : M128) (i : Nat) (hi : i < 4) :
    lane 32 (Sse41.rot16 x) i = (lane 32 x i).rotateRight 16 :=
  lane_shuffle8_rot x _ 2 (by decide) mask16 i hi

theorem lane_rot8 (x : M128) (i : Nat) (hi : i < 4) :
    lane 32 (Sse41.rot8 x) i = (lane 32 x i).rotateRight 8 :=
  lane_shuffle8_rot x _ 1 (by decide) mask8 i hi

theorem lane_rot12 (x : M128) (i : Nat) (hi : i < 4) :
    lane 32 (Sse41.rot12 x) i = (lane 32 x i).rotateRight 12 := by
  rw [Sse41.rot12, Sse41.xor, mm_xor_si128, lane_xor, lane_srli _ _ _ hi, lane_slli _ _ _ hi]
  exact rot_xor _ 12 (by decide) (by decide)

theorem lane_rot7 (x : M128) (i : Nat) (hi : i < 4) :
    lane 32 (Sse41.rot7 x) i = (lane 32 x i).rotateRight 7 := by
  rw [Sse41.rot7, Sse41.xor, mm_xor_si128, lane_xor, lane_srli _ _ _ hi, lane_slli _ _ _ hi]
  exact rot_xor _ 7 (by decide) (by decide)

theorem pack_unary (f : M128 → M128) (g : Word → Word)
    (h : ∀ x i, i < 4 → lane 32 (f x) i = g (lane 32 x i)) (a b c d : Word) :
    f (mm_setr_epi32 a b c d) = mm_setr_epi32 (g a) (g b) (g c) (g d) := by
  apply ext4 <;> rw [h _ _ (by decide)]
  · rw [lane_setr0]
  · rw [lane_setr1]
  · rw [lane_setr2]
  · rw [lane_setr3]

theorem pack_rot16 (a b c d : Word) : Sse41.rot16 (mm_setr_epi32 a b c d) =
    mm_setr_epi32 (a.rotateRight 16) (b.rotateRight 16) (c.rotateRight 16) (d.rotateRight 16) :=
  pack_unary Sse41.rot16 (fun w => w.rotateRight 16) lane_rot16 a b c d
theorem pack_rot12 (a b c d : Word) : Sse41.rot12 (mm_setr_epi32 a b c d) =
    mm_setr_epi32 (a.rotateRight 12) (b.rotateRight 12) (c.rotateRight 12) (d.rotateRight 12) :=
  pack_unary Sse41.rot12 (fun w => w.rotateRight 12) lane_rot12 a b c d
theorem pack_rot8 (a b c d : Word) : Sse41.rot8 (mm_setr_epi32 a b c d) =
    mm_setr_epi32 (a.rotateRight 8) (b.rotateRight 8) (c.rotateRight 8) (d.rotateRight 8) :=
  pack_unary Sse41.rot8 (fun w => w.rotateRight 8) lane_rot8 a b c d
theorem pack_rot7 (a b c d : Word) : Sse41.rot7 (mm_setr_epi32 a b c d) =
    mm_setr_epi32 (a.rotateRight 7) (b.rotateRight 7) (c.rotateRight 7) (d.rotateRight 7) :=
  pack_unary Sse41.rot7 (fun w => w.rotateRight 7) lane_rot7 a b c d

/-- select one of four words -/
def pick (a b c d : Word) : Nat → Word
  | 0 => a | 1 => b | 2 => c | _ => d

theorem lane_setr (a b c d : Word) (i : Nat) (hi : i < 4) :
    lane 32 (mm_setr_epi32 a b c d) i = pick a b c d i := by
  rcases i with _|_|_|_|i
  · exact lane_setr0 a b c d
  · exact lane_setr1 a b c d
  · exact lane_setr2 a b c d
  · exact lane_setr3 a b c d
  · omega

theorem imm2_shuffle : ∀ z < 4, ∀ y < 4, ∀ x < 4, ∀ w < 4,
    imm2 (MM_SHUFFLE z y x w) 0 = w ∧ imm2 (MM_SHUFFLE z y x w) 1 = x ∧
    imm2 (MM_SHUFFLE z y x w) 2 = y ∧ imm2 (MM_SHUFFLE z y x w) 3 = z := by decide

theorem pack_shuffle (a b c d : Word) (z y x w : Nat) (hz : z < 4) (hy : y < 4) (hx : x < 4)
    (hw : w < 4) : mm_shuffle_epi32 (mm_setr_epi32 a b c d) (MM_SHUFFLE z y x w) =
    mm_setr_epi32 (pick a b c d w) (pick a b c d x) (pick a b c d y) (pick a b c d z) := by
  obtain ⟨h0, h1, h2, h3⟩ := imm2_shuffle z hz y hy x hx w hw
  apply ext4 <;> rw [lane_shuffle32 _ _ _ (by decide)]
  · rw [h0, lane_setr _ _ _ _ _ hw]
  · rw [h1, lane_setr _ _ _ _ _ hx]
  · rw [h2, lane_setr _ _ _ _ _ hy]
  · rw [h3, lane_setr _ _ _ _ _ hz]

theorem pack_shuffle_ps (a b c d a' b' c' d' : Word) (z y x w : Nat) (hz : z < 4) (hy : y < 4)
    (hx : x < 4) (hw : w < 4) :
    mm_shuffle_ps (mm_setr_epi32 a b c d) (mm_setr_epi32 a' b' c' d') (MM_SHUFFLE z y x w) =
    mm_setr_epi32 (pick a b c d w) (pick a b c d x) (pick a' b' c' d' y) (pick a' b' c' d' z) := by
  obtain ⟨h0, h1, h2, h3⟩ := imm2_shuffle z hz y hy x hx w hw
  apply ext4 <;> rw [lane_shuffle_ps _ _ _ _ (by decide)]
  · rw [if_pos (by decide), h0, lane_setr _ _ _ _ _ hw]
  · rw [if_pos (by decide), h1, lane_setr _ _ _ _ _ hx]
  · rw [if_neg (by decide), h2, lane_setr _ _ _ _ _ hy]
  · rw [if_neg (by decide), h3, lane_setr _ _ _ _ _ hz]

theorem pack_blend (a b c d a' b' c' d' : Word) (imm : Nat)
    (h : ∀ i < 4, imm.testBit (2 * i) = imm.testBit (2 * i + 1)) :
    mm_blend_epi16 (mm_setr_epi32 a b c d) (mm_setr_epi32 a' b' c' d') imm =
    mm_setr_epi32 (if imm.testBit 0 then a' else a) (if imm.testBit 2 then b' else b)
      (if imm.testBit 4 then c' else c) (if imm.testBit 6 then d' else d) := by
  apply ext4 <;> rw [lane_blend _ _ _ _ (by decide) (h _ (by decide))]
  · simp only [lane_setr0, Nat.mul_zero]
  · simp only [lane_setr1, Nat.mul_one]
  · simp only [lane_setr2, Nat.reduceMul]
  · simp only [lane_setr3, Nat.reduceMul]

theorem pack_slli (a b c d : Word) (k : Nat) (hk : k < 4) :
    mm_slli_si128 (mm_setr_epi32 a b c d) (4 * k) =
    mm_setr_epi32 (pick a 0 0 0 k) (pick b a 0 0 k) (pick c b a 0 k) (pick d c b a k) := by
  apply ext4 <;> rw [lane_slli_si128 _ _ _ (by decide)] <;>
  · rcases k with _|_|_|_|k
    · simp only [Nat.zero_le, if_true, Nat.sub_zero, lane_setr0, lane_setr1, lane_setr2, lane_setr3]; rfl
    · simp [lane_setr0, lane_setr1, lane_setr2, lane_setr3, pick]
    · simp [lane_setr0, lane_setr1, lane_setr2, lane_setr3, pick]
    · simp [lane_setr0, lane_setr1, lane_setr2, lane_setr3, pick]
    · omega

theorem pack_srli (a b c d : Word) (k : Nat) (hk : k < 4) :
    mm_srli_si128 (mm_setr_epi32 a b c d) (4 * k) =
    mm_setr_epi32 (pick a b c d k) (pick b c d 0 k) (pick c d 0 0 k) (pick d 0 0 0 k) := by
  apply ext4 <;> rw [lane_srli_si128 _ _ _ (by decide)] <;>
  · rcases k with _|_|_|_|k
    · simp [lane_setr0, lane_setr1, lane_setr2, lane_setr3, pick]
    · simp [lane_setr0, lane_setr1, lane_setr2, lane_setr3, pick]
    · simp [lane_setr0, lane_setr1, lane_setr2, lane_setr3, pick]
    · simp [lane_setr0, lane_setr1, lane_setr2, lane_setr3, pick]
    · omega

theorem pack_unpacklo32 (a b c d a' b' c' d' : Word) :
    mm_unpacklo_epi32 (mm_setr_epi32 a b c d) (mm_setr_epi32 a' b' c' d') = mm_setr_epi32 a a' b b' := by
  simp only [mm_unpacklo_epi32, lane_setr0, lane_setr1]

theorem pack_unpackhi32 (a b c d a' b' c' d' : Word) :
    mm_unpackhi_epi32 (mm_setr_epi32 a b c d) (mm_setr_epi32 a' b' c' d') = mm_setr_epi32 c c' d d' := by
  simp only [mm_unpackhi_epi32, lane_setr2, lane_setr3]

theorem pack_unpacklo64 (a b c d a' b' c' d' : Word) :
    mm_unpacklo_epi64 (mm_setr_epi32 a b c d) (mm_setr_epi32 a' b' c' d') = mm_setr_epi32 a b a' b' := by
  apply ext4 <;> rw [lane_unpacklo64 _ _ _ (by decide)] <;>
    simp [lane_setr0, lane_setr1, lane_setr2, lane_setr3]

theorem pack_unpackhi64 (a b c d a' b' c' d' : Word) :
    mm_unpackhi_epi64 (mm_setr_epi32 a b c d) (mm_setr_epi32 a' b' c' d') = mm_setr_epi32 c d c' d' := by
  apply ext4 <;> rw [lane_unpackhi64 _ _ _ (by decide)] <;>
    simp [lane_setr0, lane_setr1, lane_setr2, lane_setr3]

theorem pack_alignr (a b c d a' b' c' d' : Word) :
    mm_alignr_epi8 (mm_setr_epi32 a b c d) (mm_setr_epi32 a' b' c' d') 4 =
      mm_setr_epi32 b' c' d' a := by
  have h := fun i (hi : i < 4) => lane_alignr (mm_setr_epi32 a b c d) (mm_setr_epi32 a' b' c' d') 1 i hi
    (by decide)
  apply ext4
  · exact (h 0 (by decide)).trans (lane_setr1 _ _ _ _)
  · exact (h 1 (by decide)).trans (lane_setr2 _ _ _ _)
  · exact (h 2 (by decide)).trans (lane_setr3 _ _ _ _)
  · exact (h 3 (by decide)).trans (lane_setr0 _ _ _ _)

/-! ### the immediates that occur -/

macro "blend_imm" : tactic => `(tactic|
  (rw [pack_blend _ _ _ _ _ _ _ _ _ (by decide)]; rfl))

variable (a b c d a' b' c' d' : Word)
local notation "P" => mm_setr_epi32
theorem blend_03 : mm_blend_epi16 (P a b c d) (P a' b' c' d') 0x03 = P a' b c d := by blend_imm
theorem blend_0C : mm_blend_epi16 (P a b c d) (P a' b' c' d') 0x0C = P a b' c d := by blend_imm
theorem blend_0F : mm_blend_epi16 (P a b c d) (P a' b' c' d') 0x0F = P a' b' c d := by blend_imm
theorem blend_30 : mm_blend_epi16 (P a b c d) (P a' b' c' d') 0x30 = P a b c' d := by blend_imm
theorem blend_33 : mm_blend_epi16 (P a b c d) (P a' b' c' d') 0x33 = P a' b c' d := by blend_imm
theorem blend_3C : mm_blend_epi16 (P a b c d) (P a' b' c' d') 0x3C = P a b' c' d := by blend_imm
theorem blend_C0 : mm_blend_epi16 (P a b c d) (P a' b' c' d') 0xC0 = P a b c d' := by blend_imm
theorem blend_C3 : mm_blend_epi16 (P a b c d) (P a' b' c' d') 0xC3 = P a' b c d' := by blend_imm
theorem blend_F0 : mm_blend_epi16 (P a b c d) (P a' b' c' d') 0xF0 = P a b c' d' := by blend_imm
theorem slli_4 : mm_slli_si128 (P a b c d) 4 = P 0 a b c := pack_slli a b c d 1 (by decide)
theorem slli_8 : mm_slli_si128 (P a b c d) 8 = P 0 0 a b := pack_slli a b c d 2 (by decide)
theorem slli_12 : mm_slli_si128 (P a b c d) 12 = P 0 0 0 a := pack_slli a b c d 3 (by decide)
theorem srli_4 : mm_srli_si128 (P a b c d) 4 = P b c d 0 := pack_srli a b c d 1 (by decide)
theorem srli_12 : mm_srli_si128 (P a b c d) 12 = P d 0 0 0 := pack_srli a b c d 3 (by decide)
theorem shuf_0020 : mm_shuffle_epi32 (P a b c d) (MM_SHUFFLE 0 0 2 0) = P a c a a :=
  pack_shuffle a b c d 0 0 2 0 (by decide) (by decide) (by decide) (by decide)
theorem shuf_0123 : mm_shuffle_epi32 (P a b c d) (MM_SHUFFLE 0 1 2 3) = P d c b a :=
  pack_shuffle a b c d 0 1 2 3 (by decide) (by decide) (by decide) (by decide)
theorem shuf_0132 : mm_shuffle_epi32 (P a b c d) (MM_SHUFFLE 0 1 3 2) = P c d b a :=
  pack_shuffle a b c d 0 1 3 2 (by decide) (by decide) (by decide) (by decide)
theorem shuf_0321 : mm_shuffle_epi32 (P a b c d) (MM_SHUFFLE 0 3 2 1) = P b c d a :=
  pack_shuffle a b c d 0 3 2 1 (by decide) (by decide) (by decide) (by decide)
theorem shuf_1032 : mm_shuffle_epi32 (P a b c d) (MM_SHUFFLE 1 0 3 2) = P c d a b :=
  pack_shuffle a b c d 1 0 3 2 (by decide) (by decide) (by decide) (by decide)
theorem shuf_1230 : mm_shuffle_epi32 (P a b c d) (MM_SHUFFLE 1 2 3 0) = P a d c b :=
  pack_shuffle a b c d 1 2 3 0 (by decide) (by decide) (by decide) (by decide)
theorem shuf_2010 : mm_shuffle_epi32 (P a b c d) (MM_SHUFFLE 2 0 1 0) = P a b a c :=
  pack_shuffle a b c d 2 0 1 0 (by decide) (by decide) (by decide) (by decide)
theorem shuf_2013 : mm_shuffle_epi32 (P a b c d) (MM_SHUFFLE 2 0 1 3) = P d b a c :=
  pack_shuffle a b c d 2 0 1 3 (by decide) (by decide) (by decide) (by decide)
theorem shuf_2031 : mm_shuffle_epi32 (P a b c d) (MM_SHUFFLE 2 0 3 1) = P b d a c :=
  pack_shuffle a b c d 2 0 3 1 (by decide) (by decide) (by decide) (by decide)
theorem shuf_2103 : mm_shuffle_epi32 (P a b c d) (MM_SHUFFLE 2 1 0 3) = P d a b c :=
  pack_shuffle a b c d 2 1 0 3 (by decide) (by decide) (by decide) (by decide)
theorem shuf_2130 : mm_shuffle_epi32 (P a b c d) (MM_SHUFFLE 2 1 3 0) = P a d b c :=
  pack_shuffle a b c d 2 1 3 0 (by decide) (by decide) (by decide) (by decide)
theorem shuf_2301 : mm_shuffle_epi32 (P a b c d) (MM_SHUFFLE 2 3 0 1) = P b a d c :=
  pack_shuffle a b c d 2 3 0 1 (by decide) (by decide) (by decide) (by decide)
theorem shuf_3012 : mm_shuffle_epi32 (P a b c d) (MM_SHUFFLE 3 0 1 2) = P c b a d :=
  pack_shuffle a b c d 3 0 1 2 (by decide) (by decide) (by decide) (by decide)
theorem shuf_3102 : mm_shuffle_epi32 (P a b c d) (MM_SHUFFLE 3 1 0 2) = P c a b d :=
  pack_shuffle a b c d 3 1 0 2 (by decide) (by decide) (by decide) (by decide)
theorem shuf_3201 : mm_shuffle_epi32 (P a b c d) (MM_SHUFFLE 3 2 0 1) = P b a c d :=
  pack_shuffle a b c d 3 2 0 1 (by decide) (by decide) (by decide) (by decide)
theorem ps_2020 : mm_shuffle_ps (P a b c d) (P a' b' c' d') (MM_SHUFFLE 2 0 2 0) = P a c a' c' :=
  pack_shuffle_ps a b c d a' b' c' d' 2 0 2 0 (by decide) (by decide) (by decide) (by decide)
theorem ps_3131 : mm_shuffle_ps (P a b c d) (P a' b' c' d') (MM_SHUFFLE 3 1 3 1) = P b d b' d' :=
  pack_shuffle_ps a b c d a' b' c' d' 3 1 3 1 (by decide) (by decide) (by decide) (by decide)

/-! ## rounds -/

/-- rows of a 16-word state -/
def rowsOf (v : Vector Word 16) : Sse41.Rows :=
  ⟨P v[0] v[1] v[2] v[3], P v[4] v[5] v[6] v[7], P v[8] v[9] v[10] v[11], P v[12] v[13] v[14] v[15]⟩

theorem round1_eq (v m : Vector Word 16) :
    Sse41.compress_round1 (P m[0] m[1] m[2] m[3]) (P m[4] m[5] m[6] m[7])
      (P m[8] m[9] m[10] m[11]) (P m[12] m[13] m[14] m[15]) (rowsOf v) =
      rowsOf (Portable.round v m 0) := by
  obtain ⟨a0, a1, a2, a3, a4, a5, a6, a7, a8, a9, a10, a11, a12, a13, a14, a15, rfl⟩ := vec16_ex v
  obtain ⟨m0, m1, m2, m3, m4, m5, m6, m7, m8, m9, m10, m11, m12, m13, m14, m15, rfl⟩ := vec16_ex m
  have e : Portable.round #v[a0, a1, a2, a3, a4, a5, a6, a7, a8, a9, a10, a11, a12, a13, a14, a15] #v[m0, m1, m2, m3, m4, m5, m6, m7, m8, m9, m10, m11, m12, m13, m14, m15] 0 = roundP #v[a0, a1, a2, a3, a4, a5, a6, a7, a8, a9, a10, a11, a12, a13, a14, a15] #v[m0, m1, m2, m3, m4, m5, m6, m7, m8, m9, m10, m11, m12, m13, m14, m15] MSG_SCHEDULE[0] := rfl
  rw [e]
  unfold roundP
  simp only [g_0_4, g_1_5, g_2_6, g_3_7, g_0_5, g_1_6, g_2_7, g_3_4, mixA_eq]
  simp only [Sse41.compress_round1, rowsOf, Sse41.g1, Sse41.g2, Sse41.diagonalize, Sse41.undiagonalize,
    pack_add, pack_xor, pack_rot16, pack_rot12, pack_rot8, pack_rot7, pack_unpacklo32, pack_unpackhi32, pack_unpacklo64, pack_unpackhi64, pack_alignr, blend_03, blend_0C, blend_0F, blend_30, blend_33, blend_3C, blend_C0, blend_C3, blend_F0, slli_4, slli_8, slli_12, srli_4, srli_12, shuf_0020, shuf_0123, shuf_0132, shuf_0321, shuf_1032, shuf_1230, shuf_2010, shuf_2013, shuf_2031, shuf_2103, shuf_2130, shuf_2301, shuf_3012, shuf_3102, shuf_3201, ps_2020, ps_3131]
  rfl

theorem round2_eq (v m : Vector Word 16) :
    Sse41.compress_round2 (P m[0] m[1] m[2] m[3]) (P m[4] m[5] m[6] m[7])
      (P m[8] m[9] m[10] m[11]) (P m[12] m[13] m[14] m[15]) (rowsOf v) =
      rowsOf (Portable.round v m 1) := by
  obtain ⟨a0, a1, a2, a3, a4, a5, a6, a7, a8, a9, a10, a11, a12, a13, a14, a15, rfl⟩ := vec16_ex v
  obtain ⟨m0, m1, m2, m3, m4, m5, m6, m7, m8, m9, m10, m11, m12, m13, m14, m15, rfl⟩ := vec16_ex m
  have e : Portable.round #v[a0, a1, a2, a3, a4, a5, a6, a7, a8, a9, a10, a11, a12, a13, a14, a15] #v[m0, m1, m2, m3, m4, m5, m6, m7, m8, m9, m10, m11, m12, m13, m14, m15] 1 = roundP #v[a0, a1, a2, a3, a4, a5, a6, a7, a8, a9, a10, a11, a12, a13, a14, a15] #v[m0, m1, m2, m3, m4, m5, m6, m7, m8, m9, m10, m11, m12, m13, m14, m15] MSG_SCHEDULE[1] := rfl
  rw [e]
  unfold roundP
  simp only [g_0_4, g_1_5, g_2_6, g_3_7, g_0_5, g_1_6, g_2_7, g_3_4, mixA_eq]
  simp only [Sse41.compress_round2, rowsOf, Sse41.g1, Sse41.g2, Sse41.diagonalize, Sse41.undiagonalize,
    pack_add, pack_xor, pack_rot16, pack_rot12, pack_rot8, pack_rot7, pack_unpacklo32, pack_unpackhi32, pack_unpacklo64, pack_unpackhi64, pack_alignr, blend_03, blend_0C, blend_0F, blend_30, blend_33, blend_3C, blend_C0, blend_C3, blend_F0, slli_4, slli_8, slli_12, srli_4, srli_12, shuf_0020, shuf_0123, shuf_0132, shuf_0321, shuf_1032, shuf_1230, shuf_2010, shuf_2013, shuf_2031, shuf_2103, shuf_2130, shuf_2301, shuf_3012, shuf_3102, shuf_3201, ps_2020, ps_3131]
  rfl

theorem round3_eq (v m : Vector Word 16) :
    Sse41.compress_round3 (P m[0] m[1] m[2] m[3]) (P m[4] m[5] m[6] m[7])
      (P m[8] m[9] m[10] m[11]) (P m[12] m[13] m[14] m[15]) (rowsOf v) =
      rowsOf (Portable.round v m 2) := by
  obtain ⟨a0, a1, a2, a3, a4, a5, a6, a7, a8, a9, a10, a11, a12, a13, a14, a15, rfl⟩ := vec16_ex v
  obtain ⟨m0, m1, m2, m3, m4, m5, m6, m7, m8, m9, m10, m11, m12, m13, m14, m15, rfl⟩ := vec16_ex m
  have e : Portable.round #v[a0, a1, a2, a3, a4, a5, a6, a7, a8, a9, a10, a11, a12, a13, a14, a15] #v[m0, m1, m2, m3, m4, m5, m6, m7, m8, m9, m10, m11, m12, m13, m14, m15] 2 = roundP #v[a0, a1, a2, a3, a4, a5, a6, a7, a8, a9, a10, a11, a12, a13, a14, a15] #v[m0, m1, m2, m3, m4, m5, m6, m7, m8, m9, m10, m11, m12, m13, m14, m15] MSG_SCHEDULE[2] := rfl
  rw [e]
  unfold roundP
  simp only [g_0_4, g_1_5, g_2_6, g_3_7, g_0_5, g_1_6, g_2_7, g_3_4, mixA_eq]
  simp only [Sse41.compress_round3, rowsOf, Sse41.g1, Sse41.g2, Sse41.diagonalize, Sse41.undiagonalize,
    pack_add, pack_xor, pack_rot16, pack_rot12, pack_rot8, pack_rot7, pack_unpacklo32, pack_unpackhi32, pack_unpacklo64, pack_unpackhi64, pack_alignr, blend_03, blend_0C, blend_0F, blend_30, blend_33, blend_3C, blend_C0, blend_C3, blend_F0, slli_4, slli_8, slli_12, srli_4, srli_12, shuf_0020, shuf_0123, shuf_0132, shuf_0321, shuf_1032, shuf_1230, shuf_2010, shuf_2013, shuf_2031, shuf_2103, shuf_2130, shuf_2301, shuf_3012, shuf_3102, shuf_3201, ps_2020, ps_3131]
  rfl

theorem round4_eq (v m : Vector Word 16) :
    Sse41.compress_round4 (P m[0] m[1] m[2] m[3]) (P m[4] m[5] m[6] m[7])
      (P m[8] m[9] m[10] m[11]) (P m[12] m[13] m[14] m[15]) (rowsOf v) =
      rowsOf (Portable.round v m 3) := by
  obtain ⟨a0, a1, a2, a3, a4, a5, a6, a7, a8, a9, a10, a11, a12, a13, a14, a15, rfl⟩ := vec16_ex v
  obtain ⟨m0, m1, m2, m3, m4, m5, m6, m7, m8, m9, m10, m11, m12, m13, m14, m15, rfl⟩ := vec16_ex m
  have e : Portable.round #v[a0, a1, a2, a3, a4, a5, a6, a7, a8, a9, a10, a11, a12, a13, a14, a15] #v[m0, m1, m2, m3, m4, m5, m6, m7, m8, m9, m10, m11, m12, m13, m14, m15] 3 = roundP #v[a0, a1, a2, a3, a4, a5, a6, a7, a8, a9, a10, a11, a12, a13, a14, a15] #v[m0, m1, m2, m3, m4, m5, m6, m7, m8, m9, m10, m11, m12, m13, m14, m15] MSG_SCHEDULE[3] := rfl
  rw [e]
  unfold roundP
  simp only [g_0_4, g_1_5, g_2_6, g_3_7, g_0_5, g_1_6, g_2_7, g_3_4, mixA_eq]
  simp only [Sse41.compress_round4, rowsOf, Sse41.g1, Sse41.g2, Sse41.diagonalize, Sse41.undiagonalize,
    pack_add, pack_xor, pack_rot16, pack_rot12, pack_rot8, pack_rot7, pack_unpacklo32, pack_unpackhi32, pack_unpacklo64, pack_unpackhi64, pack_alignr, blend_03, blend_0C, blend_0F, blend_30, blend_33, blend_3C, blend_C0, blend_C3, blend_F0, slli_4, slli_8, slli_12, srli_4, srli_12, shuf_0020, shuf_0123, shuf_0132, shuf_0321, shuf_1032, shuf_1230, shuf_2010, shuf_2013, shuf_2031, shuf_2103, shuf_2130, shuf_2301, shuf_3012, shuf_3102, shuf_3201, ps_2020, ps_3131]
  rfl

theorem round5_eq (v m : Vector Word 16) :
    Sse41.compress_round5 (P m[0] m[1] m[2] m[3]) (P m[4] m[5] m[6] m[7])
      (P m[8] m[9] m[10] m[11]) (P m[12] m[13] m[14] m[15]) (rowsOf v) =
      rowsOf (Portable.round v m 4) := by
  obtain ⟨a0, a1, a2, a3, a4, a5, a6, a7, a8, a9, a10, a11, a12, a13, a14, a15, rfl⟩ := vec16_ex v
  obtain ⟨m0, m1, m2, m3, m4, m5, m6, m7, m8, m9, m10, m11, m12, m13, m14, m15, rfl⟩ := vec16_ex m
  have e : Portable.round #v[a0, a1, a2, a3, a4, a5, a6, a7, a8, a9, a10, a11, a12, a13, a14, a15] #v[m0, m1, m2, m3, m4, m5, m6, m7, m8, m9, m10, m11, m12, m13, m14, m15] 4 = roundP #v[a0, a1, a2, a3, a4, a5, a6, a7, a8, a9, a10, a11, a12, a13, a14, a15] #v[m0, m1, m2, m3, m4, m5, m6, m7, m8, m9, m10, m11, m12, m13, m14, m15] MSG_SCHEDULE[4] := rfl
  rw [e]
  unfold roundP
  simp only [g_0_4, g_1_5, g_2_6, g_3_7, g_0_5, g_1_6, g_2_7, g_3_4, mixA_eq]
  simp only [Sse41.compress_round5, rowsOf, Sse41.g1, Sse41.g2, Sse41.diagonalize, Sse41.undiagonalize,
    pack_add, pack_xor, pack_rot16, pack_rot12, pack_rot8, pack_rot7, pack_unpacklo32, pack_unpackhi32, pack_unpacklo64, pack_unpackhi64, pack_alignr, blend_03, blend_0C, blend_0F, blend_30, blend_33, blend_3C, blend_C0, blend_C3, blend_F0, slli_4, slli_8, slli_12, srli_4, srli_12, shuf_0020, shuf_0123, shuf_0132, shuf_0321, shuf_1032, shuf_1230, shuf_2010, shuf_2013, shuf_2031, shuf_2103, shuf_2130, shuf_2301, shuf_3012, shuf_3102, shuf_3201, ps_2020, ps_3131]
  rfl

theorem round6_eq (v m : Vector Word 16) :
    Sse41.compress_round6 (P m[0] m[1] m[2] m[3]) (P m[4] m[5] m[6] m[7])
      (P m[8] m[9] m[10] m[11]) (P m[12] m[13] m[14] m[15]) (rowsOf v) =
      rowsOf (Portable.round v m 5) := by
  obtain ⟨a0, a1, a2, a3, a4, a5, a6, a7, a8, a9, a10, a11, a12, a13, a14, a15, rfl⟩ := vec16_ex v
  obtain ⟨m0, m1, m2, m3, m4, m5, m6, m7, m8, m9, m10, m11, m12, m13, m14, m15, rfl⟩ := vec16_ex m
  have e : Portable.round #v[a0, a1, a2, a3, a4, a5, a6, a7, a8, a9, a10, a11, a12, a13, a14, a15] #v[m0, m1, m2, m3, m4, m5, m6, m7, m8, m9, m10, m11, m12, m13, m14, m15] 5 = roundP #v[a0, a1, a2, a3, a4, a5, a6, a7, a8, a9, a10, a11, a12, a13, a14, a15] #v[m0, m1, m2, m3, m4, m5, m6, m7, m8, m9, m10, m11, m12, m13, m14, m15] MSG_SCHEDULE[5] := rfl
  rw [e]
  unfold roundP
  simp only [g_0_4, g_1_5, g_2_6, g_3_7, g_0_5, g_1_6, g_2_7, g_3_4, mixA_eq]
  simp only [Sse41.compress_round6, rowsOf, Sse41.g1, Sse41.g2, Sse41.diagonalize, Sse41.undiagonalize,
    pack_add, pack_xor, pack_rot16, pack_rot12, pack_rot8, pack_rot7, pack_unpacklo32, pack_unpackhi32, pack_unpacklo64, pack_unpackhi64, pack_alignr, blend_03, blend_0C, blend_0F, blend_30, blend_33, blend_3C, blend_C0, blend_C3, blend_F0, slli_4, slli_8, slli_12, srli_4, srli_12, shuf_0020, shuf_0123, shuf_0132, shuf_0321, shuf_1032, shuf_1230, shuf_2010, shuf_2013, shuf_2031, shuf_2103, shuf_2130, shuf_2301, shuf_3012, shuf_3102, shuf_3201, ps_2020, ps_3131]
  rfl

theorem round7_eq (v m : Vector Word 16) :
    Sse41.compress_round7 (P m[0] m[1] m[2] m[3]) (P m[4] m[5] m[6] m[7])
      (P m[8] m[9] m[10] m[11]) (P m[12] m[13] m[14] m[15]) (rowsOf v) =
      rowsOf (Portable.round v m 6) := by
  obtain ⟨a0, a1, a2, a3, a4, a5, a6, a7, a8, a9, a10, a11, a12, a13, a14, a15, rfl⟩ := vec16_ex v
  obtain ⟨m0, m1, m2, m3, m4, m5, m6, m7, m8, m9, m10, m11, m12, m13, m14, m15, rfl⟩ := vec16_ex m
  have e : Portable.round #v[a0, a1, a2, a3, a4, a5, a6, a7, a8, a9, a10, a11, a12, a13, a14, a15] #v[m0, m1, m2, m3, m4, m5, m6, m7, m8, m9, m10, m11, m12, m13, m14, m15] 6 = roundP #v[a0, a1, a2, a3, a4, a5, a6, a7, a8, a9, a10, a11, a12, a13, a14, a15] #v[m0, m1, m2, m3, m4, m5, m6, m7, m8, m9, m10, m11, m12, m13, m14, m15] MSG_SCHEDULE[6] := rfl
  rw [e]
  unfold roundP
  simp only [g_0_4, g_1_5, g_2_6, g_3_7, g_0_5, g_1_6, g_2_7, g_3_4, mixA_eq]
  simp only [Sse41.compress_round7, rowsOf, Sse41.g1, Sse41.g2, Sse41.diagonalize, Sse41.undiagonalize,
    pack_add, pack_xor, pack_rot16, pack_rot12, pack_rot8, pack_rot7, pack_unpacklo32, pack_unpackhi32, pack_unpacklo64, pack_unpackhi64, pack_alignr, blend_03, blend_0C, blend_0F, blend_30, blend_33, blend_3C, blend_C0, blend_C3, blend_F0, slli_4, slli_8, slli_12, srli_4, srli_12, shuf_0020, shuf_0123, shuf_0132, shuf_0321, shuf_1032, shuf_1230, shuf_2010, shuf_2013, shuf_2031, shuf_2103, shuf_2130, shuf_2301, shuf_3012, shuf_3102, shuf_3201, ps_2020, ps_3131]
  rfl

/-! ## registers and memory -/

theorem lane8_leWord (b0 b1 b2 b3 : Byte) :
    lane 8 (leWord b0 b1 b2 b3) 0 = b0 ∧ lane 8 (leWord b0 b1 b2 b3) 1 = b1 ∧
    lane 8 (leWord b0 b1 b2 b3) 2 = b2 ∧ lane 8 (leWord b0 b1 b2 b3) 3 = b3 := by
  refine ⟨?_, ?_, ?_, ?_⟩ <;>
  · apply BitVec.eq_of_getLsbD_eq; intro i hi
    rw [getLsbD_lane]
    simp only [leWord, BitVec.getLsbD_append, hi, decide_true, Bool.true_and]
    repeat' split
    all_goals first | omega | (congr 1; omega)

theorem leBytes_eq (w : Word) : leBytes w = [lane 8 w 0, lane 8 w 1, lane 8 w 2, lane 8 w 3] := rfl

theorem leWord_lanes (w : Word) : leWord (lane 8 w 0) (lane 8 w 1) (lane 8 w 2) (lane 8 w 3) = w := by
  obtain ⟨h0, h1, h2, h3⟩ := lane8_leWord (lane 8 w 0) (lane 8 w 1) (lane 8 w 2) (lane 8 w 3)
  apply lanes_ext 8 4
  intro i hi
  rcases i with _|_|_|_|i
  · exact h0
  · exact h1
  · exact h2
  · exact h3
  · omega

theorem leBytes_leWord (b0 b1 b2 b3 : Byte) : leBytes (leWord b0 b1 b2 b3) = [b0, b1, b2, b3] := by
  obtain ⟨h0, h1, h2, h3⟩ := lane8_leWord b0 b1 b2 b3
  rw [leBytes_eq, h0, h1, h2, h3]

theorem regBytes_eq (k : Nat) {n : Nat} (x : BitVec n) :
    regBytes (4 * k) x = (List.range k).flatMap fun i => leBytes (lane 32 x i) := by
  induction k with
  | zero => rfl
  | succ k ih =>
    have h : ∀ j < 4, lane 8 x (4 * k + j) = lane 8 (lane 32 x k) j := fun j hj =>
      (lane_lane 8 4 x k j hj).symm
    have e : regBytes (4 * (k + 1)) x = regBytes (4 * k) x ++
        [lane 8 x (4 * k + 0), lane 8 x (4 * k + 1), lane 8 x (4 * k + 2), lane 8 x (4 * k + 3)] := by
      simp [regBytes, Nat.mul_succ, List.range_succ]
    rw [e, ih, List.range_succ, List.flatMap_append, h 0 (by decide), h 1 (by decide),
      h 2 (by decide), h 3 (by decide)]
    simp [leBytes_eq]

theorem lane32_fromLanes8 (k : Nat) (f : Nat → Byte) (i : Nat) (hi : i < k) :
    lane 32 (fromLanes 8 (4 * k) f) i =
      leWord (f (4 * i)) (f (4 * i + 1)) (f (4 * i + 2)) (f (4 * i + 3)) := by
  obtain ⟨h0, h1, h2, h3⟩ := lane8_leWord (f (4 * i)) (f (4 * i + 1)) (f (4 * i + 2)) (f (4 * i + 3))
  apply lanes_ext 8 4
  intro j hj
  have e : lane 8 (lane 32 (fromLanes 8 (4 * k) f) i) j = f (4 * i + j) :=
    (lane_lane 8 4 _ i j hj).trans (lane_fromLanes 8 (4 * k) f _ (by omega))
  rw [e]
  rcases j with _|_|_|_|j
  · exact h0.symm
  · exact h1.symm
  · exact h2.symm
  · exact h3.symm
  · omega

theorem lane_loadArr {n : Nat} (p : Vector Byte n) (off : Nat) (h : off + 16 ≤ n) (i : Nat)
    (hi : i < 4) : lane 32 (loadArr p off h) i =
      leWord p[off + 4 * i] p[off + (4 * i + 1)] p[off + (4 * i + 2)] p[off + (4 * i + 3)] := by
  refine (lane32_fromLanes8 4 _ i hi).trans ?_
  simp [List.getD_eq_getElem?_getD]
  rw [Vector.getElem?_eq_getElem (by omega), Vector.getElem?_eq_getElem (by omega),
    Vector.getElem?_eq_getElem (by omega), Vector.getElem?_eq_getElem (by omega)]
  simp

theorem loadArr_cv (cv : Vector Word 8) :
    loadArr (memOfWords cv) 0 = P cv[0] cv[1] cv[2] cv[3] ∧
    loadArr (memOfWords cv) 16 = P cv[4] cv[5] cv[6] cv[7] := by
  obtain ⟨a0, a1, a2, a3, a4, a5, a6, a7, rfl⟩ := vec8_ex cv
  constructor
  · apply ext4 <;> rw [lane_loadArr _ _ _ _ (by decide)]
    · exact leWord_lanes a0
    · exact leWord_lanes a1
    · exact leWord_lanes a2
    · exact leWord_lanes a3
  · apply ext4 <;> rw [lane_loadArr _ _ _ _ (by decide)]
    · exact leWord_lanes a4
    · exact leWord_lanes a5
    · exact leWord_lanes a6
    · exact leWord_lanes a7

theorem loadArr_block (b : Vector Byte 64) :
    loadArr b (0 * 4 * Sse41.DEGREE) = P (Portable.words_from_block b)[0] (Portable.words_from_block b)[1]
      (Portable.words_from_block b)[2] (Portable.words_from_block b)[3] ∧
    loadArr b (1 * 4 * Sse41.DEGREE) = P (Portable.words_from_block b)[4] (Portable.words_from_block b)[5]
      (Portable.words_from_block b)[6] (Portable.words_from_block b)[7] ∧
    loadArr b (2 * 4 * Sse41.DEGREE) = P (Portable.words_from_block b)[8] (Portable.words_from_block b)[9]
      (Portable.words_from_block b)[10] (Portable.words_from_block b)[11] ∧
    loadArr b (3 * 4 * Sse41.DEGREE) = P (Portable.words_from_block b)[12] (Portable.words_from_block b)[13]
      (Portable.words_from_block b)[14] (Portable.words_from_block b)[15] := by
  refine ⟨?_, ?_, ?_, ?_⟩ <;>
  · apply ext4 <;> rw [lane_loadArr _ _ _ _ (by decide)] <;> rfl

theorem sse41_inner_eq (cv : Vector Word 8) (block : Vector Byte 64) (len : Byte) (off : U64)
    (fl : Byte) : Sse41.compress_inner cv block len off fl =
      rowsOf (Portable.compress_inner cv block len off fl) := by
  unfold Sse41.compress_inner Portable.compress_inner
  obtain ⟨h0, h1⟩ := loadArr_cv cv
  obtain ⟨b0, b1, b2, b3⟩ := loadArr_block block
  simp only [h0, h1, b0, b1, b2, b3]
  generalize Portable.words_from_block block = m
  simp only [← round1_eq, ← round2_eq, ← round3_eq, ← round4_eq, ← round5_eq, ← round6_eq, ← round7_eq]
  rfl

theorem regBytes_pack (a b c d : Word) :
    regBytes 16 (P a b c d) = leBytes a ++ leBytes b ++ leBytes c ++ leBytes d := by
  have h := regBytes_eq 4 (P a b c d)
  refine h.trans ?_
  simp only [show List.range 4 = [0, 1, 2, 3] by decide, List.flatMap_cons, List.flatMap_nil,
    lane_setr0, lane_setr1, lane_setr2, lane_setr3, List.append_nil, List.append_assoc]

/-- the output step of `sse41::compress` -/
def sseOut (rows : Sse41.Rows) : Vector Word 8 :=
  wordsOfMem ⟨(regBytes 16 (Sse41.xor rows.row1 rows.row3) ++
    regBytes 16 (Sse41.xor rows.row2 rows.row4)).toArray, by simp [length_regBytes]⟩

theorem sseOut_eq (v : Vector Word 16) :
    sseOut (rowsOf v) = Vector.ofFn fun i : Fin 8 => v[i.val] ^^^ v[i.val + 8] := by
  have h : ∀ (l l' : Bytes) (h : l.toArray.size = 32) (h' : l'.toArray.size = 32), l = l' →
      wordsOfMem ⟨l.toArray, h⟩ = wordsOfMem ⟨l'.toArray, h'⟩ := by
    intro l l' h h' e; subst e; rfl
  unfold sseOut
  rw [h _ ((leBytes (v[0] ^^^ v[8]) ++ leBytes (v[1] ^^^ v[9]) ++ leBytes (v[2] ^^^ v[10]) ++
    leBytes (v[3] ^^^ v[11])) ++ (leBytes (v[4] ^^^ v[12]) ++ leBytes (v[5] ^^^ v[13]) ++
    leBytes (v[6] ^^^ v[14]) ++ leBytes (v[7] ^^^ v[15]))) _ rfl (by
      simp only [rowsOf, pack_xor, regBytes_pack])]
  apply Vector.ext
  intro i hi
  simp only [wordsOfMem, Vector.getElem_ofFn]
  rcases i with _|_|_|_|_|_|_|_|i
  all_goals first | omega | exact leWord_lanes _

theorem sse41_compress_eq (cv : Vector Word 8) (block : Vector Byte 64) (len : Byte) (off : U64)
    (fl : Byte) : Sse41.compress cv block len off fl = Portable.compress cv block len off fl := by
  have e : Sse41.compress cv block len off fl = sseOut (Sse41.compress_inner cv block len off fl) := rfl
  rw [e, sse41_inner_eq, sseOut_eq]
  rfl

/-- the output step of `sse41::compress_xof` -/
def sseXofOut (cv : Vector Word 8) (rows : Sse41.Rows) : Bytes :=
  regBytes 16 (Sse41.xor rows.row1 rows.row3) ++ regBytes 16 (Sse41.xor rows.row2 rows.row4) ++
    regBytes 16 (Sse41.xor rows.row3 (loadArr (memOfWords cv) 0)) ++
    regBytes 16 (Sse41.xor rows.row4 (loadArr (memOfWords cv) 16))

/-- the output step of `portable::compress_xof` -/
def portXofOut (cv : Vector Word 8) (v : Vector Word 16) : Bytes :=
  (((List.finRange 8).map fun i : Fin 8 => v[i.val] ^^^ v[i.val + 8]) ++
    ((List.finRange 8).map fun i : Fin 8 => v[i.val + 8] ^^^ cv[i])).flatMap leBytes

theorem sseXofOut_eq (cv : Vector Word 8) (v : Vector Word 16) :
    sseXofOut cv (rowsOf v) = portXofOut cv v := by
  obtain ⟨h0, h1⟩ := loadArr_cv cv
  have hfin : List.finRange 8 = [0, 1, 2, 3, 4, 5, 6, 7] := by decide
  simp only [sseXofOut, portXofOut, rowsOf, h0, h1, pack_xor, regBytes_pack, hfin]
  rfl

theorem sse41_compress_xof_eq (cv : Vector Word 8) (block : Vector Byte 64) (len : Byte) (off : U64)
    (fl : Byte) :
    Sse41.compress_xof cv block len off fl = Portable.compress_xof cv block len off fl := by
  apply Vector.toList_inj.1
  have e : (Sse41.compress_xof cv block len off fl).toList =
    sseXofOut cv (Sse41.compress_inner cv block len off fl) := by
      simp only [Sse41.compress_xof, Vector.toList_mk]; rfl
  have e' : (Portable.compress_xof cv block len off fl).toList =
    portXofOut cv (Portable.compress_inner cv block len off fl) := by
      simp only [Portable.compress_xof, Vector.toList_mk]; rfl
  rw [e, e', sse41_inner_eq, sseXofOut_eq]

theorem memOfWords_eq (cv : Vector Word 8) : memOfWords cv = bytes_from_state_words cv := by
  obtain ⟨a0, a1, a2, a3, a4, a5, a6, a7, rfl⟩ := vec8_ex cv
  rfl

end Baokeshed.Proofs
