import Verif.Proofs.C64.Avx2
import Verif.Model.C64.Avx512

/-! # C, 64-bit variant: the row form of the compression function -/

set_option linter.unusedVariables false
set_option linter.unusedSimpArgs false

namespace Baokeshed.Proofs.W64
open Baokeshed.Model
open Baokeshed.Model.Portable64 (leWord64 leBytes64)
open Baokeshed.Model.C64 (BLOCK_LEN OUT_LEN)
attribute [local irreducible] Spec64.compress Spec64.cvBytes

/-! ## operations on registers given by their four words -/

section pack
variable (a b c d a' b' c' d' : U64)

theorem pk_add : mm256_add_epi64 (pack4 a b c d) (pack4 a' b' c' d') = pack4 (a + a') (b + b') (c + c') (d + d') := by
  apply pack4_ext
  · rw [lane256_add64 _ _ 0 (by decide), pack4_0, pack4_0]
  · rw [lane256_add64 _ _ 1 (by decide), pack4_1, pack4_1]
  · rw [lane256_add64 _ _ 2 (by decide), pack4_2, pack4_2]
  · rw [lane256_add64 _ _ 3 (by decide), pack4_3, pack4_3]

theorem pk_xor : mm256_xor_si256 (pack4 a b c d) (pack4 a' b' c' d') = pack4 (a ^^^ a') (b ^^^ b') (c ^^^ c') (d ^^^ d') := by
  unfold mm256_xor_si256
  apply pack4_ext
  · rw [lane_xor, pack4_0, pack4_0]
  · rw [lane_xor, pack4_1, pack4_1]
  · rw [lane_xor, pack4_2, pack4_2]
  · rw [lane_xor, pack4_3, pack4_3]

theorem pk_unary (f : M256 → M256) (g : U64 → U64) (h : ∀ x i, i < 4 → lane 64 (f x) i = g (lane 64 x i)) :
    f (pack4 a b c d) = pack4 (g a) (g b) (g c) (g d) := by
  apply pack4_ext
  · rw [h _ _ (by decide), pack4_0]
  · rw [h _ _ (by decide), pack4_1]
  · rw [h _ _ (by decide), pack4_2]
  · rw [h _ _ (by decide), pack4_3]

theorem pk_perm (imm : Nat) : mm256_permute4x64_epi64 (pack4 a b c d) imm =
    pack4 (lane 64 (pack4 a b c d) (imm2 imm 0)) (lane 64 (pack4 a b c d) (imm2 imm 1))
      (lane 64 (pack4 a b c d) (imm2 imm 2)) (lane 64 (pack4 a b c d) (imm2 imm 3)) := by
  unfold mm256_permute4x64_epi64
  apply pack4_ext
  · rw [lane_fromLanes 64 4 _ 0 (by decide)]
  · rw [lane_fromLanes 64 4 _ 1 (by decide)]
  · rw [lane_fromLanes 64 4 _ 2 (by decide)]
  · rw [lane_fromLanes 64 4 _ 3 (by decide)]

theorem pk_perm_2103 : mm256_permute4x64_epi64 (pack4 a b c d) (MM_SHUFFLE 2 1 0 3) = pack4 d a b c := by
  rw [pk_perm, show imm2 (MM_SHUFFLE 2 1 0 3) 0 = 3 by decide, show imm2 (MM_SHUFFLE 2 1 0 3) 1 = 0 by decide,
    show imm2 (MM_SHUFFLE 2 1 0 3) 2 = 1 by decide, show imm2 (MM_SHUFFLE 2 1 0 3) 3 = 2 by decide,
    pack4_0, pack4_1, pack4_2, pack4_3]
theorem pk_perm_1032 : mm256_permute4x64_epi64 (pack4 a b c d) (MM_SHUFFLE 1 0 3 2) = pack4 c d a b := by
  rw [pk_perm, show imm2 (MM_SHUFFLE 1 0 3 2) 0 = 2 by decide, show imm2 (MM_SHUFFLE 1 0 3 2) 1 = 3 by decide,
    show imm2 (MM_SHUFFLE 1 0 3 2) 2 = 0 by decide, show imm2 (MM_SHUFFLE 1 0 3 2) 3 = 1 by decide,
    pack4_0, pack4_1, pack4_2, pack4_3]
theorem pk_perm_0321 : mm256_permute4x64_epi64 (pack4 a b c d) (MM_SHUFFLE 0 3 2 1) = pack4 b c d a := by
  rw [pk_perm, show imm2 (MM_SHUFFLE 0 3 2 1) 0 = 1 by decide, show imm2 (MM_SHUFFLE 0 3 2 1) 1 = 2 by decide,
    show imm2 (MM_SHUFFLE 0 3 2 1) 2 = 3 by decide, show imm2 (MM_SHUFFLE 0 3 2 1) 3 = 0 by decide,
    pack4_0, pack4_1, pack4_2, pack4_3]

theorem pk_unpacklo : mm256_unpacklo_epi64 (pack4 a b c d) (pack4 a' b' c' d') = pack4 a a' c c' := by
  rw [unpacklo256, pack4_0, pack4_0, pack4_2, pack4_2]
theorem pk_unpackhi : mm256_unpackhi_epi64 (pack4 a b c d) (pack4 a' b' c' d') = pack4 b b' d d' := by
  rw [unpackhi256, pack4_1, pack4_1, pack4_3, pack4_3]

/-- a blend that keeps pairs of 32-bit elements together -/
theorem lane_blend (x y : M256) (imm i : Nat) (hi : i < 4) (s : Bool) (h0 : imm.testBit (2 * i) = s)
    (h1 : imm.testBit (2 * i + 1) = s) :
    lane 64 (mm256_blend_epi32 x y imm) i = if s then lane 64 y i else lane 64 x i := by
  unfold mm256_blend_epi32
  apply lanes_ext 32 2
  intro j hj
  refine (lane_lane 32 2 _ i j hj).trans ?_
  rw [lane_fromLanes 32 8 _ (2 * i + j) (by omega)]
  have e : imm.testBit (2 * i + j) = s := by
    rcases j with _|_|j
    · exact h0
    · exact h1
    · omega
  rw [e]
  cases s
  · exact (lane_lane 32 2 x i j hj).symm
  · exact (lane_lane 32 2 y i j hj).symm

theorem pk_blendF0 : mm256_blend_epi32 (pack4 a b c d) (pack4 a' b' c' d') 0xF0 = pack4 a b c' d' := by
  apply pack4_ext
  · rw [lane_blend _ _ _ _ (by decide) false (by decide) (by decide)]; exact pack4_0 ..
  · rw [lane_blend _ _ _ _ (by decide) false (by decide) (by decide)]; exact pack4_1 ..
  · rw [lane_blend _ _ _ _ (by decide) true (by decide) (by decide)]; exact pack4_2 ..
  · rw [lane_blend _ _ _ _ (by decide) true (by decide) (by decide)]; exact pack4_3 ..
theorem pk_blend33 : mm256_blend_epi32 (pack4 a b c d) (pack4 a' b' c' d') 0x33 = pack4 a' b c' d := by
  apply pack4_ext
  · rw [lane_blend _ _ _ _ (by decide) true (by decide) (by decide)]; exact pack4_0 ..
  · rw [lane_blend _ _ _ _ (by decide) false (by decide) (by decide)]; exact pack4_1 ..
  · rw [lane_blend _ _ _ _ (by decide) true (by decide) (by decide)]; exact pack4_2 ..
  · rw [lane_blend _ _ _ _ (by decide) false (by decide) (by decide)]; exact pack4_3 ..

theorem lane64_alignr (x y : M128) : lane 64 (mm_alignr_epi8 x y 8) 0 = lane 64 y 1 ∧
    lane 64 (mm_alignr_epi8 x y 8) 1 = lane 64 x 0 := by
  unfold mm_alignr_epi8
  constructor
  · apply BitVec.eq_of_getLsbD_eq; intro j hj
    simp only [getLsbD_lane, hj, decide_true, Bool.true_and, BitVec.getLsbD_setWidth, BitVec.getLsbD_ushiftRight,
      BitVec.getLsbD_append]
    rw [if_pos (by omega)]
    simp only [show 64 * 0 + j < 128 by omega, decide_true, Bool.true_and, show 8 * 8 + (64 * 0 + j) = 64 * 1 + j by omega]
  · apply BitVec.eq_of_getLsbD_eq; intro j hj
    simp only [getLsbD_lane, hj, decide_true, Bool.true_and, BitVec.getLsbD_setWidth, BitVec.getLsbD_ushiftRight,
      BitVec.getLsbD_append]
    rw [if_neg (by omega)]
    simp only [show 64 * 1 + j < 128 by omega, decide_true, Bool.true_and, show 8 * 8 + (64 * 1 + j) - 128 = 64 * 0 + j by omega]

theorem alignr256 (x y : M256) : mm256_alignr_epi8 x y 8 = pack4 (lane 64 y 1) (lane 64 x 0) (lane 64 y 3) (lane 64 x 2) := by
  unfold mm256_alignr_epi8
  rw [pack4_halves _ _ _ (half_halves _ x y 0 (by decide)) (half_halves _ x y 1 (by decide)),
    (lane64_alignr _ _).1, (lane64_alignr _ _).2, (lane64_alignr _ _).1, (lane64_alignr _ _).2,
    ← lane64_half y 0 1 (by decide), ← lane64_half x 0 0 (by decide), ← lane64_half y 1 1 (by decide), ← lane64_half x 1 0 (by decide)]
theorem pk_alignr : mm256_alignr_epi8 (pack4 a b c d) (pack4 a' b' c' d') 8 = pack4 b' a d' c := by
  rw [alignr256, pack4_1, pack4_0, pack4_3, pack4_2]

theorem lane64_swap (x : M128) : lane 64 (mm_shuffle_epi32 x (MM_SHUFFLE 1 0 3 2)) 0 = lane 64 x 1 ∧
    lane 64 (mm_shuffle_epi32 x (MM_SHUFFLE 1 0 3 2)) 1 = lane 64 x 0 := by
  have h : ∀ n < 4, imm2 (MM_SHUFFLE 1 0 3 2) n = 2 * (1 - n / 2) + n % 2 := by decide
  unfold mm_shuffle_epi32
  constructor
  · apply lanes_ext 32 2; intro j hj
    refine (lane_lane 32 2 _ 0 j hj).trans ?_
    rw [lane_fromLanes 32 4 _ _ (by omega), h _ (by omega)]
    refine Eq.trans ?_ (lane_lane 32 2 x 1 j hj).symm
    congr 1; omega
  · apply lanes_ext 32 2; intro j hj
    refine (lane_lane 32 2 _ 1 j hj).trans ?_
    rw [lane_fromLanes 32 4 _ _ (by omega), h _ (by omega)]
    refine Eq.trans ?_ (lane_lane 32 2 x 0 j hj).symm
    congr 1; omega
theorem pk_swap : mm256_shuffle_epi32 (pack4 a b c d) (MM_SHUFFLE 1 0 3 2) = pack4 b a d c := by
  unfold mm256_shuffle_epi32
  rw [pack4_halves _ _ _ (lane_fromLanes 128 2 _ 0 (by decide)) (lane_fromLanes 128 2 _ 1 (by decide)),
    (lane64_swap _).1, (lane64_swap _).2, (lane64_swap _).1, (lane64_swap _).2,
    ← lane64_half _ 0 1 (by decide), ← lane64_half _ 0 0 (by decide), ← lane64_half _ 1 1 (by decide), ← lane64_half _ 1 0 (by decide),
    pack4_1, pack4_0, pack4_3, pack4_2]

end pack

/-- message words `2k` and `2k+1`, twice -/
def mv (m : Vector U64 16) (k : Nat) (h : k < 8) : M256 := pack4 m[2 * k] m[2 * k + 1] m[2 * k] m[2 * k + 1]

theorem broadcast_load (block : Bytes) (h : 128 ≤ block.length) (k : Nat) (hk : k < 8) :
    ∃ y, mm_loadu_si128 block (k * 16) = .ok y ∧
      mm256_broadcastsi128_si256 y = mv (Portable64.words_from_block (Spec64.pad block)) k hk := by
  refine ⟨_, loadBytes_ok 16 block (k * 16) (by omega), ?_⟩
  have w := words_pad block 0
  rw [List.drop_zero] at w
  have l := lane64_fromLanes8 2 (fun i => block.getD (k * 16 + i) 0)
  unfold mm256_broadcastsi128_si256
  rw [pack4_halves _ _ _ (lane_fromLanes 128 2 _ 0 (by decide)) (lane_fromLanes 128 2 _ 1 (by decide)), mv]
  have e0 : lane 64 (fromLanes 8 16 fun i => block.getD (k * 16 + i) 0) 0 =
      (Portable64.words_from_block (Spec64.pad block))[2 * k] := by
    rw [w, Vector.getElem_ofFn]
    refine (l 0 (by decide)).trans ?_
    simp only [wordAt]
    congr 2 <;> omega
  have e1 : lane 64 (fromLanes 8 16 fun i => block.getD (k * 16 + i) 0) 1 =
      (Portable64.words_from_block (Spec64.pad block))[2 * k + 1] := by
    rw [w, Vector.getElem_ofFn]
    refine (l 1 (by decide)).trans ?_
    simp only [wordAt]
    congr 2 <;> omega
  rw [e0, e1]

theorem u64s4_pack (a b c d : U64) : u64s4 (pack4 a b c d) = #v[a, b, c, d] :=
  vec4_congr (pack4_0 ..) (pack4_1 ..) (pack4_2 ..) (pack4_3 ..)

theorem loadU64s_pack (p : List U64) (off : Nat) (h : off + 4 ≤ p.length) (a b c d : U64)
    (h0 : p.getD (off + 0) 0 = a) (h1 : p.getD (off + 1) 0 = b) (h2 : p.getD (off + 2) 0 = c) (h3 : p.getD (off + 3) 0 = d) :
    loadU64s 4 p off = .ok (pack4 a b c d) := by
  rw [loadU64s_ok 4 p off h]
  refine congrArg Except.ok (pack4_ext ?_ ?_ ?_ ?_)
  · rw [lane_fromLanes 64 4 _ 0 (by decide)]; exact h0
  · rw [lane_fromLanes 64 4 _ 1 (by decide)]; exact h1
  · rw [lane_fromLanes 64 4 _ 2 (by decide)]; exact h2
  · rw [lane_fromLanes 64 4 _ 3 (by decide)]; exact h3

theorem bind4 (f : M256 → M256 → M256 → R (Vector U64 4)) (cv : Vector U64 4) (iv : Vector U64 8) :
    (do let a ← loadU64s 4 cv.toList 0; let b ← loadU64s 4 iv.toList 4; let c ← loadU64s 4 iv.toList 0; f a b c) =
      f (pack4 cv[0] cv[1] cv[2] cv[3]) (pack4 iv[4] iv[5] iv[6] iv[7]) (pack4 iv[0] iv[1] iv[2] iv[3]) := by
  rw [loadU64s_pack cv.toList 0 (by simp) cv[0] cv[1] cv[2] cv[3] (by simp) (by simp) (by simp) (by simp), bind_ok,
    loadU64s_pack iv.toList 4 (by simp) iv[4] iv[5] iv[6] iv[7] (by simp) (by simp) (by simp) (by simp), bind_ok,
    loadU64s_pack iv.toList 0 (by simp) iv[0] iv[1] iv[2] iv[3] (by simp) (by simp) (by simp) (by simp), bind_ok]

/-! ## AVX2 -/

namespace Avx2
open Baokeshed.Model.C64.Avx2

/-- rows of a 16-word state -/
def rowsOf (v : Vector U64 16) : Rows :=
  ⟨pack4 v[0] v[1] v[2] v[3], pack4 v[4] v[5] v[6] v[7], pack4 v[8] v[9] v[10] v[11], pack4 v[12] v[13] v[14] v[15]⟩

theorem pk_rot32 (a b c d : U64) : rot32 (pack4 a b c d) =
    pack4 (a.rotateRight 32) (b.rotateRight 32) (c.rotateRight 32) (d.rotateRight 32) :=
  pk_unary a b c d rot32 (fun x => x.rotateRight 32) (fun x i hi => (hom i hi).rot32 x)
theorem pk_rot24 (a b c d : U64) : rot24 (pack4 a b c d) =
    pack4 (a.rotateRight 24) (b.rotateRight 24) (c.rotateRight 24) (d.rotateRight 24) :=
  pk_unary a b c d rot24 (fun x => x.rotateRight 24) (fun x i hi => (hom i hi).rot24 x)
theorem pk_rot16 (a b c d : U64) : rot16 (pack4 a b c d) =
    pack4 (a.rotateRight 16) (b.rotateRight 16) (c.rotateRight 16) (d.rotateRight 16) :=
  pk_unary a b c d rot16 (fun x => x.rotateRight 16) (fun x i hi => (hom i hi).rot16 x)
theorem pk_rot63 (a b c d : U64) : rot63 (pack4 a b c d) =
    pack4 (a.rotateRight 63) (b.rotateRight 63) (c.rotateRight 63) (d.rotateRight 63) :=
  pk_unary a b c d rot63 (fun x => x.rotateRight 63) (fun x i hi => (hom i hi).rot63 x)

/-- one round in row form, given its message vectors -/
def roundR (rows : Rows) (b0 b1 b2 b3 : M256) : Rows :=
  undiagonalize (g2 (g1 (diagonalize (g2 (g1 rows b0) b1)) b2) b3)

theorem roundR_eq (v m : Vector U64 16) (p : Vector (Fin 16) 16) :
    roundR (rowsOf v) (pack4 m[p[0]] m[p[2]] m[p[4]] m[p[6]]) (pack4 m[p[1]] m[p[3]] m[p[5]] m[p[7]])
      (pack4 m[p[14]] m[p[8]] m[p[10]] m[p[12]]) (pack4 m[p[15]] m[p[9]] m[p[11]] m[p[13]]) =
      rowsOf (roundP v m p) := by
  obtain ⟨a0, a1, a2, a3, a4, a5, a6, a7, a8, a9, a10, a11, a12, a13, a14, a15, rfl⟩ := vec16_ex v
  unfold roundP
  generalize m[p[0]] = x0, m[p[1]] = x1, m[p[2]] = x2, m[p[3]] = x3, m[p[4]] = x4, m[p[5]] = x5, m[p[6]] = x6,
    m[p[7]] = x7, m[p[8]] = x8, m[p[9]] = x9, m[p[10]] = x10, m[p[11]] = x11, m[p[12]] = x12, m[p[13]] = x13,
    m[p[14]] = x14, m[p[15]] = x15
  simp only [g_0_4, g_1_5, g_2_6, g_3_7, g_0_5, g_1_6, g_2_7, g_3_4, mixA_eq]
  simp only [roundR, rowsOf, g1, g2, diagonalize, undiagonalize, addv, xorv, pk_add, pk_xor, pk_rot32, pk_rot24, pk_rot16, pk_rot63,
    pk_perm_2103, pk_perm_1032, pk_perm_0321]
  rfl

/-- eight message vectors -/
abbrev withMsg {α} (m : Vector U64 16) (f : M256 → M256 → M256 → M256 → M256 → M256 → M256 → M256 → α) : α :=
  f (mv m 0 (by decide)) (mv m 1 (by decide)) (mv m 2 (by decide)) (mv m 3 (by decide)) (mv m 4 (by decide))
    (mv m 5 (by decide)) (mv m 6 (by decide)) (mv m 7 (by decide))

theorem round1_eq (v m : Vector U64 16) :
    withMsg m compress_round1 (rowsOf v) = rowsOf (Portable64.round v m 0) := by
  have e : Portable64.round v m 0 = roundP v m (Portable64.MSG_SCHEDULE.get 0) := rfl
  rw [e, ← roundR_eq]
  unfold withMsg compress_round1 mv
  simp only [pk_unpacklo, pk_unpackhi, pk_blendF0, pk_blend33, pk_alignr, pk_swap]
  rfl

theorem round2_eq (v m : Vector U64 16) :
    withMsg m compress_round2 (rowsOf v) = rowsOf (Portable64.round v m 1) := by
  have e : Portable64.round v m 1 = roundP v m (Portable64.MSG_SCHEDULE.get 1) := rfl
  rw [e, ← roundR_eq]
  unfold withMsg compress_round2 mv
  simp only [pk_unpacklo, pk_unpackhi, pk_blendF0, pk_blend33, pk_alignr, pk_swap]
  rfl

theorem round3_eq (v m : Vector U64 16) :
    withMsg m compress_round3 (rowsOf v) = rowsOf (Portable64.round v m 2) := by
  have e : Portable64.round v m 2 = roundP v m (Portable64.MSG_SCHEDULE.get 2) := rfl
  rw [e, ← roundR_eq]
  unfold withMsg compress_round3 mv
  simp only [pk_unpacklo, pk_unpackhi, pk_blendF0, pk_blend33, pk_alignr, pk_swap]
  rfl

theorem round4_eq (v m : Vector U64 16) :
    withMsg m compress_round4 (rowsOf v) = rowsOf (Portable64.round v m 3) := by
  have e : Portable64.round v m 3 = roundP v m (Portable64.MSG_SCHEDULE.get 3) := rfl
  rw [e, ← roundR_eq]
  unfold withMsg compress_round4 mv
  simp only [pk_unpacklo, pk_unpackhi, pk_blendF0, pk_blend33, pk_alignr, pk_swap]
  rfl

theorem round5_eq (v m : Vector U64 16) :
    withMsg m compress_round5 (rowsOf v) = rowsOf (Portable64.round v m 4) := by
  have e : Portable64.round v m 4 = roundP v m (Portable64.MSG_SCHEDULE.get 4) := rfl
  rw [e, ← roundR_eq]
  unfold withMsg compress_round5 mv
  simp only [pk_unpacklo, pk_unpackhi, pk_blendF0, pk_blend33, pk_alignr, pk_swap]
  rfl

theorem round6_eq (v m : Vector U64 16) :
    withMsg m compress_round6 (rowsOf v) = rowsOf (Portable64.round v m 5) := by
  have e : Portable64.round v m 5 = roundP v m (Portable64.MSG_SCHEDULE.get 5) := rfl
  rw [e, ← roundR_eq]
  unfold withMsg compress_round6 mv
  simp only [pk_unpacklo, pk_unpackhi, pk_blendF0, pk_blend33, pk_alignr, pk_swap]
  rfl

theorem round7_eq (v m : Vector U64 16) :
    withMsg m compress_round7 (rowsOf v) = rowsOf (Portable64.round v m 6) := by
  have e : Portable64.round v m 6 = roundP v m (Portable64.MSG_SCHEDULE.get 6) := rfl
  rw [e, ← roundR_eq]
  unfold withMsg compress_round7 mv
  simp only [pk_unpacklo, pk_unpackhi, pk_blendF0, pk_blend33, pk_alignr, pk_swap]
  rfl

theorem round8_eq (v m : Vector U64 16) :
    withMsg m compress_round8 (rowsOf v) = rowsOf (Portable64.round v m 7) := by
  have e : Portable64.round v m 7 = roundP v m (Portable64.MSG_SCHEDULE.get 7) := rfl
  rw [e, ← roundR_eq]
  unfold withMsg compress_round8 mv
  simp only [pk_unpacklo, pk_unpackhi, pk_blendF0, pk_blend33, pk_alignr, pk_swap]
  rfl

theorem compress_ok : CompressOk compress_avx2 := by
  intro cv block len off fl h
  unfold compress_avx2
  rw [bind4]
  obtain ⟨y0, l0, b0⟩ := broadcast_load block h 0 (by decide)
  obtain ⟨y1, l1, b1⟩ := broadcast_load block h 1 (by decide)
  obtain ⟨y2, l2, b2⟩ := broadcast_load block h 2 (by decide)
  obtain ⟨y3, l3, b3⟩ := broadcast_load block h 3 (by decide)
  obtain ⟨y4, l4, b4⟩ := broadcast_load block h 4 (by decide)
  obtain ⟨y5, l5, b5⟩ := broadcast_load block h 5 (by decide)
  obtain ⟨y6, l6, b6⟩ := broadcast_load block h 6 (by decide)
  obtain ⟨y7, l7, b7⟩ := broadcast_load block h 7 (by decide)
  rw [l0, bind_ok, l1, bind_ok, l2, bind_ok, l3, bind_ok, l4, bind_ok, l5, bind_ok, l6, bind_ok, l7, bind_ok]
  rw [b0, b1, b2, b3, b4, b5, b6, b7]
  rw [← compressW_eq, compressW_out]
  generalize Portable64.words_from_block (Spec64.pad block) = m
  have e0 : (⟨pack4 cv[0] cv[1] cv[2] cv[3], pack4 C64.IV[4] C64.IV[5] C64.IV[6] C64.IV[7],
      pack4 C64.IV[0] C64.IV[1] C64.IV[2] C64.IV[3], set4 off C64.IV[5] (len.setWidth 64) (fl.setWidth 64)⟩ : Rows) =
      rowsOf (init16 cv (len.setWidth 64) off (fl.setWidth 64)) := by
    rw [iv_eq]; unfold init16; generalize Portable64.IV = iv; rfl
  have out : ∀ s : Vector U64 16, u64s4 (xorv (rowsOf s).a (rowsOf s).b) = out4 s := by
    intro s
    have : xorv (rowsOf s).a (rowsOf s).b = pack4 (s[0] ^^^ s[4]) (s[1] ^^^ s[5]) (s[2] ^^^ s[6]) (s[3] ^^^ s[7]) := pk_xor ..
    rw [this]; exact u64s4_pack ..
  rw [pure_eq]
  refine congrArg Except.ok ?_
  rw [e0]
  have q1 := fun v => round1_eq v m
  have q2 := fun v => round2_eq v m
  have q3 := fun v => round3_eq v m
  have q4 := fun v => round4_eq v m
  have q5 := fun v => round5_eq v m
  have q6 := fun v => round6_eq v m
  have q7 := fun v => round7_eq v m
  have q8 := fun v => round8_eq v m
  unfold withMsg at q1 q2 q3 q4 q5 q6 q7 q8
  rw [q1, q2, q3, q4, q5, q6, q7, q8, out]
  rfl

end Avx2

/-! ## AVX-512 -/

namespace Avx512
open Baokeshed.Model.C64.Avx512

/-- rows of a 16-word state -/
def rowsOf (v : Vector U64 16) : Rows :=
  ⟨pack4 v[0] v[1] v[2] v[3], pack4 v[4] v[5] v[6] v[7], pack4 v[8] v[9] v[10] v[11], pack4 v[12] v[13] v[14] v[15]⟩

theorem pk_rot32 (a b c d : U64) : rot32_256 (pack4 a b c d) =
    pack4 (a.rotateRight 32) (b.rotateRight 32) (c.rotateRight 32) (d.rotateRight 32) :=
  pk_unary a b c d rot32_256 (fun x => x.rotateRight 32) (fun x i hi => lane256_ror64 x 32 i hi)
theorem pk_rot24 (a b c d : U64) : rot24_256 (pack4 a b c d) =
    pack4 (a.rotateRight 24) (b.rotateRight 24) (c.rotateRight 24) (d.rotateRight 24) :=
  pk_unary a b c d rot24_256 (fun x => x.rotateRight 24) (fun x i hi => lane256_ror64 x 24 i hi)
theorem pk_rot16 (a b c d : U64) : rot16_256 (pack4 a b c d) =
    pack4 (a.rotateRight 16) (b.rotateRight 16) (c.rotateRight 16) (d.rotateRight 16) :=
  pk_unary a b c d rot16_256 (fun x => x.rotateRight 16) (fun x i hi => lane256_ror64 x 16 i hi)
theorem pk_rot63 (a b c d : U64) : rot63_256 (pack4 a b c d) =
    pack4 (a.rotateRight 63) (b.rotateRight 63) (c.rotateRight 63) (d.rotateRight 63) :=
  pk_unary a b c d rot63_256 (fun x => x.rotateRight 63) (fun x i hi => lane256_ror64 x 63 i hi)

/-- one round in row form, given its message vectors -/
def roundR (rows : Rows) (b0 b1 b2 b3 : M256) : Rows :=
  undiagonalize (g2 (g1 (diagonalize (g2 (g1 rows b0) b1)) b2) b3)

theorem roundR_eq (v m : Vector U64 16) (p : Vector (Fin 16) 16) :
    roundR (rowsOf v) (pack4 m[p[0]] m[p[2]] m[p[4]] m[p[6]]) (pack4 m[p[1]] m[p[3]] m[p[5]] m[p[7]])
      (pack4 m[p[14]] m[p[8]] m[p[10]] m[p[12]]) (pack4 m[p[15]] m[p[9]] m[p[11]] m[p[13]]) =
      rowsOf (roundP v m p) := by
  obtain ⟨a0, a1, a2, a3, a4, a5, a6, a7, a8, a9, a10, a11, a12, a13, a14, a15, rfl⟩ := vec16_ex v
  unfold roundP
  generalize m[p[0]] = x0, m[p[1]] = x1, m[p[2]] = x2, m[p[3]] = x3, m[p[4]] = x4, m[p[5]] = x5, m[p[6]] = x6,
    m[p[7]] = x7, m[p[8]] = x8, m[p[9]] = x9, m[p[10]] = x10, m[p[11]] = x11, m[p[12]] = x12, m[p[13]] = x13,
    m[p[14]] = x14, m[p[15]] = x15
  simp only [g_0_4, g_1_5, g_2_6, g_3_7, g_0_5, g_1_6, g_2_7, g_3_4, mixA_eq]
  simp only [roundR, rowsOf, g1, g2, diagonalize, undiagonalize, add_256, xor_256, pk_add, pk_xor, pk_rot32, pk_rot24, pk_rot16, pk_rot63,
    pk_perm_2103, pk_perm_1032, pk_perm_0321]
  rfl

/-- eight message vectors -/
abbrev withMsg {α} (m : Vector U64 16) (f : M256 → M256 → M256 → M256 → M256 → M256 → M256 → M256 → α) : α :=
  f (mv m 0 (by decide)) (mv m 1 (by decide)) (mv m 2 (by decide)) (mv m 3 (by decide)) (mv m 4 (by decide))
    (mv m 5 (by decide)) (mv m 6 (by decide)) (mv m 7 (by decide))

theorem round1_eq (v m : Vector U64 16) :
    withMsg m compress_round1 (rowsOf v) = rowsOf (Portable64.round v m 0) := by
  have e : Portable64.round v m 0 = roundP v m (Portable64.MSG_SCHEDULE.get 0) := rfl
  rw [e, ← roundR_eq]
  unfold withMsg compress_round1 mv
  simp only [pk_unpacklo, pk_unpackhi, pk_blendF0, pk_blend33, pk_alignr, pk_swap]
  rfl

theorem round2_eq (v m : Vector U64 16) :
    withMsg m compress_round2 (rowsOf v) = rowsOf (Portable64.round v m 1) := by
  have e : Portable64.round v m 1 = roundP v m (Portable64.MSG_SCHEDULE.get 1) := rfl
  rw [e, ← roundR_eq]
  unfold withMsg compress_round2 mv
  simp only [pk_unpacklo, pk_unpackhi, pk_blendF0, pk_blend33, pk_alignr, pk_swap]
  rfl

theorem round3_eq (v m : Vector U64 16) :
    withMsg m compress_round3 (rowsOf v) = rowsOf (Portable64.round v m 2) := by
  have e : Portable64.round v m 2 = roundP v m (Portable64.MSG_SCHEDULE.get 2) := rfl
  rw [e, ← roundR_eq]
  unfold withMsg compress_round3 mv
  simp only [pk_unpacklo, pk_unpackhi, pk_blendF0, pk_blend33, pk_alignr, pk_swap]
  rfl

theorem round4_eq (v m : Vector U64 16) :
    withMsg m compress_round4 (rowsOf v) = rowsOf (Portable64.round v m 3) := by
  have e : Portable64.round v m 3 = roundP v m (Portable64.MSG_SCHEDULE.get 3) := rfl
  rw [e, ← roundR_eq]
  unfold withMsg compress_round4 mv
  simp only [pk_unpacklo, pk_unpackhi, pk_blendF0, pk_blend33, pk_alignr, pk_swap]
  rfl

theorem round5_eq (v m : Vector U64 16) :
    withMsg m compress_round5 (rowsOf v) = rowsOf (Portable64.round v m 4) := by
  have e : Portable64.round v m 4 = roundP v m (Portable64.MSG_SCHEDULE.get 4) := rfl
  rw [e, ← roundR_eq]
  unfold withMsg compress_round5 mv
  simp only [pk_unpacklo, pk_unpackhi, pk_blendF0, pk_blend33, pk_alignr, pk_swap]
  rfl

theorem round6_eq (v m : Vector U64 16) :
    withMsg m compress_round6 (rowsOf v) = rowsOf (Portable64.round v m 5) := by
  have e : Portable64.round v m 5 = roundP v m (Portable64.MSG_SCHEDULE.get 5) := rfl
  rw [e, ← roundR_eq]
  unfold withMsg compress_round6 mv
  simp only [pk_unpacklo, pk_unpackhi, pk_blendF0, pk_blend33, pk_alignr, pk_swap]
  rfl

theorem round7_eq (v m : Vector U64 16) :
    withMsg m compress_round7 (rowsOf v) = rowsOf (Portable64.round v m 6) := by
  have e : Portable64.round v m 6 = roundP v m (Portable64.MSG_SCHEDULE.get 6) := rfl
  rw [e, ← roundR_eq]
  unfold withMsg compress_round7 mv
  simp only [pk_unpacklo, pk_unpackhi, pk_blendF0, pk_blend33, pk_alignr, pk_swap]
  rfl

theorem round8_eq (v m : Vector U64 16) :
    withMsg m compress_round8 (rowsOf v) = rowsOf (Portable64.round v m 7) := by
  have e : Portable64.round v m 7 = roundP v m (Portable64.MSG_SCHEDULE.get 7) := rfl
  rw [e, ← roundR_eq]
  unfold withMsg compress_round8 mv
  simp only [pk_unpacklo, pk_unpackhi, pk_blendF0, pk_blend33, pk_alignr, pk_swap]
  rfl

theorem compress_ok : CompressOk compress_avx512 := by
  intro cv block len off fl h
  unfold compress_avx512
  rw [bind4]
  obtain ⟨y0, l0, b0⟩ := broadcast_load block h 0 (by decide)
  obtain ⟨y1, l1, b1⟩ := broadcast_load block h 1 (by decide)
  obtain ⟨y2, l2, b2⟩ := broadcast_load block h 2 (by decide)
  obtain ⟨y3, l3, b3⟩ := broadcast_load block h 3 (by decide)
  obtain ⟨y4, l4, b4⟩ := broadcast_load block h 4 (by decide)
  obtain ⟨y5, l5, b5⟩ := broadcast_load block h 5 (by decide)
  obtain ⟨y6, l6, b6⟩ := broadcast_load block h 6 (by decide)
  obtain ⟨y7, l7, b7⟩ := broadcast_load block h 7 (by decide)
  rw [l0, bind_ok, l1, bind_ok, l2, bind_ok, l3, bind_ok, l4, bind_ok, l5, bind_ok, l6, bind_ok, l7, bind_ok]
  rw [b0, b1, b2, b3, b4, b5, b6, b7]
  rw [← compressW_eq, compressW_out]
  generalize Portable64.words_from_block (Spec64.pad block) = m
  have e0 : (⟨pack4 cv[0] cv[1] cv[2] cv[3], pack4 C64.IV[4] C64.IV[5] C64.IV[6] C64.IV[7],
      pack4 C64.IV[0] C64.IV[1] C64.IV[2] C64.IV[3], set4 off C64.IV[5] (len.setWidth 64) (fl.setWidth 64)⟩ : Rows) =
      rowsOf (init16 cv (len.setWidth 64) off (fl.setWidth 64)) := by
    rw [iv_eq]; unfold init16; generalize Portable64.IV = iv; rfl
  have out : ∀ s : Vector U64 16, u64s4 (xor_256 (rowsOf s).a (rowsOf s).b) = out4 s := by
    intro s
    have : xor_256 (rowsOf s).a (rowsOf s).b = pack4 (s[0] ^^^ s[4]) (s[1] ^^^ s[5]) (s[2] ^^^ s[6]) (s[3] ^^^ s[7]) := pk_xor ..
    rw [this]; exact u64s4_pack ..
  rw [pure_eq]
  refine congrArg Except.ok ?_
  rw [e0]
  have q1 := fun v => round1_eq v m
  have q2 := fun v => round2_eq v m
  have q3 := fun v => round3_eq v m
  have q4 := fun v => round4_eq v m
  have q5 := fun v => round5_eq v m
  have q6 := fun v => round6_eq v m
  have q7 := fun v => round7_eq v m
  have q8 := fun v => round8_eq v m
  unfold withMsg at q1 q2 q3 q4 q5 q6 q7 q8
  rw [q1, q2, q3, q4, q5, q6, q7, q8, out]
  rfl

end Avx512

end Baokeshed.Proofs.W64
