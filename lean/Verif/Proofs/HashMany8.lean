import Verif.Model.Avx2
import Verif.Proofs.HashManySse41

/-! # `avx2::hash8` -/

set_option linter.unusedVariables false
set_option linter.unusedSimpArgs false

namespace Baokeshed.Proofs
open Baokeshed.Model

/-! ## 256-bit lanes -/

theorem lane256_set1' (x : Word) (i : Nat) (hi : i < 8) : lane 32 (mm256_set1_epi32 x) i = x :=
  lane_fromLanes 32 8 _ i hi

theorem lane256_set1 (x : Word) (i : Nat) (hi : i < 8) : lane 32 (Avx2.set1 x) i = x := by
  unfold Avx2.set1; exact lane256_set1' x i hi

theorem lane256_add (a b : M256) (i : Nat) (hi : i < 8) :
    lane 32 (mm256_add_epi32 a b) i = lane 32 a i + lane 32 b i := lane_fromLanes 32 8 _ i hi

theorem lane256_srli (a : M256) (n i : Nat) (hi : i < 8) :
    lane 32 (mm256_srli_epi32 a n) i = lane 32 a i >>> n := lane_fromLanes 32 8 _ i hi
theorem lane256_slli (a : M256) (n i : Nat) (hi : i < 8) :
    lane 32 (mm256_slli_epi32 a n) i = lane 32 a i <<< n := lane_fromLanes 32 8 _ i hi

/-- two 128-bit halves -/
def join (lo hi : M128) : M256 := fromLanes 128 2 fun i => match i with | 0 => lo | _ => hi

theorem lane128_join0 (lo hi : M128) : lane 128 (join lo hi) 0 = lo := lane_fromLanes 128 2 _ 0 (by decide)
theorem lane128_join1 (lo hi : M128) : lane 128 (join lo hi) 1 = hi := lane_fromLanes 128 2 _ 1 (by decide)

theorem lane32_join_lo (lo hi : M128) (i : Nat) (h : i < 4) : lane 32 (join lo hi) i = lane 32 lo i := by
  have := lane_lane 32 4 (join lo hi) 0 i h
  rw [show 4 * 0 + i = i by omega] at this
  rw [← this]
  exact congrArg (fun x => lane 32 x i) (lane128_join0 lo hi)

theorem lane32_join_hi (lo hi : M128) (i : Nat) (h : i < 4) : lane 32 (join lo hi) (4 + i) = lane 32 hi i := by
  have := lane_lane 32 4 (join lo hi) 1 i h
  rw [show 4 * 1 + i = 4 + i by omega] at this
  rw [← this]
  exact congrArg (fun x => lane 32 x i) (lane128_join1 lo hi)

/-- eight words, as two packed halves -/
def pack8 (a b c d e f g h : Word) : M256 := join (mm_setr_epi32 a b c d) (mm_setr_epi32 e f g h)

theorem p8_0 (a b c d e f g h : Word) : lane 32 (pack8 a b c d e f g h) 0 = a :=
  (lane32_join_lo _ _ 0 (by decide)).trans (lane_setr0 ..)
theorem p8_1 (a b c d e f g h : Word) : lane 32 (pack8 a b c d e f g h) 1 = b :=
  (lane32_join_lo _ _ 1 (by decide)).trans (lane_setr1 ..)
theorem p8_2 (a b c d e f g h : Word) : lane 32 (pack8 a b c d e f g h) 2 = c :=
  (lane32_join_lo _ _ 2 (by decide)).trans (lane_setr2 ..)
theorem p8_3 (a b c d e f g h : Word) : lane 32 (pack8 a b c d e f g h) 3 = d :=
  (lane32_join_lo _ _ 3 (by decide)).trans (lane_setr3 ..)
theorem p8_4 (a b c d e f g h : Word) : lane 32 (pack8 a b c d e f g h) 4 = e :=
  (lane32_join_hi _ _ 0 (by decide)).trans (lane_setr0 ..)
theorem p8_5 (a b c d e f g h : Word) : lane 32 (pack8 a b c d e f g h) 5 = f :=
  (lane32_join_hi _ _ 1 (by decide)).trans (lane_setr1 ..)
theorem p8_6 (a b c d e f g h : Word) : lane 32 (pack8 a b c d e f g h) 6 = g :=
  (lane32_join_hi _ _ 2 (by decide)).trans (lane_setr2 ..)
theorem p8_7 (a b c d e f g h : Word) : lane 32 (pack8 a b c d e f g h) 7 = h :=
  (lane32_join_hi _ _ 3 (by decide)).trans (lane_setr3 ..)

theorem ext8 {x : M256} {a b c d e f g h : Word} (h0 : lane 32 x 0 = a) (h1 : lane 32 x 1 = b)
    (h2 : lane 32 x 2 = c) (h3 : lane 32 x 3 = d) (h4 : lane 32 x 4 = e) (h5 : lane 32 x 5 = f)
    (h6 : lane 32 x 6 = g) (h7 : lane 32 x 7 = h) : x = pack8 a b c d e f g h := by
  apply lanes_ext 32 8
  intro i hi
  rcases i with _|_|_|_|_|_|_|_|i
  · exact h0.trans (p8_0 ..).symm
  · exact h1.trans (p8_1 ..).symm
  · exact h2.trans (p8_2 ..).symm
  · exact h3.trans (p8_3 ..).symm
  · exact h4.trans (p8_4 ..).symm
  · exact h5.trans (p8_5 ..).symm
  · exact h6.trans (p8_6 ..).symm
  · exact h7.trans (p8_7 ..).symm
  · omega

theorem eta8 (x : M256) : x = pack8 (lane 32 x 0) (lane 32 x 1) (lane 32 x 2) (lane 32 x 3)
    (lane 32 x 4) (lane 32 x 5) (lane 32 x 6) (lane 32 x 7) := ext8 rfl rfl rfl rfl rfl rfl rfl rfl

theorem lane256_setr (a b c d e f g h : Word) (i : Nat) (hi : i < 8) :
    lane 32 (mm256_setr_epi32 a b c d e f g h) i =
      match (generalizing := false) i with
      | 0 => a | 1 => b | 2 => c | 3 => d | 4 => e | 5 => f | 6 => g | _ => h :=
  lane_fromLanes 32 8 _ i hi

theorem set8_eq (a b c d e f g h : Word) : Avx2.set8 a b c d e f g h = pack8 a b c d e f g h := by
  unfold Avx2.set8
  apply ext8 <;> exact lane256_setr _ _ _ _ _ _ _ _ _ (by decide)

theorem halves_join (f : M128 → M128 → M128) (a b c d : M128) :
    halves256 f (join a b) (join c d) = join (f a c) (f b d) := by
  apply lanes_ext 128 2
  intro i hi
  rcases i with _|_|i
  · refine (lane_fromLanes 128 2 _ 0 (by decide)).trans ?_
    rw [lane128_join0, lane128_join0, lane128_join0]
  · refine (lane_fromLanes 128 2 _ 1 (by decide)).trans ?_
    rw [lane128_join1, lane128_join1]; exact (lane128_join1 _ _).symm
  · omega

theorem lane256_permute (a b : M256) (imm i : Nat) (hi : i < 2) :
    lane 128 (mm256_permute2x128_si256 a b imm) i =
      if ((imm >>> (4 * i)) % 16).testBit 3 then 0
      else match (imm >>> (4 * i)) % 16 % 4 with
        | 0 => lane 128 a 0 | 1 => lane 128 a 1 | 2 => lane 128 b 0 | _ => lane 128 b 1 :=
  lane_fromLanes 128 2 _ i hi

theorem ext2 {x : M256} {a b : M128} (h0 : lane 128 x 0 = a) (h1 : lane 128 x 1 = b) : x = join a b := by
  apply lanes_ext 128 2
  intro i hi
  rcases i with _|_|i
  · rw [lane128_join0]; exact h0
  · rw [Nat.zero_add, lane128_join1]; exact h1
  · omega

theorem interleave_join (a b c d : M128) :
    Avx2.interleave128 (join a b) (join c d) = (join a c, join b d) := by
  unfold Avx2.interleave128
  refine Prod.ext (ext2 ?_ ?_) (ext2 ?_ ?_)
  all_goals rw [lane256_permute _ _ _ _ (by decide), if_neg (by decide)]
  · exact lane128_join0 a b
  · exact lane128_join0 c d
  · exact lane128_join1 a b
  · exact lane128_join1 c d

/-! ## rotations -/

theorem lane256_shuffle8_rot (x m : M256) (k : Nat) (hk : k < 4)
    (hm : ∀ i < 32, (lane 8 m i).msb = false ∧
      i / 16 * 16 + (lane 8 m i).toNat % 16 = 4 * (i / 4) + (i % 4 + k) % 4) (i : Nat) (hi : i < 8) :
    lane 32 (mm256_shuffle_epi8 x m) i = (lane 32 x i).rotateRight (8 * k) := by
  apply lanes_ext 8 4
  intro j hj
  have e1 : lane 8 (lane 32 (mm256_shuffle_epi8 x m) i) j = lane 8 (mm256_shuffle_epi8 x m) (4 * i + j) :=
    lane_lane 8 4 _ i j hj
  have e2 : lane 8 (mm256_shuffle_epi8 x m) (4 * i + j) = _ := lane_fromLanes 8 32 _ (4 * i + j) (by omega)
  obtain ⟨h1, h2⟩ := hm (4 * i + j) (by omega)
  refine (e1.trans e2).trans ?_
  rw [h1, if_neg (by decide), h2]
  refine Eq.trans ?_ (lane8_rotateRight (lane 32 x i) k j hk hj).symm
  refine Eq.trans ?_ (lane_lane 8 4 x i ((j + k) % 4) (by omega)).symm
  congr 1
  omega

theorem lane256_set8 (bs : Vector Nat 32) (i : Nat) (hi : i < 32) :
    lane 8 (mm256_set_epi8 bs) i = BitVec.ofNat 8 (bs.toList.getD (31 - i) 0) :=
  lane_fromLanes 8 32 _ i hi

theorem lane256_rot16 (x : M256) (i : Nat) (hi : i < 8) :
    lane 32 (Avx2.rot16 x) i = (lane 32 x i).rotateRight 16 := by
  refine lane256_shuffle8_rot x _ 2 (by decide) ?_ i hi
  intro i hi
  rw [lane256_set8 _ i hi]
  revert i; decide

theorem lane256_rot8 (x : M256) (i : Nat) (hi : i < 8) :
    lane 32 (Avx2.rot8 x) i = (lane 32 x i).rotateRight 8 := by
  refine lane256_shuffle8_rot x _ 1 (by decide) ?_ i hi
  intro i hi
  rw [lane256_set8 _ i hi]
  revert i; decide

theorem lane256_rot12 (x : M256) (i : Nat) (hi : i < 8) :
    lane 32 (Avx2.rot12 x) i = (lane 32 x i).rotateRight 12 := by
  rw [Avx2.rot12, mm256_or_si256, lane_or, lane256_srli _ _ _ hi, lane256_slli _ _ _ hi]
  exact rot_or _ 12 (by decide) (by decide)

theorem lane256_rot7 (x : M256) (i : Nat) (hi : i < 8) :
    lane 32 (Avx2.rot7 x) i = (lane 32 x i).rotateRight 7 := by
  rw [Avx2.rot7, mm256_or_si256, lane_or, lane256_srli _ _ _ hi, lane256_slli _ _ _ hi]
  exact rot_or _ 7 (by decide) (by decide)

def avxOps : Ops M256 where
  add := Avx2.add
  xor := Avx2.xor
  rot16 := Avx2.rot16
  rot12 := Avx2.rot12
  rot8 := Avx2.rot8
  rot7 := Avx2.rot7

theorem avxHom (i : Nat) (hi : i < 8) : LaneHom avxOps (fun x => lane 32 x i) where
  add a b := lane256_add a b i hi
  xor a b := lane_xor 32 a b i
  rot16 a := lane256_rot16 a i hi
  rot12 a := lane256_rot12 a i hi
  rot8 a := lane256_rot8 a i hi
  rot7 a := lane256_rot7 a i hi

theorem avx2_round_eq (v m : Vector M256 16) (r : Fin 7) :
    Avx2.round v m r = avxOps.round v m (MSG_SCHEDULE.get r) := by
  simp only [Avx2.round, Ops.round, avxOps]

theorem hash8_block_eq (h : Vector M256 8) (lo hi len fl : M256) (m : Vector M256 16) :
    Avx2.hash8_block h lo hi len fl m =
      avxOps.block (Avx2.set1 IV[0]) (Avx2.set1 IV[1]) (Avx2.set1 IV[2]) (Avx2.set1 IV[3])
        h lo hi len fl m := by
  unfold Avx2.hash8_block Ops.block
  simp only [avx2_round_eq]
  rfl

theorem hash8_loop_eq (inputs : Vector Bytes 8) (blocks : Nat) (lo hi : M256) (flags fe : Byte)
    (n block : Nat) (h : Vector M256 8) (bf : Byte) :
    Avx2.hash8_loop inputs blocks lo hi flags fe n block h bf =
      loopG (fun b => Avx2.transpose_msg_vecs inputs (b * 64))
        (fun h bf m => Avx2.hash8_block h lo hi (Avx2.set1 (BitVec.ofNat 32 64))
          (Avx2.set1 (bf.setWidth 32)) m) blocks flags fe n block h bf := by
  induction n generalizing block h bf with
  | zero => rfl
  | succ n ih =>
    rw [Avx2.hash8_loop, loopG]
    refine congrArg _ (funext fun m => ?_)
    exact ih _ _ _

/-- column `k` of eight registers -/
def col8 (a b c d e f g h : M256) (k : Nat) : M256 :=
  pack8 (lane 32 a k) (lane 32 b k) (lane 32 c k) (lane 32 d k)
    (lane 32 e k) (lane 32 f k) (lane 32 g k) (lane 32 h k)

/-- the 32-bit and 64-bit interleavings of four registers -/
def quad04 (a b c d : M256) : M256 := mm256_unpacklo_epi64 (mm256_unpacklo_epi32 a b) (mm256_unpacklo_epi32 c d)
def quad15 (a b c d : M256) : M256 := mm256_unpackhi_epi64 (mm256_unpacklo_epi32 a b) (mm256_unpacklo_epi32 c d)
def quad26 (a b c d : M256) : M256 := mm256_unpacklo_epi64 (mm256_unpackhi_epi32 a b) (mm256_unpackhi_epi32 c d)
def quad37 (a b c d : M256) : M256 := mm256_unpackhi_epi64 (mm256_unpackhi_epi32 a b) (mm256_unpackhi_epi32 c d)

theorem transpose8_unfold (a b c d e f g h : M256) : Avx2.transpose_vecs #v[a, b, c, d, e, f, g, h] =
    #v[(Avx2.interleave128 (quad04 a b c d) (quad04 e f g h)).1,
       (Avx2.interleave128 (quad15 a b c d) (quad15 e f g h)).1,
       (Avx2.interleave128 (quad26 a b c d) (quad26 e f g h)).1,
       (Avx2.interleave128 (quad37 a b c d) (quad37 e f g h)).1,
       (Avx2.interleave128 (quad04 a b c d) (quad04 e f g h)).2,
       (Avx2.interleave128 (quad15 a b c d) (quad15 e f g h)).2,
       (Avx2.interleave128 (quad26 a b c d) (quad26 e f g h)).2,
       (Avx2.interleave128 (quad37 a b c d) (quad37 e f g h)).2] := rfl

section quads
variable (a0 a1 a2 a3 a4 a5 a6 a7 b0 b1 b2 b3 b4 b5 b6 b7 c0 c1 c2 c3 c4 c5 c6 c7
    d0 d1 d2 d3 d4 d5 d6 d7 : Word)

theorem quad04_pack : quad04 (pack8 a0 a1 a2 a3 a4 a5 a6 a7) (pack8 b0 b1 b2 b3 b4 b5 b6 b7)
    (pack8 c0 c1 c2 c3 c4 c5 c6 c7) (pack8 d0 d1 d2 d3 d4 d5 d6 d7) =
    join (mm_setr_epi32 a0 b0 c0 d0) (mm_setr_epi32 a4 b4 c4 d4) := by
  unfold quad04 mm256_unpacklo_epi32 mm256_unpacklo_epi64 pack8
  rw [halves_join, halves_join, halves_join]
  simp only [pack_unpacklo32, pack_unpackhi32, pack_unpacklo64, pack_unpackhi64]
theorem quad15_pack : quad15 (pack8 a0 a1 a2 a3 a4 a5 a6 a7) (pack8 b0 b1 b2 b3 b4 b5 b6 b7)
    (pack8 c0 c1 c2 c3 c4 c5 c6 c7) (pack8 d0 d1 d2 d3 d4 d5 d6 d7) =
    join (mm_setr_epi32 a1 b1 c1 d1) (mm_setr_epi32 a5 b5 c5 d5) := by
  unfold quad15 mm256_unpacklo_epi32 mm256_unpackhi_epi64 pack8
  rw [halves_join, halves_join, halves_join]
  simp only [pack_unpacklo32, pack_unpackhi32, pack_unpacklo64, pack_unpackhi64]
theorem quad26_pack : quad26 (pack8 a0 a1 a2 a3 a4 a5 a6 a7) (pack8 b0 b1 b2 b3 b4 b5 b6 b7)
    (pack8 c0 c1 c2 c3 c4 c5 c6 c7) (pack8 d0 d1 d2 d3 d4 d5 d6 d7) =
    join (mm_setr_epi32 a2 b2 c2 d2) (mm_setr_epi32 a6 b6 c6 d6) := by
  unfold quad26 mm256_unpackhi_epi32 mm256_unpacklo_epi64 pack8
  rw [halves_join, halves_join, halves_join]
  simp only [pack_unpacklo32, pack_unpackhi32, pack_unpacklo64, pack_unpackhi64]
theorem quad37_pack : quad37 (pack8 a0 a1 a2 a3 a4 a5 a6 a7) (pack8 b0 b1 b2 b3 b4 b5 b6 b7)
    (pack8 c0 c1 c2 c3 c4 c5 c6 c7) (pack8 d0 d1 d2 d3 d4 d5 d6 d7) =
    join (mm_setr_epi32 a3 b3 c3 d3) (mm_setr_epi32 a7 b7 c7 d7) := by
  unfold quad37 mm256_unpackhi_epi32 mm256_unpackhi_epi64 pack8
  rw [halves_join, halves_join, halves_join]
  simp only [pack_unpacklo32, pack_unpackhi32, pack_unpacklo64, pack_unpackhi64]
end quads

theorem join_pack8 (a b c d e f g h : Word) :
    join (mm_setr_epi32 a b c d) (mm_setr_epi32 e f g h) = pack8 a b c d e f g h := rfl

theorem quad04_eq (a b c d : M256) : quad04 a b c d =
    join (mm_setr_epi32 (lane 32 a 0) (lane 32 b 0) (lane 32 c 0) (lane 32 d 0))
      (mm_setr_epi32 (lane 32 a 4) (lane 32 b 4) (lane 32 c 4) (lane 32 d 4)) := by
  conv => lhs; rw [eta8 a, eta8 b, eta8 c, eta8 d]
  exact quad04_pack ..
theorem quad15_eq (a b c d : M256) : quad15 a b c d =
    join (mm_setr_epi32 (lane 32 a 1) (lane 32 b 1) (lane 32 c 1) (lane 32 d 1))
      (mm_setr_epi32 (lane 32 a 5) (lane 32 b 5) (lane 32 c 5) (lane 32 d 5)) := by
  conv => lhs; rw [eta8 a, eta8 b, eta8 c, eta8 d]
  exact quad15_pack ..
theorem quad26_eq (a b c d : M256) : quad26 a b c d =
    join (mm_setr_epi32 (lane 32 a 2) (lane 32 b 2) (lane 32 c 2) (lane 32 d 2))
      (mm_setr_epi32 (lane 32 a 6) (lane 32 b 6) (lane 32 c 6) (lane 32 d 6)) := by
  conv => lhs; rw [eta8 a, eta8 b, eta8 c, eta8 d]
  exact quad26_pack ..
theorem quad37_eq (a b c d : M256) : quad37 a b c d =
    join (mm_setr_epi32 (lane 32 a 3) (lane 32 b 3) (lane 32 c 3) (lane 32 d 3))
      (mm_setr_epi32 (lane 32 a 7) (lane 32 b 7) (lane 32 c 7) (lane 32 d 7)) := by
  conv => lhs; rw [eta8 a, eta8 b, eta8 c, eta8 d]
  exact quad37_pack ..

theorem interleave_fst {x y : M256} {a b c d : M128} (hx : x = join a b) (hy : y = join c d) :
    (Avx2.interleave128 x y).1 = join a c := by
  rw [hx, hy, interleave_join]

theorem interleave_snd {x y : M256} {a b c d : M128} (hx : x = join a b) (hy : y = join c d) :
    (Avx2.interleave128 x y).2 = join b d := by
  rw [hx, hy, interleave_join]

theorem vec8_congr {α} {a b c d e f g h a' b' c' d' e' f' g' h' : α} (h0 : a = a') (h1 : b = b')
    (h2 : c = c') (h3 : d = d') (h4 : e = e') (h5 : f = f') (h6 : g = g') (h7 : h = h') :
    #v[a, b, c, d, e, f, g, h] = #v[a', b', c', d', e', f', g', h'] := by
  subst h0 h1 h2 h3 h4 h5 h6 h7; rfl

theorem transpose8 (a b c d e f g h : M256) : Avx2.transpose_vecs #v[a, b, c, d, e, f, g, h] =
    #v[col8 a b c d e f g h 0, col8 a b c d e f g h 1, col8 a b c d e f g h 2, col8 a b c d e f g h 3,
       col8 a b c d e f g h 4, col8 a b c d e f g h 5, col8 a b c d e f g h 6, col8 a b c d e f g h 7] :=
  (transpose8_unfold ..).trans (vec8_congr
    (interleave_fst (quad04_eq ..) (quad04_eq ..)) (interleave_fst (quad15_eq ..) (quad15_eq ..))
    (interleave_fst (quad26_eq ..) (quad26_eq ..)) (interleave_fst (quad37_eq ..) (quad37_eq ..))
    (interleave_snd (quad04_eq ..) (quad04_eq ..)) (interleave_snd (quad15_eq ..) (quad15_eq ..))
    (interleave_snd (quad26_eq ..) (quad26_eq ..)) (interleave_snd (quad37_eq ..) (quad37_eq ..)))

theorem loadu8 (p : Bytes) (off : Nat) (h : off + 32 ≤ p.length) :
    Avx2.loadu p off = .ok
      (pack8 (wordAt p off 0) (wordAt p off 1) (wordAt p off 2) (wordAt p off 3)
        (wordAt p off 4) (wordAt p off 5) (wordAt p off 6) (wordAt p off 7)) := by
  refine (loadBytes_ok 32 p off h).trans (congrArg Except.ok (ext8 ?_ ?_ ?_ ?_ ?_ ?_ ?_ ?_)) <;>
    exact lane32_fromLanes8 8 _ _ (by decide)

theorem append88 {α} (a0 a1 a2 a3 a4 a5 a6 a7 a8 a9 a10 a11 a12 a13 a14 a15 : α) :
    (#v[a0, a1, a2, a3, a4, a5, a6, a7] ++ #v[a8, a9, a10, a11, a12, a13, a14, a15] : Vector α 16) =
    #v[a0, a1, a2, a3, a4, a5, a6, a7, a8, a9, a10, a11, a12, a13, a14, a15] := rfl

theorem avx2_msg (inputs : Vector Bytes 8) (off : Nat)
    (h : ∀ i (hi : i < 8), off + 64 ≤ inputs[i].length) :
    ∃ m, Avx2.transpose_msg_vecs inputs off = .ok m ∧ ∀ i (hi : i < 8),
      m.map (fun x => lane 32 x i) = Portable.words_from_block (Spec.pad (inputs[i].drop off)) := by
  have H : ∀ i (hi : i < 8) k, k < 2 → Avx2.loadu inputs[i] (off + k * 4 * 8) = .ok
      (pack8 (wordAt inputs[i] (off + k * 4 * 8) 0) (wordAt inputs[i] (off + k * 4 * 8) 1) (wordAt inputs[i] (off + k * 4 * 8) 2) (wordAt inputs[i] (off + k * 4 * 8) 3) (wordAt inputs[i] (off + k * 4 * 8) 4) (wordAt inputs[i] (off + k * 4 * 8) 5) (wordAt inputs[i] (off + k * 4 * 8) 6) (wordAt inputs[i] (off + k * 4 * 8) 7)) := by
    intro i hi k hk
    exact loadu8 inputs[i] (off + k * 4 * 8) (by have := h i hi; omega)
  refine ⟨_, by
    simp only [Avx2.transpose_msg_vecs, Avx2.DEGREE]
    rw [H 0 (by decide) 0 (by decide), bind_ok]
    rw [H 1 (by decide) 0 (by decide), bind_ok]
    rw [H 2 (by decide) 0 (by decide), bind_ok]
    rw [H 3 (by decide) 0 (by decide), bind_ok]
    rw [H 4 (by decide) 0 (by decide), bind_ok]
    rw [H 5 (by decide) 0 (by decide), bind_ok]
    rw [H 6 (by decide) 0 (by decide), bind_ok]
    rw [H 7 (by decide) 0 (by decide), bind_ok]
    rw [H 0 (by decide) 1 (by decide), bind_ok]
    rw [H 1 (by decide) 1 (by decide), bind_ok]
    rw [H 2 (by decide) 1 (by decide), bind_ok]
    rw [H 3 (by decide) 1 (by decide), bind_ok]
    rw [H 4 (by decide) 1 (by decide), bind_ok]
    rw [H 5 (by decide) 1 (by decide), bind_ok]
    rw [H 6 (by decide) 1 (by decide), bind_ok]
    rw [H 7 (by decide) 1 (by decide), bind_ok]
    rw [pure_eq]
    , ?_⟩
  simp only [transpose8, append88, map16, col8]
  simp only [p8_0, p8_1, p8_2, p8_3, p8_4, p8_5, p8_6, p8_7]
  intro i hi
  rw [words_pad, ofFn16]
  rcases i with _|_|_|_|_|_|_|_|i
  · simp only [Nat.reduceAdd, p8_0]; rfl
  · simp only [Nat.reduceAdd, p8_1]; rfl
  · simp only [Nat.reduceAdd, p8_2]; rfl
  · simp only [Nat.reduceAdd, p8_3]; rfl
  · simp only [Nat.reduceAdd, p8_4]; rfl
  · simp only [Nat.reduceAdd, p8_5]; rfl
  · simp only [Nat.reduceAdd, p8_6]; rfl
  · simp only [Nat.reduceAdd, p8_7]; rfl
  · omega

theorem load_offsets8 (off d : U64) : Avx2.load_offsets off d =
    if off.toNat + 7 * d.toNat < 2 ^ 64 then
      .ok (pack8 (offset_low (offs off d 0)) (offset_low (offs off d 1)) (offset_low (offs off d 2)) (offset_low (offs off d 3)) (offset_low (offs off d 4)) (offset_low (offs off d 5)) (offset_low (offs off d 6)) (offset_low (offs off d 7)),
           pack8 (offset_high (offs off d 0)) (offset_high (offs off d 1)) (offset_high (offs off d 2)) (offset_high (offs off d 3)) (offset_high (offs off d 4)) (offset_high (offs off d 5)) (offset_high (offs off d 6)) (offset_high (offs off d 7)))
    else .error .overflow := by
  have e0 := offset_plus_eq off d 0 (by decide)
  have e1 := offset_plus_eq off d 1 (by decide)
  have e2 := offset_plus_eq off d 2 (by decide)
  have e3 := offset_plus_eq off d 3 (by decide)
  have e4 := offset_plus_eq off d 4 (by decide)
  have e5 := offset_plus_eq off d 5 (by decide)
  have e6 := offset_plus_eq off d 6 (by decide)
  have e7 := offset_plus_eq off d 7 (by decide)
  have hoff := off.isLt
  unfold Avx2.load_offsets
  simp only [set8_eq]
  rw [show (0 : U64) = BitVec.ofNat 64 0 from rfl, show (1 : U64) = BitVec.ofNat 64 1 from rfl, show (2 : U64) = BitVec.ofNat 64 2 from rfl, show (3 : U64) = BitVec.ofNat 64 3 from rfl, show (4 : U64) = BitVec.ofNat 64 4 from rfl, show (5 : U64) = BitVec.ofNat 64 5 from rfl, show (6 : U64) = BitVec.ofNat 64 6 from rfl, show (7 : U64) = BitVec.ofNat 64 7 from rfl,
    e0, e1, e2, e3, e4, e5, e6, e7]
  rw [if_pos (show off.toNat + 0 * d.toNat < 2 ^ 64 by omega), bind_ok]
  by_cases h1 : off.toNat + 1 * d.toNat < 2 ^ 64
  case neg => rw [if_neg h1, bind_error, if_neg (by omega)]
  rw [if_pos h1, bind_ok]
  by_cases h2 : off.toNat + 2 * d.toNat < 2 ^ 64
  case neg => rw [if_neg h2, bind_error, if_neg (by omega)]
  rw [if_pos h2, bind_ok]
  by_cases h3 : off.toNat + 3 * d.toNat < 2 ^ 64
  case neg => rw [if_neg h3, bind_error, if_neg (by omega)]
  rw [if_pos h3, bind_ok]
  by_cases h4 : off.toNat + 4 * d.toNat < 2 ^ 64
  case neg => rw [if_neg h4, bind_error, if_neg (by omega)]
  rw [if_pos h4, bind_ok]
  by_cases h5 : off.toNat + 5 * d.toNat < 2 ^ 64
  case neg => rw [if_neg h5, bind_error, if_neg (by omega)]
  rw [if_pos h5, bind_ok]
  by_cases h6 : off.toNat + 6 * d.toNat < 2 ^ 64
  case neg => rw [if_neg h6, bind_error, if_neg (by omega)]
  rw [if_pos h6, bind_ok]
  by_cases h7 : off.toNat + 7 * d.toNat < 2 ^ 64
  case neg => rw [if_neg h7, if_neg h7, bind_error]
  rw [if_pos h7, if_pos h7, bind_ok, pure_eq]

theorem map_set1_8 (key : Vector Word 8) (i : Nat) (hi : i < 8) :
    (#v[Avx2.set1 key[0], Avx2.set1 key[1], Avx2.set1 key[2], Avx2.set1 key[3], Avx2.set1 key[4], Avx2.set1 key[5], Avx2.set1 key[6], Avx2.set1 key[7]]).map
      (fun x => lane 32 x i) = key := by
  apply Vector.ext; intro j hj
  rw [Vector.getElem_map]
  rcases j with _|_|_|_|_|_|_|_|j
  all_goals first | omega | exact lane256_set1 _ i hi

theorem hash8_step (i : Nat) (hi : i < 8) (lo hi' : M256) (o : U64) (hlo : lane 32 lo i = offset_low o)
    (hhi : lane 32 hi' i = offset_high o) (h : Vector M256 8) (bf : Byte) (m : Vector M256 16) :
    (Avx2.hash8_block h lo hi' (Avx2.set1 (BitVec.ofNat 32 64)) (Avx2.set1 (bf.setWidth 32)) m).map
      (fun x => lane 32 x i) =
      compressW (h.map (fun x => lane 32 x i)) (m.map (fun x => lane 32 x i)) (offset_low o)
        (offset_high o) (BitVec.setWidth 32 (64 : Byte)) (BitVec.setWidth 32 bf) := by
  have hs : ∀ x, lane 32 (Avx2.set1 x) i = x := fun x => lane256_set1 x i hi
  rw [hash8_block_eq, Ops.block_lane avxOps _ (avxHom i hi) _ _ _ _ _ _ _ _ _ _ (hs _) (hs _) (hs _) (hs _),
    hlo, hhi, hs, hs]
  rfl

theorem regBytes_pack8 (a b c d e f g h : Word) :
    regBytes 32 (pack8 a b c d e f g h) = leBytes a ++ leBytes b ++ leBytes c ++ leBytes d ++
      leBytes e ++ leBytes f ++ leBytes g ++ leBytes h := by
  have hh := regBytes_eq 8 (pack8 a b c d e f g h)
  refine hh.trans ?_
  simp only [show List.range 8 = [0, 1, 2, 3, 4, 5, 6, 7] by decide, List.flatMap_cons, List.flatMap_nil,
    p8_0, p8_1, p8_2, p8_3, p8_4, p8_5, p8_6, p8_7, List.append_nil, List.append_assoc]

/-- the stores at the end of `hash8` -/
def hash8_store (h_vecs : Vector M256 8) (out : Bytes) : R Bytes := do
  let h_vecs := Avx2.transpose_vecs h_vecs
  let out ← writeAt out (0 * 4 * Avx2.DEGREE) (regBytes 32 h_vecs[0])
  let out ← writeAt out (1 * 4 * Avx2.DEGREE) (regBytes 32 h_vecs[1])
  let out ← writeAt out (2 * 4 * Avx2.DEGREE) (regBytes 32 h_vecs[2])
  let out ← writeAt out (3 * 4 * Avx2.DEGREE) (regBytes 32 h_vecs[3])
  let out ← writeAt out (4 * 4 * Avx2.DEGREE) (regBytes 32 h_vecs[4])
  let out ← writeAt out (5 * 4 * Avx2.DEGREE) (regBytes 32 h_vecs[5])
  let out ← writeAt out (6 * 4 * Avx2.DEGREE) (regBytes 32 h_vecs[6])
  let out ← writeAt out (7 * 4 * Avx2.DEGREE) (regBytes 32 h_vecs[7])
  return out

theorem vec8_lit {α} (v : Vector α 8) : v = #v[v[0], v[1], v[2], v[3], v[4], v[5], v[6], v[7]] := by
  apply Vector.ext; intro j hj
  rcases j with _|_|_|_|_|_|_|_|j
  all_goals first | rfl | omega

theorem hash8_store_eq (h : Vector M256 8) (out : Bytes) (hout : out.length = 256) :
    hash8_store h out = .ok (
      (Spec.cvBytes (h.map fun x => lane 32 x 0)).toList ++ (
      (Spec.cvBytes (h.map fun x => lane 32 x 1)).toList ++ (
      (Spec.cvBytes (h.map fun x => lane 32 x 2)).toList ++ (
      (Spec.cvBytes (h.map fun x => lane 32 x 3)).toList ++ (
      (Spec.cvBytes (h.map fun x => lane 32 x 4)).toList ++ (
      (Spec.cvBytes (h.map fun x => lane 32 x 5)).toList ++ (
      (Spec.cvBytes (h.map fun x => lane 32 x 6)).toList ++ (
      (Spec.cvBytes (h.map fun x => lane 32 x 7)).toList ++ [])))))))) := by
  unfold hash8_store
  refine (write8 out _ _ _ _ _ _ _ _ 32 (length_regBytes _ _) (length_regBytes _ _) (length_regBytes _ _)
    (length_regBytes _ _) (length_regBytes _ _) (length_regBytes _ _) (length_regBytes _ _)
    (length_regBytes _ _) hout).trans (congrArg Except.ok ?_)
  have e : Avx2.transpose_vecs h = _ :=
    (congrArg Avx2.transpose_vecs (vec8_lit h)).trans (transpose8 ..)
  rw [e]
  simp only [cvBytes_toList, Vector.getElem_map]
  have g : ∀ (a b c d e f g h : M256),
    (#v[a, b, c, d, e, f, g, h][0]) = a ∧
    (#v[a, b, c, d, e, f, g, h][1]) = b ∧
    (#v[a, b, c, d, e, f, g, h][2]) = c ∧
    (#v[a, b, c, d, e, f, g, h][3]) = d ∧
    (#v[a, b, c, d, e, f, g, h][4]) = e ∧
    (#v[a, b, c, d, e, f, g, h][5]) = f ∧
    (#v[a, b, c, d, e, f, g, h][6]) = g ∧
    (#v[a, b, c, d, e, f, g, h][7]) = h :=
    fun a b c d e f g h => ⟨rfl, rfl, rfl, rfl, rfl, rfl, rfl, rfl⟩
  simp only [g, col8, regBytes_pack8, List.append_assoc, List.append_nil]

theorem hash8_eq (inputs : Vector Bytes 8) (blocks : Nat) (key : Vector Word 8) (off d : U64)
    (flags fs fe : Byte) (out : Bytes) (hlen : ∀ i (hi : i < 8), inputs[i].length = 64 * blocks)
    (hout : out.length = 256) :
    Avx2.hash8 inputs blocks key off d flags fs fe out =
      if off.toNat + 7 * d.toNat < 2 ^ 64 then
        .ok (lanesOut key off d flags fs fe 0 inputs.toList)
      else .error .overflow := by
  unfold Avx2.hash8
  rw [load_offsets8]
  split
  next hlt =>
    obtain ⟨h', e, hh⟩ := loopG_lane (I := Fin 8) (fun i x => lane 32 x i.val) (fun i => inputs[i])
      (fun i => offs off d i) (fun b => Avx2.transpose_msg_vecs inputs (b * 64))
      (fun h bf m => Avx2.hash8_block h
        (pack8 (offset_low (offs off d 0)) (offset_low (offs off d 1)) (offset_low (offs off d 2)) (offset_low (offs off d 3)) (offset_low (offs off d 4)) (offset_low (offs off d 5)) (offset_low (offs off d 6)) (offset_low (offs off d 7)))
        (pack8 (offset_high (offs off d 0)) (offset_high (offs off d 1)) (offset_high (offs off d 2)) (offset_high (offs off d 3)) (offset_high (offs off d 4)) (offset_high (offs off d 5)) (offset_high (offs off d 6)) (offset_high (offs off d 7)))
        (Avx2.set1 (BitVec.ofNat 32 64)) (Avx2.set1 (bf.setWidth 32)) m)
      blocks flags fe (fun i => hlen i i.isLt)
      (by
        intro b hb
        obtain ⟨m, e, hm⟩ := avx2_msg inputs (b * 64) (by intro i hi; rw [hlen i hi]; omega)
        exact ⟨m, e, fun i => by rw [Nat.mul_comm 64 b]; exact hm i i.isLt⟩)
      (by
        intro i h bf m
        match i with
        | 0 => exact hash8_step 0 (by decide) _ _ _ (p8_0 ..) (p8_0 ..) h bf m
        | 1 => exact hash8_step 1 (by decide) _ _ _ (p8_1 ..) (p8_1 ..) h bf m
        | 2 => exact hash8_step 2 (by decide) _ _ _ (p8_2 ..) (p8_2 ..) h bf m
        | 3 => exact hash8_step 3 (by decide) _ _ _ (p8_3 ..) (p8_3 ..) h bf m
        | 4 => exact hash8_step 4 (by decide) _ _ _ (p8_4 ..) (p8_4 ..) h bf m
        | 5 => exact hash8_step 5 (by decide) _ _ _ (p8_5 ..) (p8_5 ..) h bf m
        | 6 => exact hash8_step 6 (by decide) _ _ _ (p8_6 ..) (p8_6 ..) h bf m
        | 7 => exact hash8_step 7 (by decide) _ _ _ (p8_7 ..) (p8_7 ..) h bf m)
      blocks 0 (by omega)
      #v[Avx2.set1 key[0], Avx2.set1 key[1], Avx2.set1 key[2], Avx2.set1 key[3], Avx2.set1 key[4], Avx2.set1 key[5], Avx2.set1 key[6], Avx2.set1 key[7]] (flags ||| fs)
    rw [bind_ok]
    simp only [hash8_loop_eq]
    rw [e, bind_ok]
    refine (hash8_store_eq h' out hout).trans (congrArg Except.ok ?_)
    have hh' : ∀ i (hi : i < 8), h'.map (fun x => lane 32 x i) =
        cvLoop flags fe (offs off d i) key (flags ||| fs) inputs[i] := by
      intro i hi
      have := hh ⟨i, hi⟩
      rw [map_set1_8 key i hi, Nat.mul_zero, List.drop_zero] at this
      exact this
    rw [hh' 0 (by decide), hh' 1 (by decide), hh' 2 (by decide), hh' 3 (by decide), hh' 4 (by decide), hh' 5 (by decide), hh' 6 (by decide), hh' 7 (by decide)]
    have e8 : inputs.toList = [inputs[0], inputs[1], inputs[2], inputs[3], inputs[4], inputs[5], inputs[6], inputs[7]] := by
      apply List.ext_getElem
      · simp
      · intro n h1 h2
        rcases n with _|_|_|_|_|_|_|_|n
        all_goals first | rfl | (simp at h2; omega)
    rw [e8]
    rfl
  next h => rfl

theorem avx2_loop_eq (cap : Nat) (hcap : cap % 64 = 0) (key : Vector Word 8) (d : U64) (flags fs fe : Byte)
    (xs : List Bytes) (off : U64) (out : Bytes) (hx : ∀ x ∈ xs, x.length = cap)
    (hlen : xs.length * 32 ≤ out.length) :
    Avx2.hash_many_loop cap key d flags fs fe xs off out =
      Portable.hash_many_loop key d flags fs fe xs off out := by
  induction hn : xs.length using Nat.strongRecOn generalizing xs off out with
  | ind n ih =>
  rw [Avx2.hash_many_loop]
  split
  next h =>
    obtain ⟨h4, h5⟩ := h
    simp only [Avx2.DEGREE, OUT_LEN] at h4 h5
    obtain ⟨v, ev, tv⟩ := arrayRef_take xs 8 h4
    rw [ev, bind_ok]
    have hv : ∀ i (hi : i < 8), v[i].length = 64 * (cap / 64) := by
      intro i hi
      have : v[i] ∈ xs := List.mem_of_mem_take (by rw [← tv]; exact Vector.mem_toList_iff.2 (Vector.getElem_mem hi))
      rw [hx _ this]; omega
    have e := hash8_eq v (cap / 64) key off d flags fs fe (out.take 256) hv (by simp; omega)
    simp only [Avx2.DEGREE, OUT_LEN, BLOCK_LEN] at e ⊢
    rw [e]
    conv => rhs; rw [← List.take_append_drop 8 xs]
    have l8 : (xs.take 8).length = 8 := by simp; omega
    rw [portable_many_append _ _ _ _ _ _ _ _ _
      (fun x hx' => by rw [hx x (List.mem_of_mem_take hx')]; exact hcap) (by omega), l8,
      offset_plus_eq off d 8 (by decide)]
    by_cases h1 : off.toNat + 8 * d.toNat < 2 ^ 64
    · rw [if_pos h1, if_pos h1, if_pos (by omega), bind_ok, bind_ok,
        ih (xs.drop 8).length (by simp; omega) _ _ _ (fun x hx' => hx x (List.mem_of_mem_drop hx'))
          (by simp; omega) rfl, tv]
    · rw [if_neg h1, if_neg h1]
      split <;> rfl
  next h =>
    rw [sse41_hash_many_eq cap hcap xs key off d flags fs fe out hx, Portable.hash_many, assertR,
      if_pos (by simp only [OUT_LEN]; exact hlen), bind_ok]

theorem avx2_hash_many_eq (cap : Nat) (hcap : cap % 64 = 0) (xs : List Bytes) (key : Vector Word 8)
    (off d : U64) (flags fs fe : Byte) (out : Bytes) (hx : ∀ x ∈ xs, x.length = cap) :
    Avx2.hash_many cap xs key off d flags fs fe out =
      Portable.hash_many xs key off d flags fs fe out := by
  rw [Avx2.hash_many, Portable.hash_many, assertR]
  split
  next h => rw [bind_ok, bind_ok, avx2_loop_eq cap hcap key d flags fs fe xs off out hx h]
  next h => rfl

end Baokeshed.Proofs
