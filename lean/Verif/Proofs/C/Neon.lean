import Verif.Model.C.Neon
import Verif.Proofs.C.Kernel

/-! # C: the NEON back end -/

set_option linter.unusedVariables false
set_option linter.unusedSimpArgs false

namespace Baokeshed.Proofs.C.Neon
open Baokeshed.Model Baokeshed.Model.C Baokeshed.Model.C.Neon
attribute [local irreducible] Spec.compress Spec.cvBytes

/-- lane `i` -/
abbrev L (i : Nat) (x : M128) : Word := lane 32 x i

def ops : Ops M128 := ⟨add_128, xor_128, rot16_128, rot12_128, rot8_128, rot7_128⟩

theorem lane_rot (i : Nat) (hi : i < 4) (x : M128) (n : Nat) (h0 : 0 < n) (h : n < 32) :
    lane 32 (vorrq_u32 (vshrq_n_u32 x n) (vshlq_n_u32 x (32 - n))) i = (lane 32 x i).rotateRight n := by
  refine (lane_or 32 _ _ i).trans ?_
  rw [show lane 32 (vshrq_n_u32 x n) i = lane 32 x i >>> n from lane_fromLanes 32 4 _ i hi,
    show lane 32 (vshlq_n_u32 x (32 - n)) i = lane 32 x i <<< (32 - n) from lane_fromLanes 32 4 _ i hi]
  exact rot_or _ n h0 h

theorem lane_vadd (a b : M128) (i : Nat) (hi : i < 4) : lane 32 (vaddq_u32 a b) i = lane 32 a i + lane 32 b i := by
  unfold vaddq_u32; rw [lane_fromLanes 32 4 _ i hi]

theorem lane_rot16 (i : Nat) (hi : i < 4) (x : M128) : lane 32 (rot16_128 x) i = (lane 32 x i).rotateRight 16 := by
  unfold rot16_128; exact lane_rot i hi x 16 (by decide) (by decide)
theorem lane_rot12 (i : Nat) (hi : i < 4) (x : M128) : lane 32 (rot12_128 x) i = (lane 32 x i).rotateRight 12 := by
  unfold rot12_128; exact lane_rot i hi x 12 (by decide) (by decide)
theorem lane_rot8 (i : Nat) (hi : i < 4) (x : M128) : lane 32 (rot8_128 x) i = (lane 32 x i).rotateRight 8 := by
  unfold rot8_128; exact lane_rot i hi x 8 (by decide) (by decide)
theorem lane_rot7 (i : Nat) (hi : i < 4) (x : M128) : lane 32 (rot7_128 x) i = (lane 32 x i).rotateRight 7 := by
  unfold rot7_128; exact lane_rot i hi x 7 (by decide) (by decide)

theorem hom (i : Nat) (hi : i < 4) : LaneHom ops (L i) where
  add a b := lane_vadd a b i hi
  xor a b := lane_xor 32 a b i
  rot16 a := lane_rot16 i hi a
  rot12 a := lane_rot12 i hi a
  rot8 a := lane_rot8 i hi a
  rot7 a := lane_rot7 i hi a

theorem lane_set1 (i : Nat) (hi : i < 4) (x : Word) : L i (set1_128 x) = x := by
  unfold L set1_128 vld1q_dup_u32; rw [lane_fromLanes 32 4 _ i hi]

theorem lane_set4 (a b c d : Word) (i : Nat) (hi : i < 4) : L i (set4 a b c d) = #v[a, b, c, d][i] := by
  unfold L set4 vld1q_u32
  rw [lane_fromLanes 32 4 _ i hi]
  rcases i with _|_|_|_|i
  all_goals first | rfl | omega

theorem vec_little (x : M128) : ByteOrder.vec .little x = x := rfl

theorem load_little (src : Bytes) (off : Nat) : loadu_128 .little src off = loadBytes 16 src off := by
  rw [loadu_128]
  cases loadBytes 16 src off with
  | error e => rfl
  | ok x => rw [bind_ok, pure_eq, vec_little]

theorem load_ok : LoadOk 4 L (loadu_128 .little) := by
  intro p off h
  exact ⟨_, (load_little p off).trans (loadBytes_ok 16 p off h), fun j hj => lane32_fromLanes8 4 _ j hj⟩

theorem lane_combine_lo (x y : M128) (lo hi : BitVec 64) (i : Nat) (h : i < 2) :
    lane 32 (vcombine_u32 lo hi) i = lane 32 lo i := by
  have := lane_lane 32 2 (vcombine_u32 lo hi) 0 i h
  rw [Nat.mul_zero, Nat.zero_add] at this
  rw [← this]
  exact congrArg (fun x => lane 32 x i) (lane_fromLanes 64 2 _ 0 (by decide))

theorem lane_combine_hi (x y : M128) (lo hi : BitVec 64) (i : Nat) (h : i < 2) :
    lane 32 (vcombine_u32 lo hi) (2 + i) = lane 32 hi i := by
  have := lane_lane 32 2 (vcombine_u32 lo hi) 1 i h
  rw [Nat.mul_one] at this
  rw [← this]
  exact congrArg (fun x => lane 32 x i) (lane_fromLanes 64 2 _ 1 (by decide))

theorem lane_low (x : M128) (i : Nat) (h : i < 2) : lane 32 (vget_low_u32 x) i = lane 32 x i := by
  have := lane_lane 32 2 x 0 i h
  rw [Nat.mul_zero, Nat.zero_add] at this
  exact this

theorem lane_high (x : M128) (i : Nat) (h : i < 2) : lane 32 (vget_high_u32 x) i = lane 32 x (2 + i) := by
  have := lane_lane 32 2 x 1 i h
  rw [Nat.mul_one] at this
  exact this

/-- two low halves -/
theorem comb_low (x y : M128) : vcombine_u32 (vget_low_u32 x) (vget_low_u32 y) =
    mm_setr_epi32 (lane 32 x 0) (lane 32 x 1) (lane 32 y 0) (lane 32 y 1) :=
  ext4 ((lane_combine_lo x y _ _ 0 (by decide)).trans (lane_low x 0 (by decide)))
    ((lane_combine_lo x y _ _ 1 (by decide)).trans (lane_low x 1 (by decide)))
    ((lane_combine_hi x y _ _ 0 (by decide)).trans (lane_low y 0 (by decide)))
    ((lane_combine_hi x y _ _ 1 (by decide)).trans (lane_low y 1 (by decide)))

/-- two high halves -/
theorem comb_high (x y : M128) : vcombine_u32 (vget_high_u32 x) (vget_high_u32 y) =
    mm_setr_epi32 (lane 32 x 2) (lane 32 x 3) (lane 32 y 2) (lane 32 y 3) :=
  ext4 ((lane_combine_lo x y _ _ 0 (by decide)).trans (lane_high x 0 (by decide)))
    ((lane_combine_lo x y _ _ 1 (by decide)).trans (lane_high x 1 (by decide)))
    ((lane_combine_hi x y _ _ 0 (by decide)).trans (lane_high y 0 (by decide)))
    ((lane_combine_hi x y _ _ 1 (by decide)).trans (lane_high y 1 (by decide)))

theorem trn0 (a b : M128) : vtrnq_u32_val0 a b =
    mm_setr_epi32 (lane 32 a 0) (lane 32 b 0) (lane 32 a 2) (lane 32 b 2) :=
  ext4 (lane_fromLanes 32 4 _ 0 (by decide)) (lane_fromLanes 32 4 _ 1 (by decide))
    (lane_fromLanes 32 4 _ 2 (by decide)) (lane_fromLanes 32 4 _ 3 (by decide))

theorem trn1 (a b : M128) : vtrnq_u32_val1 a b =
    mm_setr_epi32 (lane 32 a 1) (lane 32 b 1) (lane 32 a 3) (lane 32 b 3) :=
  ext4 (lane_fromLanes 32 4 _ 0 (by decide)) (lane_fromLanes 32 4 _ 1 (by decide))
    (lane_fromLanes 32 4 _ 2 (by decide)) (lane_fromLanes 32 4 _ 3 (by decide))

theorem comb_low_setr (a b c d e f g h : Word) :
    vcombine_u32 (vget_low_u32 (mm_setr_epi32 a b c d)) (vget_low_u32 (mm_setr_epi32 e f g h)) = mm_setr_epi32 a b e f := by
  rw [comb_low, lane_setr0, lane_setr1, lane_setr0, lane_setr1]

theorem comb_high_setr (a b c d e f g h : Word) :
    vcombine_u32 (vget_high_u32 (mm_setr_epi32 a b c d)) (vget_high_u32 (mm_setr_epi32 e f g h)) = mm_setr_epi32 c d g h := by
  rw [comb_high, lane_setr2, lane_setr3, lane_setr2, lane_setr3]

theorem transpose_eq (a b c d : M128) : transpose_vecs_128 #v[a, b, c, d] =
    #v[mm_setr_epi32 (lane 32 a 0) (lane 32 b 0) (lane 32 c 0) (lane 32 d 0),
       mm_setr_epi32 (lane 32 a 1) (lane 32 b 1) (lane 32 c 1) (lane 32 d 1),
       mm_setr_epi32 (lane 32 a 2) (lane 32 b 2) (lane 32 c 2) (lane 32 d 2),
       mm_setr_epi32 (lane 32 a 3) (lane 32 b 3) (lane 32 c 3) (lane 32 d 3)] := by
  have e : transpose_vecs_128 #v[a, b, c, d] =
      #v[vcombine_u32 (vget_low_u32 (vtrnq_u32_val0 a b)) (vget_low_u32 (vtrnq_u32_val0 c d)),
         vcombine_u32 (vget_low_u32 (vtrnq_u32_val1 a b)) (vget_low_u32 (vtrnq_u32_val1 c d)),
         vcombine_u32 (vget_high_u32 (vtrnq_u32_val0 a b)) (vget_high_u32 (vtrnq_u32_val0 c d)),
         vcombine_u32 (vget_high_u32 (vtrnq_u32_val1 a b)) (vget_high_u32 (vtrnq_u32_val1 c d))] := rfl
  rw [e, trn0, trn0, trn1, trn1, comb_low_setr, comb_low_setr, comb_high_setr, comb_high_setr]

theorem tr_ok : TrOk 4 L transpose_vecs_128 := by
  intro vs r p hr hp
  have e : transpose_vecs_128 vs = transpose_vecs_128 #v[vs[0], vs[1], vs[2], vs[3]] := rfl
  simp only [e, transpose_eq]
  rcases r with _|_|_|_|r
  · rcases p with _|_|_|_|p
    all_goals first | omega | exact lane_setr _ _ _ _ _ hp
  · rcases p with _|_|_|_|p
    all_goals first | omega | exact lane_setr _ _ _ _ _ hp
  · rcases p with _|_|_|_|p
    all_goals first | omega | exact lane_setr _ _ _ _ _ hp
  · rcases p with _|_|_|_|p
    all_goals first | omega | exact lane_setr _ _ _ _ _ hp
  · omega

theorem msg_ok : MsgOk 4 L (transpose_msg_vecs4 .little) := msg4_ok L (loadu_128 .little) transpose_vecs_128 load_ok tr_ok

theorem round_eq (v m : Vector M128 16) (r : Fin 7) :
    round_fn4 v m r = ops.round v m (Model.MSG_SCHEDULE.get r) := by
  simp only [round_fn4, Ops.round, ops, msg_schedule_eq]

theorem block_eq (h : Vector M128 8) (lo hi len fl : M128) (m : Vector M128 16) :
    hash4_neon_block h lo hi len fl m =
      ops.block (set1_128 Model.IV[0]) (set1_128 Model.IV[1]) (set1_128 Model.IV[2]) (set1_128 Model.IV[3]) h lo hi len fl m := by
  unfold hash4_neon_block Ops.block
  simp only [round_eq]
  rfl

theorem loop_eq (inputs : List Bytes) (blocks : Nat) (lo hi : M128) (flags fe : Byte) (n block : Nat)
    (h : Vector M128 8) (bf : Byte) :
    hash4_neon_loop .little inputs blocks lo hi flags fe n block h bf =
      loopG (fun b => transpose_msg_vecs4 .little inputs (b * 64))
        (fun h bf m => ops.block (set1_128 Model.IV[0]) (set1_128 Model.IV[1]) (set1_128 Model.IV[2]) (set1_128 Model.IV[3]) h lo hi
          (set1_128 (BitVec.ofNat 32 64)) (set1_128 (bf.setWidth 32)) m) blocks flags fe n block h bf := by
  induction n generalizing block h bf with
  | zero => rfl
  | succ n ih =>
    rw [hash4_neon_loop, loopG]
    refine congrArg _ (funext fun m => ?_)
    rw [ih, block_eq]

theorem kern_eq (key : Vector Word 8) (flags fs fe : Byte) (blocks : Nat) (deltas : List U64) (inputs : List Bytes)
    (off : U64) (out : Bytes) :
    hash4_neon .little inputs blocks key off deltas flags fs fe out =
      kern ops set1_128 key flags fs fe blocks deltas (transpose_msg_vecs4 .little) (hash4_neon_store .little) Neon.load_offsets4 inputs off out := by
  simp only [hash4_neon, kern, loop_eq]

theorem store_ok : StoreOk 4 L (hash4_neon_store .little) := by
  intro h out hout
  unfold hash4_neon_store storeu_128
  simp only [vec_little]
  refine (store8 out _ _ _ _ _ _ _ _ 16 (length_regBytes _ _) (length_regBytes _ _) (length_regBytes _ _)
    (length_regBytes _ _) (length_regBytes _ _) (length_regBytes _ _) (length_regBytes _ _)
    (length_regBytes _ _) hout).trans (congrArg Except.ok ?_)
  have r4 : ∀ x : M128, regBytes 16 x = (List.range 4).flatMap fun i => leBytes (lane 32 x i) :=
    fun x => regBytes_lanes 4 x
  have t0 := fun vs r hr => tr_ok vs r 0 hr (by decide)
  have t1 := fun vs r hr => tr_ok vs r 1 hr (by decide)
  have t2 := fun vs r hr => tr_ok vs r 2 hr (by decide)
  have t3 := fun vs r hr => tr_ok vs r 3 hr (by decide)
  simp only [L] at t0 t1 t2 t3
  simp only [r4, show List.range 4 = [0, 1, 2, 3] by decide, List.flatMap_cons, List.flatMap_nil, t0, t1, t2, t3,
    cvBytes_toList, Vector.getElem_map, List.append_assoc, List.append_nil]
  rfl

theorem offs_ok (δ : Nat → U64) (deltas : List U64) (hd : ∀ i, i < 4 → deltas[i]? = some (δ i)) :
    OffsOk 4 L δ deltas Neon.load_offsets4 := by
  intro off
  refine ⟨_, _, by
    unfold Neon.load_offsets4
    rw [cIndex_some _ _ _ (hd 0 (by decide)), bind_ok, cIndex_some _ _ _ (hd 1 (by decide)), bind_ok, cIndex_some _ _ _ (hd 2 (by decide)), bind_ok, cIndex_some _ _ _ (hd 3 (by decide)), bind_ok, pure_eq], ?_⟩
  intro i hi
  rcases i with _|_|_|_|i
  all_goals first | omega | exact ⟨lane_set4 _ _ _ _ _ hi, lane_set4 _ _ _ _ _ hi⟩

/-! ## hash_many -/

theorem one_loop_eq (flags fe : Byte) (off : U64) (blocks : Nat) (state : Vector Word 8) (input : Bytes) (bf : Byte) :
    hash_one_neon_loop flags fe off blocks state input bf = oneLoop C.Portable.compress_portable flags fe off blocks state input bf := by
  induction blocks generalizing state input bf with
  | zero => rfl
  | succ n ih => simp only [hash_one_neon_loop, oneLoop, ih]

theorem one_eq (key : Vector Word 8) (flags fs fe : Byte) (blocks : Nat) (input : Bytes) (off : U64)
    (out : Bytes) (hi : 64 * blocks ≤ input.length) (ho : 32 ≤ out.length) :
    hash_one_neon .little input blocks key off flags fs fe out =
      .ok ((Spec.cvBytes (Spec.blockChain key off flags fs fe blocks input)).toList ++ out.drop 32) := by
  rw [hash_one_neon, one_loop_eq, oneLoop_eq compress_portable_ok _ _ _ _ _ _ _ hi, bind_ok,
    cvLoop_chain _ _ _ _ _ _ _ hi, ByteOrder.words, mem_store_eq _ _ ho]

theorem loop1_good (key : Vector Word 8) (d : U64) (flags fs fe : Byte) (blocks : Nat) (deltas : List U64)
    (hd : deltas[1]? = some (BitVec.ofNat 64 1 * d)) :
    Good key d flags fs fe blocks none (hash_many_neon_loop1 .little blocks key deltas flags fs fe) := by
  refine loop_ok key d flags fs fe blocks 1 (by decide) deltas
    (fun inputs off out => do hash_one_neon .little (← cIndex inputs 0) blocks key off flags fs fe out) _
    (fun _ _ _ out => .ok out) ?_ (one_ker key d flags fs fe blocks _ (one_eq key flags fs fe blocks))
    (good_zero key d flags fs fe blocks) hd
  intro num inputs off out
  cases num with
  | zero => rw [if_neg (by omega)]; rfl
  | succ n =>
    rw [if_pos (by omega), hash_many_neon_loop1, batch]
    simp only [Nat.add_sub_cancel, bind_assoc, Nat.one_mul]

theorem loop4_good (key : Vector Word 8) (d : U64) (flags fs fe : Byte) (blocks : Nat) (deltas : List U64)
    (hd : ∀ i, i ≤ 4 → deltas[i]? = some (BitVec.ofNat 64 i * d)) :
    Good key d flags fs fe blocks none (hash_many_neon_loop4 .little blocks key deltas flags fs fe) := by
  refine loop_ok key d flags fs fe blocks 4 (by decide) deltas
    (fun inputs off out => hash4_neon .little inputs blocks key off deltas flags fs fe out) _
    (hash_many_neon_loop1 .little blocks key deltas flags fs fe) ?_ ?_
    ((loop1_good key d flags fs fe blocks deltas (hd 1 (by decide))).mono _ _ _ _ _ _ _) (hd 4 (by decide))
  · intro num inputs off out
    rw [hash_many_neon_loop4]
    by_cases h : 4 ≤ num
    · rw [dif_pos h, if_pos h]; rfl
    · rw [dif_neg h, if_neg h]
  · intro inputs off out h1 h2 h3
    refine (kern_eq ..).trans ?_
    exact kern_ok 4 L ops set1_128 key d flags fs fe blocks deltas _ _ _ hom lane_set1 msg_ok store_ok
      (offs_ok (fun i => BitVec.ofNat 64 i * d) deltas fun i hi => hd i (Nat.le_of_lt hi)) inputs off out h1 h2 h3

end Baokeshed.Proofs.C.Neon
