import Verif.Model.C.Avx2
import Verif.Proofs.C.Sse41
import Verif.Proofs.HashMany8

/-! # C: the AVX2 back end -/

set_option linter.unusedVariables false
set_option linter.unusedSimpArgs false

namespace Baokeshed.Proofs.C.Avx2
open Baokeshed.Model Baokeshed.Model.C Baokeshed.Model.C.Avx2
attribute [local irreducible] Spec.compress Spec.cvBytes

/-- lane `i` -/
abbrev L (i : Nat) (x : M256) : Word := lane 32 x i

def ops : Ops M256 := ⟨addv, xorv, rot16, rot12, rot8, rot7⟩

theorem hom (i : Nat) (hi : i < 8) : LaneHom ops (L i) where
  add a b := lane256_add a b i hi
  xor a b := lane_xor 32 a b i
  rot16 a := lane256_rot16 a i hi
  rot12 a := by
    refine (lane_xor 32 _ _ i).trans ?_
    rw [lane256_srli _ _ _ hi, lane256_slli _ _ _ hi]; exact rot_xor (L i a) 12 (by decide) (by decide)
  rot8 a := lane256_rot8 a i hi
  rot7 a := by
    refine (lane_xor 32 _ _ i).trans ?_
    rw [lane256_srli _ _ _ hi, lane256_slli _ _ _ hi]; exact rot_xor (L i a) 7 (by decide) (by decide)

theorem lane_set1 (i : Nat) (hi : i < 8) (x : Word) : L i (set1 x) = x := lane256_set1' x i hi

theorem load_ok : LoadOk 8 L loadu := by
  intro p off h
  exact ⟨_, loadBytes_ok 32 p off h, fun j hj => lane32_fromLanes8 8 _ j hj⟩

theorem lane_col8 (a b c d e f g h : M256) (k p : Nat) (hp : p < 8) :
    lane 32 (col8 a b c d e f g h k) p = lane 32 #v[a, b, c, d, e, f, g, h][p] k := by
  rcases p with _|_|_|_|_|_|_|_|p
  · exact p8_0 ..
  · exact p8_1 ..
  · exact p8_2 ..
  · exact p8_3 ..
  · exact p8_4 ..
  · exact p8_5 ..
  · exact p8_6 ..
  · exact p8_7 ..
  · omega

theorem tr_ok : TrOk 8 L transpose_vecs := by
  intro vs r p hr hp
  have e : transpose_vecs vs = Model.Avx2.transpose_vecs #v[vs[0], vs[1], vs[2], vs[3], vs[4], vs[5], vs[6], vs[7]] := rfl
  have e2 : vs[p] = #v[vs[0], vs[1], vs[2], vs[3], vs[4], vs[5], vs[6], vs[7]][p] :=
    congrArg (fun v : Vector M256 8 => v[p]) (getElem_vec8 vs)
  rw [e2]
  simp only [e, transpose8]
  rcases r with _|_|_|_|_|_|_|_|r
  all_goals first | omega | exact lane_col8 _ _ _ _ _ _ _ _ _ _ hp

theorem msg_ok : MsgOk 8 L transpose_msg_vecs := msg8_ok L loadu transpose_vecs load_ok tr_ok

theorem round_eq (v m : Vector M256 16) (r : Fin 7) :
    round_fn v m r = ops.round v m (Model.MSG_SCHEDULE.get r) := by
  simp only [round_fn, Ops.round, ops, msg_schedule_eq]

theorem block_eq (h : Vector M256 8) (lo hi len fl : M256) (m : Vector M256 16) :
    hash8_avx2_block h lo hi len fl m =
      ops.block (set1 Model.IV[0]) (set1 Model.IV[1]) (set1 Model.IV[2]) (set1 Model.IV[3]) h lo hi len fl m := by
  unfold hash8_avx2_block Ops.block
  simp only [round_eq]
  rfl

theorem loop_eq (inputs : List Bytes) (blocks : Nat) (lo hi : M256) (flags fe : Byte) (n block : Nat)
    (h : Vector M256 8) (bf : Byte) :
    hash8_avx2_loop inputs blocks lo hi flags fe n block h bf =
      loopG (fun b => transpose_msg_vecs inputs (b * 64))
        (fun h bf m => ops.block (set1 Model.IV[0]) (set1 Model.IV[1]) (set1 Model.IV[2]) (set1 Model.IV[3]) h lo hi
          (set1 (BitVec.ofNat 32 64)) (set1 (bf.setWidth 32)) m) blocks flags fe n block h bf := by
  induction n generalizing block h bf with
  | zero => rfl
  | succ n ih =>
    rw [hash8_avx2_loop, loopG]
    refine congrArg _ (funext fun m => ?_)
    rw [ih, block_eq]

theorem kern_eq (key : Vector Word 8) (flags fs fe : Byte) (blocks : Nat) (deltas : List U64) (inputs : List Bytes)
    (off : U64) (out : Bytes) :
    hash8_avx2 inputs blocks key off deltas flags fs fe out =
      kern ops set1 key flags fs fe blocks deltas transpose_msg_vecs hash8_avx2_store load_offsets inputs off out := by
  simp only [hash8_avx2, kern, loop_eq]

theorem store_ok : StoreOk 8 L hash8_avx2_store := by
  intro h out hout
  unfold hash8_avx2_store storeu
  refine (store8 out _ _ _ _ _ _ _ _ 32 (length_regBytes _ _) (length_regBytes _ _) (length_regBytes _ _)
    (length_regBytes _ _) (length_regBytes _ _) (length_regBytes _ _) (length_regBytes _ _)
    (length_regBytes _ _) hout).trans (congrArg Except.ok ?_)
  have r4 : ∀ x : M256, regBytes 32 x = (List.range 8).flatMap fun i => leBytes (lane 32 x i) :=
    fun x => regBytes_lanes 8 x
  have t0 := fun vs r hr => tr_ok vs r 0 hr (by decide)
  have t1 := fun vs r hr => tr_ok vs r 1 hr (by decide)
  have t2 := fun vs r hr => tr_ok vs r 2 hr (by decide)
  have t3 := fun vs r hr => tr_ok vs r 3 hr (by decide)
  have t4 := fun vs r hr => tr_ok vs r 4 hr (by decide)
  have t5 := fun vs r hr => tr_ok vs r 5 hr (by decide)
  have t6 := fun vs r hr => tr_ok vs r 6 hr (by decide)
  have t7 := fun vs r hr => tr_ok vs r 7 hr (by decide)
  simp only [L] at t0 t1 t2 t3 t4 t5 t6 t7
  simp only [r4, show List.range 8 = [0, 1, 2, 3, 4, 5, 6, 7] by decide, List.flatMap_cons, List.flatMap_nil, t0, t1, t2, t3, t4, t5, t6, t7,
    cvBytes_toList, Vector.getElem_map, List.append_assoc, List.append_nil]

theorem offs_ok (δ : Nat → U64) (deltas : List U64) (hd : ∀ i, i < 8 → deltas[i]? = some (δ i)) :
    OffsOk 8 L δ deltas load_offsets := by
  intro off
  refine ⟨_, _, by
    unfold load_offsets
    rw [cIndex_some _ _ _ (hd 0 (by decide)), bind_ok, cIndex_some _ _ _ (hd 1 (by decide)), bind_ok, cIndex_some _ _ _ (hd 2 (by decide)), bind_ok, cIndex_some _ _ _ (hd 3 (by decide)), bind_ok, cIndex_some _ _ _ (hd 4 (by decide)), bind_ok, cIndex_some _ _ _ (hd 5 (by decide)), bind_ok, cIndex_some _ _ _ (hd 6 (by decide)), bind_ok, cIndex_some _ _ _ (hd 7 (by decide)), bind_ok, pure_eq], ?_⟩
  intro i hi
  rcases i with _|_|_|_|_|_|_|_|i
  all_goals first | omega | exact ⟨lane256_setr _ _ _ _ _ _ _ _ _ hi, lane256_setr _ _ _ _ _ _ _ _ _ hi⟩

/-! ## hash_many -/

theorem loop8_good (key : Vector Word 8) (d : U64) (flags fs fe : Byte) (blocks : Nat) (deltas : List U64)
    (hd : ∀ i, i ≤ 8 → deltas[i]? = some (BitVec.ofNat 64 i * d)) :
    Good key d flags fs fe blocks none (hash_many_avx2_loop blocks key deltas flags fs fe) := by
  refine loop_ok key d flags fs fe blocks 8 (by decide) deltas
    (fun inputs off out => hash8_avx2 inputs blocks key off deltas flags fs fe out) _
    (C.Sse41.hash_many_sse41_loop4 blocks key deltas flags fs fe) ?_ ?_
    ((Sse41.loop4_good key d flags fs fe blocks deltas (fun i hi => hd i (by omega))).mono _ _ _ _ _ _ _) (hd 8 (by decide))
  · intro num inputs off out
    rw [hash_many_avx2_loop]
    by_cases h : 8 ≤ num
    · rw [dif_pos h, if_pos h]; rfl
    · rw [dif_neg h, if_neg h]; rfl
  · intro inputs off out h1 h2 h3
    refine (kern_eq ..).trans ?_
    exact kern_ok 8 L ops set1 key d flags fs fe blocks deltas _ _ _ hom lane_set1 msg_ok store_ok
      (offs_ok (fun i => BitVec.ofNat 64 i * d) deltas fun i hi => hd i (Nat.le_of_lt hi)) inputs off out h1 h2 h3

end Baokeshed.Proofs.C.Avx2
