import Verif.Model.C64.Avx2
import Verif.Proofs.C64.Sse41

/-! # C, 64-bit variant: the AVX2 back end -/

set_option linter.unusedVariables false
set_option linter.unusedSimpArgs false

namespace Baokeshed.Proofs.W64.Avx2
open Baokeshed.Model
open Baokeshed.Model.Portable64 (leWord64 leBytes64)
open Baokeshed.Model.C (cIndex cAdvance cStore)
open Baokeshed.Model.C64 (BLOCK_LEN OUT_LEN)
open Baokeshed.Proofs.C (cIndex_ok cIndex_getD cIndex_some cAdvance_ok cStore_append cStore_zero getElem_vec4 getElem_vec8)
open Baokeshed.Model.C64.Avx2
attribute [local irreducible] Spec64.compress Spec64.cvBytes

/-! ## 4 lanes -/

/-- lane `i` -/
abbrev L (i : Nat) (x : M256) : U64 := lane 64 x i

def ops : Ops M256 := ⟨addv, xorv, rot32, rot24, rot16, rot63⟩

theorem hom (i : Nat) (hi : i < 4) : LaneHom ops (L i) where
  add a b := lane256_add64 a b i hi
  xor a b := lane_xor 64 a b i
  rot32 a := lane256_shuffle32 a i hi
  rot24 a := by
    refine lane256_shuffle8 a _ 3 (by decide) (fun i hi => ?_) i hi
    rw [lane256_setr8 _ i hi]
    revert i; decide
  rot16 a := by
    refine lane256_shuffle8 a _ 2 (by decide) (fun i hi => ?_) i hi
    rw [lane256_setr8 _ i hi]
    revert i; decide
  rot63 a := by
    refine (lane_or 64 _ _ i).trans ?_
    rw [lane256_srli64 _ _ _ hi, lane256_add64 _ _ _ hi]; exact rot63_add _

theorem lane_set1 (i : Nat) (hi : i < 4) (x : U64) : L i (set1 x) = x := lane256_set164 x i hi

theorem load_ok : LoadOk 4 L loadu := by
  intro p off h
  exact ⟨_, loadBytes_ok 32 p off h, fun j hj => lane64_fromLanes8 4 _ j hj⟩

theorem transpose_eq (vs : Vector M256 4) : transpose_vecs vs =
    #v[pack4 (lane 64 vs[0] 0) (lane 64 vs[1] 0) (lane 64 vs[2] 0) (lane 64 vs[3] 0),
       pack4 (lane 64 vs[0] 1) (lane 64 vs[1] 1) (lane 64 vs[2] 1) (lane 64 vs[3] 1),
       pack4 (lane 64 vs[0] 2) (lane 64 vs[1] 2) (lane 64 vs[2] 2) (lane 64 vs[3] 2),
       pack4 (lane 64 vs[0] 3) (lane 64 vs[1] 3) (lane 64 vs[2] 3) (lane 64 vs[3] 3)] :=
  vec4_congr (tr4_row0 ..) (tr4_row1 ..) (tr4_row2 ..) (tr4_row3 ..)

theorem tr_ok : TrOk 4 L transpose_vecs := by
  intro vs r p hr hp
  simp only [transpose_eq]
  rcases r with _|_|_|_|r
  all_goals first
    | omega
    | (rcases p with _|_|_|_|p
       · exact pack4_0 ..
       · exact pack4_1 ..
       · exact pack4_2 ..
       · exact pack4_3 ..
       · omega)

theorem msg_ok : MsgOk 4 L transpose_msg_vecs := msg4_ok L loadu transpose_vecs load_ok tr_ok

theorem round_eq (v m : Vector M256 16) (r : Fin 8) :
    round_fn v m r = ops.round v m (Portable64.MSG_SCHEDULE.get r) := by
  simp only [round_fn, Ops.round, ops, msg_schedule_eq]

theorem block_eq (h : Vector M256 4) (off len fl : M256) (m : Vector M256 16) :
    hash4_avx2_block h off len fl m = ops.block (ivs set1) h off len fl m := by
  unfold hash4_avx2_block Ops.block
  simp only [round_eq, iv_eq]
  rfl

theorem loop_eq (inputs : List Bytes) (blocks : Nat) (off : M256) (flags fe : Byte) (n block : Nat)
    (h : Vector M256 4) (bf : Byte) :
    hash4_avx2_loop inputs blocks off flags fe n block h bf =
      loopG (fun b => transpose_msg_vecs inputs (b * 128))
        (fun h bf m => ops.block (ivs set1) h off
          (set1 (BitVec.ofNat 64 128)) (set1 (bf.setWidth 64)) m) blocks flags fe n block h bf := by
  induction n generalizing block h bf with
  | zero => rfl
  | succ n ih =>
    rw [hash4_avx2_loop, loopG]
    refine congrArg _ (funext fun m => ?_)
    rw [ih, block_eq]

theorem kern_eq (key : Vector U64 4) (flags fs fe : Byte) (blocks : Nat) (deltas : List U64) (inputs : List Bytes)
    (off : U64) (out : Bytes) :
    hash4_avx2 inputs blocks key off deltas flags fs fe out =
      kern ops set1 key flags fs fe blocks deltas transpose_msg_vecs hash4_avx2_store load_offsets inputs off out := by
  simp only [hash4_avx2, kern, loop_eq]

theorem store_ok : StoreOk 4 L hash4_avx2_store := by
  intro h out hout
  unfold hash4_avx2_store storeu
  refine (store4 out _ _ _ _ 32 (length_regBytes64 4 _) (length_regBytes64 4 _) (length_regBytes64 4 _)
    (length_regBytes64 4 _) hout).trans (congrArg Except.ok ?_)
  have r4 : ∀ x : M256, regBytes 32 x = (List.range 4).flatMap fun i => leBytes64 (lane 64 x i) :=
    fun x => regBytes_lanes 4 x
  have t0 := fun vs r hr => tr_ok vs r 0 hr (by decide)
  have t1 := fun vs r hr => tr_ok vs r 1 hr (by decide)
  have t2 := fun vs r hr => tr_ok vs r 2 hr (by decide)
  have t3 := fun vs r hr => tr_ok vs r 3 hr (by decide)
  simp only [L] at t0 t1 t2 t3
  simp only [r4, show List.range 4 = [0, 1, 2, 3] by decide, List.flatMap_cons, List.flatMap_nil, t0, t1, t2, t3,
    cvBytes_toList, Vector.getElem_map, List.append_assoc, List.append_nil]

theorem offs_ok (δ : Nat → U64) (deltas : List U64) (hd : ∀ i, i < 4 → deltas[i]? = some (δ i)) :
    OffsOk 4 L δ deltas load_offsets := by
  intro off
  obtain ⟨x, e, hx⟩ := offs_lane 4 δ deltas hd
  refine ⟨_, by unfold load_offsets; rw [e, bind_ok, pure_eq], fun i hi => ?_⟩
  refine (lane256_add64 _ _ i hi).trans ?_
  rw [hx i hi]
  exact congrArg (· + _) (lane_set1 i hi off)

theorem loop4_good (key : Vector U64 4) (d : U64) (flags fs fe : Byte) (blocks : Nat) (deltas : List U64)
    (hd : ∀ i, i ≤ 4 → deltas[i]? = some (BitVec.ofNat 64 i * d)) :
    Good key d flags fs fe blocks none (hash_many_avx2_loop blocks key deltas flags fs fe) := by
  refine loop_ok key d flags fs fe blocks 4 (by decide) deltas
    (fun inputs off out => hash4_avx2 inputs blocks key off deltas flags fs fe out) _
    (fun num inputs off out => C64.Sse41.hash_many_sse41 inputs num blocks key off deltas flags fs fe out) ?_ ?_
    ((Sse41.loop2_good key d flags fs fe blocks deltas (fun i hi => hd i (by omega))).mono _ _ _ _ _ _ _) (hd 4 (by decide))
  · intro num inputs off out
    rw [hash_many_avx2_loop]
    by_cases h : 4 ≤ num
    · rw [dif_pos h, if_pos h]; rfl
    · rw [dif_neg h, if_neg h]
  · intro inputs off out h1 h2 h3
    refine (kern_eq ..).trans ?_
    exact kern_ok 4 L ops _ key d flags fs fe blocks deltas _ _ _ hom lane_set1 msg_ok store_ok
      (offs_ok (fun i => BitVec.ofNat 64 i * d) deltas fun i hi => hd i (Nat.le_of_lt hi)) inputs off out h1 h2 h3

end Baokeshed.Proofs.W64.Avx2
