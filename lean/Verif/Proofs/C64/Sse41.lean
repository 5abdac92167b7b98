import Verif.Model.C64.Sse41
import Verif.Proofs.C64.Kernel
import Verif.Proofs.C64.Simd

/-! # C, 64-bit variant: the SSE4.1 back end -/

set_option linter.unusedVariables false
set_option linter.unusedSimpArgs false

namespace Baokeshed.Proofs.W64.Sse41
open Baokeshed.Model
open Baokeshed.Model.Portable64 (leWord64 leBytes64)
open Baokeshed.Model.C (cIndex cAdvance cStore)
open Baokeshed.Model.C64 (BLOCK_LEN OUT_LEN)
open Baokeshed.Proofs.C (cIndex_ok cIndex_getD cIndex_some cAdvance_ok cStore_append cStore_zero getElem_vec4 getElem_vec8)
open Baokeshed.Model.C64.Sse41
attribute [local irreducible] Spec64.compress Spec64.cvBytes

/-! ## 2 lanes -/

/-- lane `i` -/
abbrev L (i : Nat) (x : M128) : U64 := lane 64 x i

def ops : Ops M128 := ⟨addv, xorv, rot32, rot24, rot16, rot63⟩

theorem hom (i : Nat) (hi : i < 2) : LaneHom ops (L i) where
  add a b := lane64_add a b i hi
  xor a b := lane_xor 64 a b i
  rot32 a := lane64_shuffle32 a i hi
  rot24 a := by
    refine lane64_shuffle8 a _ 3 (by decide) (fun i hi => ?_) i hi
    rw [lane64_setr8 _ i hi]
    revert i; decide
  rot16 a := by
    refine lane64_shuffle8 a _ 2 (by decide) (fun i hi => ?_) i hi
    rw [lane64_setr8 _ i hi]
    revert i; decide
  rot63 a := by
    refine (lane_or 64 _ _ i).trans ?_
    rw [lane64_srli _ _ _ hi, lane64_add _ _ _ hi]; exact rot63_add _

theorem lane_set1 (i : Nat) (hi : i < 2) (x : U64) : L i (set1 x) = x := lane64_set1 x i hi

theorem load_ok : LoadOk 2 L loadu := by
  intro p off h
  exact ⟨_, loadBytes_ok 16 p off h, fun j hj => lane64_fromLanes8 2 _ j hj⟩

theorem tr_ok : TrOk 2 L transpose_vecs := by
  intro vs r p hr hp
  rcases r with _|_|r
  · refine (lane64_set _ _ p hp).trans ?_
    rcases p with _|_|p
    all_goals first | rfl | omega
  · refine (lane64_set _ _ p hp).trans ?_
    rcases p with _|_|p
    all_goals first | rfl | omega
  · omega

theorem msg_ok : MsgOk 2 L transpose_msg_vecs := msg2_ok L loadu transpose_vecs load_ok tr_ok

theorem round_eq (v m : Vector M128 16) (r : Fin 8) :
    round_fn v m r = ops.round v m (Portable64.MSG_SCHEDULE.get r) := by
  simp only [round_fn, Ops.round, ops, msg_schedule_eq]

theorem block_eq (h : Vector M128 4) (off len fl : M128) (m : Vector M128 16) :
    hash2_sse41_block h off len fl m = ops.block (ivs set1) h off len fl m := by
  unfold hash2_sse41_block Ops.block
  simp only [round_eq, iv_eq]
  rfl

theorem loop_eq (inputs : List Bytes) (blocks : Nat) (off : M128) (flags fe : Byte) (n block : Nat)
    (h : Vector M128 4) (bf : Byte) :
    hash2_sse41_loop inputs blocks off flags fe n block h bf =
      loopG (fun b => transpose_msg_vecs inputs (b * 128))
        (fun h bf m => ops.block (ivs set1) h off
          (set1 (BitVec.ofNat 64 128)) (set1 (bf.setWidth 64)) m) blocks flags fe n block h bf := by
  induction n generalizing block h bf with
  | zero => rfl
  | succ n ih =>
    rw [hash2_sse41_loop, loopG]
    refine congrArg _ (funext fun m => ?_)
    rw [ih, block_eq]

theorem kern_eq (key : Vector U64 4) (flags fs fe : Byte) (blocks : Nat) (deltas : List U64) (inputs : List Bytes)
    (off : U64) (out : Bytes) :
    hash2_sse41 inputs blocks key off deltas flags fs fe out =
      kern ops set1 key flags fs fe blocks deltas transpose_msg_vecs hash2_sse41_store load_offsets inputs off out := by
  simp only [hash2_sse41, kern, loop_eq]

theorem store_ok : StoreOk 2 L hash2_sse41_store := by
  intro h out hout
  unfold hash2_sse41_store storeu
  refine (store4 out _ _ _ _ 16 (length_regBytes64 2 _) (length_regBytes64 2 _) (length_regBytes64 2 _)
    (length_regBytes64 2 _) hout).trans (congrArg Except.ok ?_)
  have r2 : ∀ x : M128, regBytes 16 x = (List.range 2).flatMap fun i => leBytes64 (lane 64 x i) :=
    fun x => regBytes_lanes 2 x
  have t0 := fun vs r hr => tr_ok vs r 0 hr (by decide)
  have t1 := fun vs r hr => tr_ok vs r 1 hr (by decide)
  simp only [L] at t0 t1
  simp only [r2, show List.range 2 = [0, 1] by decide, List.flatMap_cons, List.flatMap_nil, t0 _ 0 (by decide), t0 _ 1 (by decide), t1 _ 0 (by decide), t1 _ 1 (by decide),
    cvBytes_toList, Vector.getElem_map, List.append_assoc, List.append_nil]
  rfl

theorem offs_ok (δ : Nat → U64) (deltas : List U64) (hd : ∀ i, i < 2 → deltas[i]? = some (δ i)) :
    OffsOk 2 L δ deltas load_offsets := by
  intro off
  obtain ⟨x, e, hx⟩ := offs_lane 2 δ deltas hd
  refine ⟨_, by unfold load_offsets; rw [e, bind_ok, pure_eq], fun i hi => ?_⟩
  refine (lane64_add _ _ i hi).trans ?_
  rw [hx i hi]
  exact congrArg (· + _) (lane_set1 i hi off)

theorem loop2_good (key : Vector U64 4) (d : U64) (flags fs fe : Byte) (blocks : Nat) (deltas : List U64)
    (hd : ∀ i, i ≤ 2 → deltas[i]? = some (BitVec.ofNat 64 i * d)) :
    Good key d flags fs fe blocks none (hash_many_sse41_loop blocks key deltas flags fs fe) := by
  refine loop_ok key d flags fs fe blocks 2 (by decide) deltas
    (fun inputs off out => hash2_sse41 inputs blocks key off deltas flags fs fe out) _
    (fun num inputs off out => C64.Portable.hash_many_portable inputs num blocks key off deltas flags fs fe out) ?_ ?_
    ((portable_good key d flags fs fe blocks deltas (hd 1 (by decide))).mono _ _ _ _ _ _ _) (hd 2 (by decide))
  · intro num inputs off out
    rw [hash_many_sse41_loop]
    by_cases h : 2 ≤ num
    · rw [dif_pos h, if_pos h]; rfl
    · rw [dif_neg h, if_neg h]
  · intro inputs off out h1 h2 h3
    refine (kern_eq ..).trans ?_
    exact kern_ok 2 L ops _ key d flags fs fe blocks deltas _ _ _ hom lane_set1 msg_ok store_ok
      (offs_ok (fun i => BitVec.ofNat 64 i * d) deltas fun i hi => hd i (Nat.le_of_lt hi)) inputs off out h1 h2 h3

end Baokeshed.Proofs.W64.Sse41
