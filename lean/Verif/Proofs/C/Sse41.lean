import Verif.Model.C.Sse41
import Verif.Proofs.C.Kernel

/-! # C: the SSE4.1 back end -/

set_option linter.unusedVariables false
set_option linter.unusedSimpArgs false

namespace Baokeshed.Proofs.C.Sse41
open Baokeshed.Model Baokeshed.Model.C Baokeshed.Model.C.Sse41
attribute [local irreducible] Spec.compress Spec.cvBytes

/-- lane `i` -/
abbrev L (i : Nat) (x : M128) : Word := lane 32 x i

/-! ## compress -/

theorem g1_eq : g1 = Model.Sse41.g1 := rfl
theorem g2_eq : g2 = Model.Sse41.g2 := rfl
theorem diag_eq : diagonalize = Model.Sse41.diagonalize := rfl
theorem undiag_eq : undiagonalize = Model.Sse41.undiagonalize := rfl
theorem round1_eq : compress_round1 = Model.Sse41.compress_round1 := by
  unfold compress_round1 Model.Sse41.compress_round1
  rw [g1_eq, g2_eq, diag_eq, undiag_eq]
theorem round2_eq : compress_round2 = Model.Sse41.compress_round2 := by
  unfold compress_round2 Model.Sse41.compress_round2
  rw [g1_eq, g2_eq, diag_eq, undiag_eq]
theorem round3_eq : compress_round3 = Model.Sse41.compress_round3 := by
  unfold compress_round3 Model.Sse41.compress_round3
  rw [g1_eq, g2_eq, diag_eq, undiag_eq]
theorem round4_eq : compress_round4 = Model.Sse41.compress_round4 := by
  unfold compress_round4 Model.Sse41.compress_round4
  rw [g1_eq, g2_eq, diag_eq, undiag_eq]
theorem round5_eq : compress_round5 = Model.Sse41.compress_round5 := by
  unfold compress_round5 Model.Sse41.compress_round5
  rw [g1_eq, g2_eq, diag_eq, undiag_eq]
theorem round6_eq : compress_round6 = Model.Sse41.compress_round6 := by
  unfold compress_round6 Model.Sse41.compress_round6
  rw [g1_eq, g2_eq, diag_eq, undiag_eq]
theorem round7_eq : compress_round7 = Model.Sse41.compress_round7 := by
  unfold compress_round7 Model.Sse41.compress_round7
  rw [g1_eq, g2_eq, diag_eq, undiag_eq]

/-- the output step -/
def fin (rows : Rows) : Vector Word 8 := store_state (xorv rows.row1 rows.row3) (xorv rows.row2 rows.row4)

theorem fin_eq (rows : Rows) : fin rows = sseOut rows := rfl

theorem set4_eq : set4 = Model.Sse41.set4 := rfl

theorem compress_ok : CompressOk compress_sse41 := by
  intro cv block len off fl h
  have e : compress_sse41 cv block len off fl = (loadu block 0 >>= fun m0 => loadu block 16 >>= fun m1 =>
      loadu block 32 >>= fun m2 => loadu block 48 >>= fun m3 =>
      .ok (fin (compress_round7 m0 m1 m2 m3
        (compress_round6 m0 m1 m2 m3
        (compress_round5 m0 m1 m2 m3
        (compress_round4 m0 m1 m2 m3
        (compress_round3 m0 m1 m2 m3
        (compress_round2 m0 m1 m2 m3
        (compress_round1 m0 m1 m2 m3
        ⟨loadArr (memOfWords cv) 0, loadArr (memOfWords cv) 16,
          set4 C.IV[0] C.IV[1] C.IV[2] C.IV[3], set4 (C.offset_low off) (C.offset_high off) (len.setWidth 32) (fl.setWidth 32)⟩))))))))) := rfl
  have e' : Model.Sse41.compress_inner cv (Spec.pad block) len off fl =
      (Model.Sse41.compress_round7 (loadArr (Spec.pad block) 0) (loadArr (Spec.pad block) 16) (loadArr (Spec.pad block) 32) (loadArr (Spec.pad block) 48)
        (Model.Sse41.compress_round6 (loadArr (Spec.pad block) 0) (loadArr (Spec.pad block) 16) (loadArr (Spec.pad block) 32) (loadArr (Spec.pad block) 48)
        (Model.Sse41.compress_round5 (loadArr (Spec.pad block) 0) (loadArr (Spec.pad block) 16) (loadArr (Spec.pad block) 32) (loadArr (Spec.pad block) 48)
        (Model.Sse41.compress_round4 (loadArr (Spec.pad block) 0) (loadArr (Spec.pad block) 16) (loadArr (Spec.pad block) 32) (loadArr (Spec.pad block) 48)
        (Model.Sse41.compress_round3 (loadArr (Spec.pad block) 0) (loadArr (Spec.pad block) 16) (loadArr (Spec.pad block) 32) (loadArr (Spec.pad block) 48)
        (Model.Sse41.compress_round2 (loadArr (Spec.pad block) 0) (loadArr (Spec.pad block) 16) (loadArr (Spec.pad block) 32) (loadArr (Spec.pad block) 48)
        (Model.Sse41.compress_round1 (loadArr (Spec.pad block) 0) (loadArr (Spec.pad block) 16) (loadArr (Spec.pad block) 32) (loadArr (Spec.pad block) 48)
        ⟨loadArr (memOfWords cv) 0, loadArr (memOfWords cv) 16, Model.Sse41.set4 Model.IV[0] Model.IV[1] Model.IV[2] Model.IV[3],
          Model.Sse41.set4 (Model.offset_low off) (Model.offset_high off) (len.setWidth 32) (fl.setWidth 32)⟩))))))) := rfl
  have e2 : Model.Sse41.compress cv (Spec.pad block) len off fl =
    sseOut (Model.Sse41.compress_inner cv (Spec.pad block) len off fl) := rfl
  rw [e]
  unfold loadu mm_loadu_si128
  rw [load_arr block h (0) (by decide), bind_ok, load_arr block h (16) (by decide), bind_ok,
    load_arr block h (32) (by decide), bind_ok, load_arr block h (48) (by decide), bind_ok,
    ← compress_eq, ← sse41_compress_eq, e2, e', fin_eq, round1_eq, round2_eq, round3_eq, round4_eq, round5_eq,
    round6_eq, round7_eq, set4_eq, iv_eq, offset_low_eq, offset_high_eq]

/-! ## the kernel -/

def ops : Ops M128 := ⟨addv, xorv, rot16, rot12, rot8, rot7⟩

theorem hom (i : Nat) (hi : i < 4) : LaneHom ops (L i) where
  add a b := lane_add a b i hi
  xor a b := lane_xor 32 a b i
  rot16 a := lane_rot16 a i hi
  rot12 a := lane_rot12 a i hi
  rot8 a := lane_rot8 a i hi
  rot7 a := lane_rot7 a i hi

theorem lane_set1' (i : Nat) (hi : i < 4) (x : Word) : L i (set1 x) = x := lane_set1 x i hi

theorem load_ok : LoadOk 4 L loadu := by
  intro p off h
  exact ⟨_, loadBytes_ok 16 p off h, fun j hj => lane32_fromLanes8 4 _ j hj⟩

theorem tr_ok : TrOk 4 L transpose_vecs := by
  intro vs r p hr hp
  have e : transpose_vecs vs = Model.Sse41.transpose_vecs #v[vs[0], vs[1], vs[2], vs[3]] := rfl
  simp only [e, transpose4]
  rcases r with _|_|_|_|r
  · rcases p with _|_|_|_|p
    all_goals first | omega | exact lane_setr _ _ _ _ _ hp
  · rcases p with _|_|_|_|p
    all_goals first | omega | exact lane_setr _ _ _ _ _ hp
  · rcases p with _|_|_|_|p
    all_goals first | omega | exact lane_setr _ _ _ _ _ hp
  · rcases p with _|_|_|_|p
    all_goals first | omega | exact lane_setr _ _ _ _ _ hp
  · omega

theorem msg_ok : MsgOk 4 L transpose_msg_vecs := msg4_ok L loadu transpose_vecs load_ok tr_ok

theorem round_eq (v m : Vector M128 16) (r : Fin 7) :
    round_fn v m r = ops.round v m (Model.MSG_SCHEDULE.get r) := by
  simp only [round_fn, Ops.round, ops, msg_schedule_eq]

theorem block_eq (h : Vector M128 8) (lo hi len fl : M128) (m : Vector M128 16) :
    hash4_sse41_block h lo hi len fl m =
      ops.block (set1 Model.IV[0]) (set1 Model.IV[1]) (set1 Model.IV[2]) (set1 Model.IV[3]) h lo hi len fl m := by
  unfold hash4_sse41_block Ops.block
  simp only [round_eq]
  rfl

theorem loop_eq (inputs : List Bytes) (blocks : Nat) (lo hi : M128) (flags fe : Byte) (n block : Nat)
    (h : Vector M128 8) (bf : Byte) :
    hash4_sse41_loop inputs blocks lo hi flags fe n block h bf =
      loopG (fun b => transpose_msg_vecs inputs (b * 64))
        (fun h bf m => ops.block (set1 Model.IV[0]) (set1 Model.IV[1]) (set1 Model.IV[2]) (set1 Model.IV[3]) h lo hi
          (set1 (BitVec.ofNat 32 64)) (set1 (bf.setWidth 32)) m) blocks flags fe n block h bf := by
  induction n generalizing block h bf with
  | zero => rfl
  | succ n ih =>
    rw [hash4_sse41_loop, loopG]
    refine congrArg _ (funext fun m => ?_)
    rw [ih, block_eq]

theorem kern_eq (key : Vector Word 8) (flags fs fe : Byte) (blocks : Nat) (deltas : List U64) (inputs : List Bytes)
    (off : U64) (out : Bytes) :
    hash4_sse41 inputs blocks key off deltas flags fs fe out =
      kern ops set1 key flags fs fe blocks deltas transpose_msg_vecs hash4_sse41_store load_offsets inputs off out := by
  simp only [hash4_sse41, kern, loop_eq]

theorem store_ok : StoreOk 4 L hash4_sse41_store := by
  intro h out hout
  unfold hash4_sse41_store storeu
  refine (store8 out _ _ _ _ _ _ _ _ 16 (length_regBytes _ _) (length_regBytes _ _) (length_regBytes _ _)
    (length_regBytes _ _) (length_regBytes _ _) (length_regBytes _ _) (length_regBytes _ _)
    (length_regBytes _ _) hout).trans (congrArg Except.ok ?_)
  have r4 : ∀ x : M128, regBytes 16 x = (List.range 4).flatMap fun i => leBytes (lane 32 x i) :=
    fun x => regBytes_lanes 4 x
  have t0 := fun vs r hr => tr_ok vs r 0 hr (by decide)
  have t1 := fun vs r hr => tr_ok vs r 1 hr (by decide)
  have t2 := fun vs r hr => tr_ok vs r 2 hr (by decide)
  have t3 := fun vs r hr => tr_ok vs r 3 hr (by decide)
  simp only [L] at t0 t1 t2 t3
  simp only [r4, show List.range 4 = [0, 1, 2, 3] by decide, List.flatMap_cons, List.flatMap_nil, t0, t1, t2, t3,
    cvBytes_toList, Vector.getElem_map, List.append_assoc, List.append_nil]
  rfl

/-- `offset_deltas[i]` is `i * d`, for `i` up to `n` -/
theorem offs_ok (δ : Nat → U64) (deltas : List U64) (hd : ∀ i, i < 4 → deltas[i]? = some (δ i)) :
    OffsOk 4 L δ deltas load_offsets := by
  intro off
  refine ⟨_, _, by
    unfold load_offsets
    rw [cIndex_some _ _ _ (hd 0 (by decide)), bind_ok, cIndex_some _ _ _ (hd 1 (by decide)), bind_ok,
      cIndex_some _ _ _ (hd 2 (by decide)), bind_ok, cIndex_some _ _ _ (hd 3 (by decide)), bind_ok, pure_eq], ?_⟩
  intro i hi
  rcases i with _|_|_|_|i
  all_goals first | omega | exact ⟨lane_setr _ _ _ _ _ hi, lane_setr _ _ _ _ _ hi⟩

/-! ## hash_many -/

theorem one_loop_eq (flags fe : Byte) (off : U64) (blocks : Nat) (state : Vector Word 8) (input : Bytes) (bf : Byte) :
    hash_one_sse41_loop flags fe off blocks state input bf = oneLoop compress_sse41 flags fe off blocks state input bf := by
  induction blocks generalizing state input bf with
  | zero => rfl
  | succ n ih => simp only [hash_one_sse41_loop, oneLoop, ih]

theorem one_eq (key : Vector Word 8) (flags fs fe : Byte) (blocks : Nat) (input : Bytes) (off : U64)
    (out : Bytes) (hi : 64 * blocks ≤ input.length) (ho : 32 ≤ out.length) :
    hash_one_sse41 input blocks key off flags fs fe out =
      .ok ((Spec.cvBytes (Spec.blockChain key off flags fs fe blocks input)).toList ++ out.drop 32) := by
  rw [hash_one_sse41, one_loop_eq, oneLoop_eq compress_ok _ _ _ _ _ _ _ hi, bind_ok,
    cvLoop_chain _ _ _ _ _ _ _ hi, mem_store_eq _ _ ho]

theorem loop1_good (key : Vector Word 8) (d : U64) (flags fs fe : Byte) (blocks : Nat) (deltas : List U64)
    (hd : deltas[1]? = some (BitVec.ofNat 64 1 * d)) :
    Good key d flags fs fe blocks none (hash_many_sse41_loop1 blocks key deltas flags fs fe) := by
  refine loop_ok key d flags fs fe blocks 1 (by decide) deltas
    (fun inputs off out => do hash_one_sse41 (← cIndex inputs 0) blocks key off flags fs fe out) _
    (fun _ _ _ out => .ok out) ?_ (one_ker key d flags fs fe blocks _ (one_eq key flags fs fe blocks))
    (good_zero key d flags fs fe blocks) hd
  intro num inputs off out
  cases num with
  | zero => rw [if_neg (by omega)]; rfl
  | succ n =>
    rw [if_pos (by omega), hash_many_sse41_loop1, batch]
    simp only [Nat.add_sub_cancel, bind_assoc, Nat.one_mul]

theorem loop4_good (key : Vector Word 8) (d : U64) (flags fs fe : Byte) (blocks : Nat) (deltas : List U64)
    (hd : ∀ i, i ≤ 4 → deltas[i]? = some (BitVec.ofNat 64 i * d)) :
    Good key d flags fs fe blocks none (hash_many_sse41_loop4 blocks key deltas flags fs fe) := by
  refine loop_ok key d flags fs fe blocks 4 (by decide) deltas
    (fun inputs off out => hash4_sse41 inputs blocks key off deltas flags fs fe out) _
    (hash_many_sse41_loop1 blocks key deltas flags fs fe) ?_ ?_
    ((loop1_good key d flags fs fe blocks deltas (hd 1 (by decide))).mono _ _ _ _ _ _ _) (hd 4 (by decide))
  · intro num inputs off out
    rw [hash_many_sse41_loop4]
    by_cases h : 4 ≤ num
    · rw [dif_pos h, if_pos h]; rfl
    · rw [dif_neg h, if_neg h]
  · intro inputs off out h1 h2 h3
    refine (kern_eq ..).trans ?_
    exact kern_ok 4 L ops set1 key d flags fs fe blocks deltas _ _ _ hom lane_set1' msg_ok store_ok
      (offs_ok (fun i => BitVec.ofNat 64 i * d) deltas fun i hi => hd i (Nat.le_of_lt hi)) inputs off out h1 h2 h3

end Baokeshed.Proofs.C.Sse41
