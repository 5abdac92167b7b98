import Verif.Model.C.Avx512
import Verif.Proofs.C.Avx2

/-! # C: the AVX-512 back end -/

set_option linter.unusedVariables false
set_option linter.unusedSimpArgs false

namespace Baokeshed.Proofs.C.Avx512
open Baokeshed.Model Baokeshed.Model.C Baokeshed.Model.C.Avx512
attribute [local irreducible] Spec.compress Spec.cvBytes

/-- lane `i` -/
abbrev L {n : Nat} (i : Nat) (x : BitVec n) : Word := lane 32 x i

/-! ## compress -/

theorem lane_ror128 (x : M128) (n i : Nat) (hi : i < 4) : lane 32 (mm_ror_epi32 x n) i = (lane 32 x i).rotateRight n := by
  unfold mm_ror_epi32; rw [lane_fromLanes 32 4 _ i hi]
theorem lane_ror256 (x : M256) (n i : Nat) (hi : i < 8) : lane 32 (mm256_ror_epi32 x n) i = (lane 32 x i).rotateRight n := by
  unfold mm256_ror_epi32; rw [lane_fromLanes 32 8 _ i hi]
theorem lane_ror512 (x : M512) (n i : Nat) (hi : i < 16) : lane 32 (mm512_ror_epi32 x n) i = (lane 32 x i).rotateRight n := by
  unfold mm512_ror_epi32; rw [lane_fromLanes 32 16 _ i hi]

theorem rot16_eq : rot16_128 = Model.Sse41.rot16 := funext fun x => lanes_ext 32 4 fun i hi =>
  (lane_ror128 x 16 i hi).trans (Proofs.lane_rot16 x i hi).symm
theorem rot12_eq : rot12_128 = Model.Sse41.rot12 := funext fun x => lanes_ext 32 4 fun i hi =>
  (lane_ror128 x 12 i hi).trans (Proofs.lane_rot12 x i hi).symm
theorem rot8_eq : rot8_128 = Model.Sse41.rot8 := funext fun x => lanes_ext 32 4 fun i hi =>
  (lane_ror128 x 8 i hi).trans (Proofs.lane_rot8 x i hi).symm
theorem rot7_eq : rot7_128 = Model.Sse41.rot7 := funext fun x => lanes_ext 32 4 fun i hi =>
  (lane_ror128 x 7 i hi).trans (Proofs.lane_rot7 x i hi).symm

theorem g1_eq : g1 = Model.Sse41.g1 := by
  funext r m
  obtain ⟨r1, r2, r3, r4⟩ := r
  unfold g1 Model.Sse41.g1
  rw [rot16_eq, rot12_eq]; rfl
theorem g2_eq : g2 = Model.Sse41.g2 := by
  funext r m
  obtain ⟨r1, r2, r3, r4⟩ := r
  unfold g2 Model.Sse41.g2
  rw [rot8_eq, rot7_eq]; rfl
theorem diag_eq : diagonalize = Model.Sse41.diagonalize := rfl
theorem undiag_eq : undiagonalize = Model.Sse41.undiagonalize := rfl
theorem round1_eq : compress_round1 = Model.Sse41.compress_round1 := by
  unfold compress_round1 Model.Sse41.compress_round1
  rw [g1_eq, g2_eq, diag_eq, undiag_eq]
theorem round2_eq : compress_round2 = Model.Sse41.compress_round2 := by
  unfold compress_round2 Model.Sse41.compress_round2
  rw [g1_eq, g2_eq, diag_eq, undiag_eq]
theorem round3_eq : compress_round3 = Model.Sse41.compress_round3 := by
  unfold compress_round3 Model.Sse41.compress_round3
  rw [g1_eq, g2_eq, diag_eq, undiag_eq]
theorem round4_eq : compress_round4 = Model.Sse41.compress_round4 := by
  unfold compress_round4 Model.Sse41.compress_round4
  rw [g1_eq, g2_eq, diag_eq, undiag_eq]
theorem round5_eq : compress_round5 = Model.Sse41.compress_round5 := by
  unfold compress_round5 Model.Sse41.compress_round5
  rw [g1_eq, g2_eq, diag_eq, undiag_eq]
theorem round6_eq : compress_round6 = Model.Sse41.compress_round6 := by
  unfold compress_round6 Model.Sse41.compress_round6
  rw [g1_eq, g2_eq, diag_eq, undiag_eq]
theorem round7_eq : compress_round7 = Model.Sse41.compress_round7 := by
  unfold compress_round7 Model.Sse41.compress_round7
  rw [g1_eq, g2_eq, diag_eq, undiag_eq]

/-- the output step -/
def fin (rows : Rows) : Vector Word 8 := store_state (xor_128 rows.row1 rows.row3) (xor_128 rows.row2 rows.row4)

theorem fin_eq (rows : Rows) : fin rows = sseOut rows := rfl

theorem set4_eq : set4 = Model.Sse41.set4 := rfl

theorem compress_ok : CompressOk compress_avx512 := by
  intro cv block len off fl h
  have e : compress_avx512 cv block len off fl = (loadu_128 block 0 >>= fun m0 => loadu_128 block 16 >>= fun m1 =>
      loadu_128 block 32 >>= fun m2 => loadu_128 block 48 >>= fun m3 =>
      .ok (fin (compress_round7 m0 m1 m2 m3
        (compress_round6 m0 m1 m2 m3
        (compress_round5 m0 m1 m2 m3
        (compress_round4 m0 m1 m2 m3
        (compress_round3 m0 m1 m2 m3
        (compress_round2 m0 m1 m2 m3
        (compress_round1 m0 m1 m2 m3
        ⟨loadArr (memOfWords cv) 0, loadArr (memOfWords cv) 16,
          set4 C.IV[0] C.IV[1] C.IV[2] C.IV[3], set4 (C.offset_low off) (C.offset_high off) (len.setWidth 32) (fl.setWidth 32)⟩))))))))) := rfl
  have e' : Model.Sse41.compress_inner cv (Spec.pad block) len off fl =
      (Model.Sse41.compress_round7 (loadArr (Spec.pad block) 0) (loadArr (Spec.pad block) 16) (loadArr (Spec.pad block) 32) (loadArr (Spec.pad block) 48)
        (Model.Sse41.compress_round6 (loadArr (Spec.pad block) 0) (loadArr (Spec.pad block) 16) (loadArr (Spec.pad block) 32) (loadArr (Spec.pad block) 48)
        (Model.Sse41.compress_round5 (loadArr (Spec.pad block) 0) (loadArr (Spec.pad block) 16) (loadArr (Spec.pad block) 32) (loadArr (Spec.pad block) 48)
        (Model.Sse41.compress_round4 (loadArr (Spec.pad block) 0) (loadArr (Spec.pad block) 16) (loadArr (Spec.pad block) 32) (loadArr (Spec.pad block) 48)
        (Model.Sse41.compress_round3 (loadArr (Spec.pad block) 0) (loadArr (Spec.pad block) 16) (loadArr (Spec.pad block) 32) (loadArr (Spec.pad block) 48)
        (Model.Sse41.compress_round2 (loadArr (Spec.pad block) 0) (loadArr (Spec.pad block) 16) (loadArr (Spec.pad block) 32) (loadArr (Spec.pad block) 48)
        (Model.Sse41.compress_round1 (loadArr (Spec.pad block) 0) (loadArr (Spec.pad block) 16) (loadArr (Spec.pad block) 32) (loadArr (Spec.pad block) 48)
        ⟨loadArr (memOfWords cv) 0, loadArr (memOfWords cv) 16, Model.Sse41.set4 Model.IV[0] Model.IV[1] Model.IV[2] Model.IV[3],
          Model.Sse41.set4 (Model.offset_low off) (Model.offset_high off) (len.setWidth 32) (fl.setWidth 32)⟩))))))) := rfl
  have e2 : Model.Sse41.compress cv (Spec.pad block) len off fl =
    sseOut (Model.Sse41.compress_inner cv (Spec.pad block) len off fl) := rfl
  rw [e]
  unfold loadu_128 mm_loadu_si128
  rw [load_arr block h (0) (by decide), bind_ok, load_arr block h (16) (by decide), bind_ok,
    load_arr block h (32) (by decide), bind_ok, load_arr block h (48) (by decide), bind_ok,
    ← compress_eq, ← sse41_compress_eq, e2, e', fin_eq, round1_eq, round2_eq, round3_eq, round4_eq, round5_eq,
    round6_eq, round7_eq, set4_eq, iv_eq, offset_low_eq, offset_high_eq]


/-! ## four lanes -/

def ops4 : Ops M128 := ⟨add_128, xor_128, rot16_128, rot12_128, rot8_128, rot7_128⟩

theorem hom4 (i : Nat) (hi : i < 4) : LaneHom ops4 (L i) where
  add a b := lane_add a b i hi
  xor a b := lane_xor 32 a b i
  rot16 a := lane_ror128 a 16 i hi
  rot12 a := lane_ror128 a 12 i hi
  rot8 a := lane_ror128 a 8 i hi
  rot7 a := lane_ror128 a 7 i hi

theorem lane_set14 (i : Nat) (hi : i < 4) (x : Word) : L i (set1_128 x) = x := lane_set1 x i hi

theorem load_ok4 : LoadOk 4 L loadu_128 := by
  intro p off h
  exact ⟨_, loadBytes_ok 16 p off h, fun j hj => lane32_fromLanes8 4 _ j hj⟩

theorem tr_ok4 : TrOk 4 L transpose_vecs_128 := by
  intro vs r p hr hp
  have e : transpose_vecs_128 vs = Model.Sse41.transpose_vecs #v[vs[0], vs[1], vs[2], vs[3]] := rfl
  simp only [e, transpose4]
  rcases r with _|_|_|_|r
  · rcases p with _|_|_|_|p
    all_goals first | omega | exact lane_setr _ _ _ _ _ hp
  · rcases p with _|_|_|_|p
    all_goals first | omega | exact lane_setr _ _ _ _ _ hp
  · rcases p with _|_|_|_|p
    all_goals first | omega | exact lane_setr _ _ _ _ _ hp
  · rcases p with _|_|_|_|p
    all_goals first | omega | exact lane_setr _ _ _ _ _ hp
  · omega

theorem msg_ok4 : MsgOk 4 L transpose_msg_vecs4 := msg4_ok L loadu_128 transpose_vecs_128 load_ok4 tr_ok4

theorem round_eq4 (v m : Vector M128 16) (r : Fin 7) :
    round_fn4 v m r = ops4.round v m (Model.MSG_SCHEDULE.get r) := by
  simp only [round_fn4, Ops.round, ops4, msg_schedule_eq]

theorem block_eq4 (h : Vector M128 8) (lo hi len fl : M128) (m : Vector M128 16) :
    hash4_avx512_block h lo hi len fl m =
      ops4.block (set1_128 Model.IV[0]) (set1_128 Model.IV[1]) (set1_128 Model.IV[2]) (set1_128 Model.IV[3]) h lo hi len fl m := by
  unfold hash4_avx512_block Ops.block
  simp only [round_eq4]
  rfl

theorem loop_eq4 (inputs : List Bytes) (blocks : Nat) (lo hi : M128) (flags fe : Byte) (n block : Nat)
    (h : Vector M128 8) (bf : Byte) :
    hash4_avx512_loop inputs blocks lo hi flags fe n block h bf =
      loopG (fun b => transpose_msg_vecs4 inputs (b * 64))
        (fun h bf m => ops4.block (set1_128 Model.IV[0]) (set1_128 Model.IV[1]) (set1_128 Model.IV[2]) (set1_128 Model.IV[3]) h lo hi
          (set1_128 (BitVec.ofNat 32 64)) (set1_128 (bf.setWidth 32)) m) blocks flags fe n block h bf := by
  induction n generalizing block h bf with
  | zero => rfl
  | succ n ih =>
    rw [hash4_avx512_loop, loopG]
    refine congrArg _ (funext fun m => ?_)
    rw [ih, block_eq4]

theorem kern_eq4 (key : Vector Word 8) (flags fs fe : Byte) (blocks : Nat) (deltas : List U64) (inputs : List Bytes)
    (off : U64) (out : Bytes) :
    hash4_avx512 inputs blocks key off deltas flags fs fe out =
      kern ops4 set1_128 key flags fs fe blocks deltas transpose_msg_vecs4 hash4_avx512_store Avx512.load_offsets4 inputs off out := by
  simp only [hash4_avx512, kern, loop_eq4]

theorem store_ok4 : StoreOk 4 L hash4_avx512_store := by
  intro h out hout
  unfold hash4_avx512_store storeu_128
  refine (store8 out _ _ _ _ _ _ _ _ 16 (length_regBytes _ _) (length_regBytes _ _) (length_regBytes _ _)
    (length_regBytes _ _) (length_regBytes _ _) (length_regBytes _ _) (length_regBytes _ _)
    (length_regBytes _ _) hout).trans (congrArg Except.ok ?_)
  have r4 : ∀ x : M128, regBytes 16 x = (List.range 4).flatMap fun i => leBytes (lane 32 x i) :=
    fun x => regBytes_lanes 4 x
  have t0 := fun vs r hr => tr_ok4 vs r 0 hr (by decide)
  have t1 := fun vs r hr => tr_ok4 vs r 1 hr (by decide)
  have t2 := fun vs r hr => tr_ok4 vs r 2 hr (by decide)
  have t3 := fun vs r hr => tr_ok4 vs r 3 hr (by decide)
  simp only [L] at t0 t1 t2 t3
  simp only [r4, show List.range 4 = [0, 1, 2, 3] by decide, List.flatMap_cons, List.flatMap_nil, t0, t1, t2, t3,
    cvBytes_toList, Vector.getElem_map, List.append_assoc, List.append_nil]
  rfl

theorem lane_cvt4 (a : BitVec (64 * 4)) (i : Nat) (hi : i < 4) :
    lane 32 (mm256_cvtepi64_epi32 a) i = (lane 64 a i).setWidth 32 := by
  unfold mm256_cvtepi64_epi32; rw [lane_fromLanes 32 4 _ i hi]

theorem lane_srl64_4 (a : BitVec (64 * 4)) (n i : Nat) (hi : i < 4) :
    lane 64 (mm256_srli_epi64 a n) i = lane 64 a i >>> n := by
  unfold mm256_srli_epi64; rw [lane_fromLanes 64 4 _ i hi]

theorem lane_sum4 (off : U64) (δ : Nat → U64) (deltas : List U64) (o i : Nat) (hi : i < 4)
    (hd : deltas[o + i]? = some (δ (o + i))) :
    lane 64 (mm256_add_epi64 (mm256_set1_epi64x off) (fromLanes 64 4 fun i => deltas.getD (o + i) 0)) i =
      off + δ (o + i) := by
  unfold mm256_add_epi64 mm256_set1_epi64x
  rw [lane_fromLanes 64 4 _ i hi, lane_fromLanes 64 4 _ i hi, lane_fromLanes 64 4 _ i hi,
    List.getD_eq_getElem?_getD, hd]; rfl

theorem offs_ok4 (δ : Nat → U64) (deltas : List U64) (hd : ∀ i, i < 4 → deltas[i]? = some (δ i)) :
    OffsOk 4 L δ deltas Avx512.load_offsets4 := by
  intro off
  have hl : 0 + 4 ≤ deltas.length := by
    have := (List.getElem?_eq_some_iff.mp (hd 3 (by decide))).1
    omega
  refine ⟨_, _, by
    unfold Avx512.load_offsets4 loadU64s
    rw [if_pos hl, bind_ok, pure_eq], ?_⟩
  intro i hi
  have e := lane_sum4 off δ deltas 0 i hi (by rw [Nat.zero_add]; exact hd i (by omega))
  rw [Nat.zero_add] at e
  unfold L
  constructor
  · rw [lane_cvt4 _ _ hi, e]; rfl
  · rw [lane_cvt4 _ _ hi, lane_srl64_4 _ _ _ hi, e]; rfl

/-! ## eight lanes -/

def ops8 : Ops M256 := ⟨add_256, xor_256, rot16_256, rot12_256, rot8_256, rot7_256⟩

theorem hom8 (i : Nat) (hi : i < 8) : LaneHom ops8 (L i) where
  add a b := lane256_add a b i hi
  xor a b := lane_xor 32 a b i
  rot16 a := lane_ror256 a 16 i hi
  rot12 a := lane_ror256 a 12 i hi
  rot8 a := lane_ror256 a 8 i hi
  rot7 a := lane_ror256 a 7 i hi

theorem lane_set18 (i : Nat) (hi : i < 8) (x : Word) : L i (set1_256 x) = x := lane256_set1' x i hi

theorem load_ok8 : LoadOk 8 L loadu_256 := by
  intro p off h
  exact ⟨_, loadBytes_ok 32 p off h, fun j hj => lane32_fromLanes8 8 _ j hj⟩

theorem tr_ok8 : TrOk 8 L transpose_vecs_256 := by
  intro vs r p hr hp
  have e : transpose_vecs_256 vs = C.Avx2.transpose_vecs vs := rfl
  rw [e]
  exact Avx2.tr_ok vs r p hr hp

theorem msg_ok8 : MsgOk 8 L transpose_msg_vecs8 := msg8_ok L loadu_256 transpose_vecs_256 load_ok8 tr_ok8

theorem round_eq8 (v m : Vector M256 16) (r : Fin 7) :
    round_fn8 v m r = ops8.round v m (Model.MSG_SCHEDULE.get r) := by
  simp only [round_fn8, Ops.round, ops8, msg_schedule_eq]

theorem block_eq8 (h : Vector M256 8) (lo hi len fl : M256) (m : Vector M256 16) :
    hash8_avx512_block h lo hi len fl m =
      ops8.block (set1_256 Model.IV[0]) (set1_256 Model.IV[1]) (set1_256 Model.IV[2]) (set1_256 Model.IV[3]) h lo hi len fl m := by
  unfold hash8_avx512_block Ops.block
  simp only [round_eq8]
  rfl

theorem loop_eq8 (inputs : List Bytes) (blocks : Nat) (lo hi : M256) (flags fe : Byte) (n block : Nat)
    (h : Vector M256 8) (bf : Byte) :
    hash8_avx512_loop inputs blocks lo hi flags fe n block h bf =
      loopG (fun b => transpose_msg_vecs8 inputs (b * 64))
        (fun h bf m => ops8.block (set1_256 Model.IV[0]) (set1_256 Model.IV[1]) (set1_256 Model.IV[2]) (set1_256 Model.IV[3]) h lo hi
          (set1_256 (BitVec.ofNat 32 64)) (set1_256 (bf.setWidth 32)) m) blocks flags fe n block h bf := by
  induction n generalizing block h bf with
  | zero => rfl
  | succ n ih =>
    rw [hash8_avx512_loop, loopG]
    refine congrArg _ (funext fun m => ?_)
    rw [ih, block_eq8]

theorem kern_eq8 (key : Vector Word 8) (flags fs fe : Byte) (blocks : Nat) (deltas : List U64) (inputs : List Bytes)
    (off : U64) (out : Bytes) :
    hash8_avx512 inputs blocks key off deltas flags fs fe out =
      kern ops8 set1_256 key flags fs fe blocks deltas transpose_msg_vecs8 hash8_avx512_store Avx512.load_offsets8 inputs off out := by
  simp only [hash8_avx512, kern, loop_eq8]

theorem store_ok8 : StoreOk 8 L hash8_avx512_store := by
  intro h out hout
  unfold hash8_avx512_store storeu_256
  refine (store8 out _ _ _ _ _ _ _ _ 32 (length_regBytes _ _) (length_regBytes _ _) (length_regBytes _ _)
    (length_regBytes _ _) (length_regBytes _ _) (length_regBytes _ _) (length_regBytes _ _)
    (length_regBytes _ _) hout).trans (congrArg Except.ok ?_)
  have r4 : ∀ x : M256, regBytes 32 x = (List.range 8).flatMap fun i => leBytes (lane 32 x i) :=
    fun x => regBytes_lanes 8 x
  have t0 := fun vs r hr => tr_ok8 vs r 0 hr (by decide)
  have t1 := fun vs r hr => tr_ok8 vs r 1 hr (by decide)
  have t2 := fun vs r hr => tr_ok8 vs r 2 hr (by decide)
  have t3 := fun vs r hr => tr_ok8 vs r 3 hr (by decide)
  have t4 := fun vs r hr => tr_ok8 vs r 4 hr (by decide)
  have t5 := fun vs r hr => tr_ok8 vs r 5 hr (by decide)
  have t6 := fun vs r hr => tr_ok8 vs r 6 hr (by decide)
  have t7 := fun vs r hr => tr_ok8 vs r 7 hr (by decide)
  simp only [L] at t0 t1 t2 t3 t4 t5 t6 t7
  simp only [r4, show List.range 8 = [0, 1, 2, 3, 4, 5, 6, 7] by decide, List.flatMap_cons, List.flatMap_nil, t0, t1, t2, t3, t4, t5, t6, t7,
    cvBytes_toList, Vector.getElem_map, List.append_assoc, List.append_nil]

theorem lane_cvt8 (a : BitVec (64 * 8)) (i : Nat) (hi : i < 8) :
    lane 32 (mm512_cvtepi64_epi32 a) i = (lane 64 a i).setWidth 32 := by
  unfold mm512_cvtepi64_epi32; rw [lane_fromLanes 32 8 _ i hi]

theorem lane_srl64_8 (a : BitVec (64 * 8)) (n i : Nat) (hi : i < 8) :
    lane 64 (mm512_srli_epi64 a n) i = lane 64 a i >>> n := by
  unfold mm512_srli_epi64; rw [lane_fromLanes 64 8 _ i hi]

theorem lane_sum8 (off : U64) (δ : Nat → U64) (deltas : List U64) (o i : Nat) (hi : i < 8)
    (hd : deltas[o + i]? = some (δ (o + i))) :
    lane 64 (mm512_add_epi64 (mm512_set1_epi64 off) (fromLanes 64 8 fun i => deltas.getD (o + i) 0)) i =
      off + δ (o + i) := by
  unfold mm512_add_epi64 mm512_set1_epi64
  rw [lane_fromLanes 64 8 _ i hi, lane_fromLanes 64 8 _ i hi, lane_fromLanes 64 8 _ i hi,
    List.getD_eq_getElem?_getD, hd]; rfl

theorem offs_ok8 (δ : Nat → U64) (deltas : List U64) (hd : ∀ i, i < 8 → deltas[i]? = some (δ i)) :
    OffsOk 8 L δ deltas Avx512.load_offsets8 := by
  intro off
  have hl : 0 + 8 ≤ deltas.length := by
    have := (List.getElem?_eq_some_iff.mp (hd 7 (by decide))).1
    omega
  refine ⟨_, _, by
    unfold Avx512.load_offsets8 loadU64s
    rw [if_pos hl, bind_ok, pure_eq], ?_⟩
  intro i hi
  have e := lane_sum8 off δ deltas 0 i hi (by rw [Nat.zero_add]; exact hd i (by omega))
  rw [Nat.zero_add] at e
  unfold L
  constructor
  · rw [lane_cvt8 _ _ hi, e]; rfl
  · rw [lane_cvt8 _ _ hi, lane_srl64_8 _ _ _ hi, e]; rfl

/-! ## sixteen lanes -/

def ops16 : Ops M512 := ⟨add_512, xor_512, rot16_512, rot12_512, rot8_512, rot7_512⟩

theorem lane512_add (a b : M512) (i : Nat) (hi : i < 16) : lane 32 (mm512_add_epi32 a b) i = lane 32 a i + lane 32 b i := by
  unfold mm512_add_epi32; rw [lane_fromLanes 32 16 _ i hi]

theorem hom16 (i : Nat) (hi : i < 16) : LaneHom ops16 (L i) where
  add a b := lane512_add a b i hi
  xor a b := lane_xor 32 a b i
  rot16 a := lane_ror512 a 16 i hi
  rot12 a := lane_ror512 a 12 i hi
  rot8 a := lane_ror512 a 8 i hi
  rot7 a := lane_ror512 a 7 i hi

theorem lane_set116 (i : Nat) (hi : i < 16) (x : Word) : L i (set1_512 x) = x := by
  unfold L set1_512 mm512_set1_epi32; rw [lane_fromLanes 32 16 _ i hi]

theorem load_ok16 : LoadOk 16 L loadu_512 := by
  intro p off h
  exact ⟨_, loadBytes_ok 64 p off h, fun j hj => lane32_fromLanes8 16 _ j hj⟩

/-- element `k` of four registers -/
def col4 (a b c d : M128) (k : Nat) : M128 :=
  mm_setr_epi32 (lane 32 a k) (lane 32 b k) (lane 32 c k) (lane 32 d k)

/-- `abcd_k` -/
def quad (a b c d : M512) : Nat → M512
  | 0 => mm512_unpacklo_epi64 (mm512_unpacklo_epi32 a b) (mm512_unpacklo_epi32 c d)
  | 1 => mm512_unpackhi_epi64 (mm512_unpacklo_epi32 a b) (mm512_unpacklo_epi32 c d)
  | 2 => mm512_unpacklo_epi64 (mm512_unpackhi_epi32 a b) (mm512_unpackhi_epi32 c d)
  | _ => mm512_unpackhi_epi64 (mm512_unpackhi_epi32 a b) (mm512_unpackhi_epi32 c d)

theorem quarter (f : M128 → M128 → M128) (a b : M512) (q : Nat) (hq : q < 4) :
    lane 128 (quarters512 f a b) q = f (lane 128 a q) (lane 128 b q) := by
  unfold quarters512; rw [lane_fromLanes 128 4 _ q hq]

theorem col4_0 (a b c d : M128) :
    mm_unpacklo_epi64 (mm_unpacklo_epi32 a b) (mm_unpacklo_epi32 c d) = col4 a b c d 0 := by
  unfold mm_unpacklo_epi32; rw [pack_unpacklo64]; rfl
theorem col4_1 (a b c d : M128) :
    mm_unpackhi_epi64 (mm_unpacklo_epi32 a b) (mm_unpacklo_epi32 c d) = col4 a b c d 1 := by
  unfold mm_unpacklo_epi32; rw [pack_unpackhi64]; rfl
theorem col4_2 (a b c d : M128) :
    mm_unpacklo_epi64 (mm_unpackhi_epi32 a b) (mm_unpackhi_epi32 c d) = col4 a b c d 2 := by
  unfold mm_unpackhi_epi32; rw [pack_unpacklo64]; rfl
theorem col4_3 (a b c d : M128) :
    mm_unpackhi_epi64 (mm_unpackhi_epi32 a b) (mm_unpackhi_epi32 c d) = col4 a b c d 3 := by
  unfold mm_unpackhi_epi32; rw [pack_unpackhi64]; rfl

theorem quad_quarter (a b c d : M512) (k q : Nat) (hk : k < 4) (hq : q < 4) :
    lane 128 (quad a b c d k) q = col4 (lane 128 a q) (lane 128 b q) (lane 128 c q) (lane 128 d q) k := by
  rcases k with _|_|_|_|k
  · show lane 128 (mm512_unpacklo_epi64 (mm512_unpacklo_epi32 a b) (mm512_unpacklo_epi32 c d)) q = _
    unfold mm512_unpacklo_epi64 mm512_unpacklo_epi32
    rw [quarter _ _ _ _ hq, quarter _ _ _ _ hq, quarter _ _ _ _ hq, col4_0]
  · show lane 128 (mm512_unpackhi_epi64 (mm512_unpacklo_epi32 a b) (mm512_unpacklo_epi32 c d)) q = _
    unfold mm512_unpackhi_epi64 mm512_unpacklo_epi32
    rw [quarter _ _ _ _ hq, quarter _ _ _ _ hq, quarter _ _ _ _ hq, col4_1]
  · show lane 128 (mm512_unpacklo_epi64 (mm512_unpackhi_epi32 a b) (mm512_unpackhi_epi32 c d)) q = _
    unfold mm512_unpacklo_epi64 mm512_unpackhi_epi32
    rw [quarter _ _ _ _ hq, quarter _ _ _ _ hq, quarter _ _ _ _ hq, col4_2]
  · show lane 128 (mm512_unpackhi_epi64 (mm512_unpackhi_epi32 a b) (mm512_unpackhi_epi32 c d)) q = _
    unfold mm512_unpackhi_epi64 mm512_unpackhi_epi32
    rw [quarter _ _ _ _ hq, quarter _ _ _ _ hq, quarter _ _ _ _ hq, col4_3]
  · omega

theorem shuf_quarter (a b : M512) (imm q : Nat) (hq : q < 4) : lane 128 (mm512_shuffle_i32x4 a b imm) q =
    if q < 2 then lane 128 a (imm2 imm q) else lane 128 b (imm2 imm q) := by
  unfold mm512_shuffle_i32x4; rw [lane_fromLanes 128 4 _ q hq]

theorem lo_quarter (a b : M512) : lane 128 (unpack_lo_128 a b) 0 = lane 128 a 0 ∧
    lane 128 (unpack_lo_128 a b) 1 = lane 128 a 2 ∧ lane 128 (unpack_lo_128 a b) 2 = lane 128 b 0 ∧
    lane 128 (unpack_lo_128 a b) 3 = lane 128 b 2 :=
  ⟨shuf_quarter a b _ 0 (by decide), shuf_quarter a b _ 1 (by decide), shuf_quarter a b _ 2 (by decide),
    shuf_quarter a b _ 3 (by decide)⟩
theorem hi_quarter (a b : M512) : lane 128 (unpack_hi_128 a b) 0 = lane 128 a 1 ∧
    lane 128 (unpack_hi_128 a b) 1 = lane 128 a 3 ∧ lane 128 (unpack_hi_128 a b) 2 = lane 128 b 1 ∧
    lane 128 (unpack_hi_128 a b) 3 = lane 128 b 3 :=
  ⟨shuf_quarter a b _ 0 (by decide), shuf_quarter a b _ 1 (by decide), shuf_quarter a b _ 2 (by decide),
    shuf_quarter a b _ 3 (by decide)⟩

/-- `t` collects quarter `q` of four registers -/
def Coll (t x y z w : M512) (q : Nat) : Prop :=
  lane 128 t 0 = lane 128 x q ∧ lane 128 t 1 = lane 128 y q ∧ lane 128 t 2 = lane 128 z q ∧ lane 128 t 3 = lane 128 w q

theorem coll0 (x y z w : M512) : Coll (unpack_lo_128 (unpack_lo_128 x y) (unpack_lo_128 z w)) x y z w 0 := by
  obtain ⟨a0, a1, a2, a3⟩ := lo_quarter (unpack_lo_128 x y) (unpack_lo_128 z w)
  obtain ⟨b0, b1, b2, b3⟩ := lo_quarter x y
  obtain ⟨c0, c1, c2, c3⟩ := lo_quarter z w
  exact ⟨a0.trans b0, a1.trans b2, a2.trans c0, a3.trans c2⟩
theorem coll1 (x y z w : M512) : Coll (unpack_lo_128 (unpack_hi_128 x y) (unpack_hi_128 z w)) x y z w 1 := by
  obtain ⟨a0, a1, a2, a3⟩ := lo_quarter (unpack_hi_128 x y) (unpack_hi_128 z w)
  obtain ⟨b0, b1, b2, b3⟩ := hi_quarter x y
  obtain ⟨c0, c1, c2, c3⟩ := hi_quarter z w
  exact ⟨a0.trans b0, a1.trans b2, a2.trans c0, a3.trans c2⟩
theorem coll2 (x y z w : M512) : Coll (unpack_hi_128 (unpack_lo_128 x y) (unpack_lo_128 z w)) x y z w 2 := by
  obtain ⟨a0, a1, a2, a3⟩ := hi_quarter (unpack_lo_128 x y) (unpack_lo_128 z w)
  obtain ⟨b0, b1, b2, b3⟩ := lo_quarter x y
  obtain ⟨c0, c1, c2, c3⟩ := lo_quarter z w
  exact ⟨a0.trans b1, a1.trans b3, a2.trans c1, a3.trans c3⟩
theorem coll3 (x y z w : M512) : Coll (unpack_hi_128 (unpack_hi_128 x y) (unpack_hi_128 z w)) x y z w 3 := by
  obtain ⟨a0, a1, a2, a3⟩ := hi_quarter (unpack_hi_128 x y) (unpack_hi_128 z w)
  obtain ⟨b0, b1, b2, b3⟩ := hi_quarter x y
  obtain ⟨c0, c1, c2, c3⟩ := hi_quarter z w
  exact ⟨a0.trans b1, a1.trans b3, a2.trans c1, a3.trans c3⟩

theorem lane_quarter (t : M512) (p j : Nat) (hj : j < 4) : lane 32 t (4 * p + j) = lane 32 (lane 128 t p) j :=
  (lane_lane 32 4 t p j hj).symm

/-- the elements of one quarter of a quad -/
theorem quad_lane (a b c d : M512) (k q j : Nat) (hk : k < 4) (hq : q < 4) (hj : j < 4) :
    lane 32 (lane 128 (quad a b c d k) q) j = lane 32 #v[a, b, c, d][j] (4 * q + k) := by
  rw [quad_quarter a b c d k q hk hq, col4]
  rcases j with _|_|_|_|j
  · rw [lane_setr0]; exact lane_lane 32 4 a q k hk
  · rw [lane_setr1]; exact lane_lane 32 4 b q k hk
  · rw [lane_setr2]; exact lane_lane 32 4 c q k hk
  · rw [lane_setr3]; exact lane_lane 32 4 d q k hk
  · omega

theorem coll_lane (vs : Vector M512 16) (k q : Nat) (hk : k < 4) (hq : q < 4) (t : M512)
    (h : Coll t (quad vs[0] vs[1] vs[2] vs[3] k) (quad vs[4] vs[5] vs[6] vs[7] k)
      (quad vs[8] vs[9] vs[10] vs[11] k) (quad vs[12] vs[13] vs[14] vs[15] k) q) (p : Nat) (hp : p < 16) :
    lane 32 t p = lane 32 vs[p] (4 * q + k) := by
  obtain ⟨h0, h1, h2, h3⟩ := h
  rcases p with _|_|_|_|_|_|_|_|_|_|_|_|_|_|_|_|p
  · refine (lane_quarter t 0 0 (by decide)).trans ?_; rw [h0]; exact quad_lane _ _ _ _ _ _ 0 hk hq (by decide)
  · refine (lane_quarter t 0 1 (by decide)).trans ?_; rw [h0]; exact quad_lane _ _ _ _ _ _ 1 hk hq (by decide)
  · refine (lane_quarter t 0 2 (by decide)).trans ?_; rw [h0]; exact quad_lane _ _ _ _ _ _ 2 hk hq (by decide)
  · refine (lane_quarter t 0 3 (by decide)).trans ?_; rw [h0]; exact quad_lane _ _ _ _ _ _ 3 hk hq (by decide)
  · refine (lane_quarter t 1 0 (by decide)).trans ?_; rw [h1]; exact quad_lane _ _ _ _ _ _ 0 hk hq (by decide)
  · refine (lane_quarter t 1 1 (by decide)).trans ?_; rw [h1]; exact quad_lane _ _ _ _ _ _ 1 hk hq (by decide)
  · refine (lane_quarter t 1 2 (by decide)).trans ?_; rw [h1]; exact quad_lane _ _ _ _ _ _ 2 hk hq (by decide)
  · refine (lane_quarter t 1 3 (by decide)).trans ?_; rw [h1]; exact quad_lane _ _ _ _ _ _ 3 hk hq (by decide)
  · refine (lane_quarter t 2 0 (by decide)).trans ?_; rw [h2]; exact quad_lane _ _ _ _ _ _ 0 hk hq (by decide)
  · refine (lane_quarter t 2 1 (by decide)).trans ?_; rw [h2]; exact quad_lane _ _ _ _ _ _ 1 hk hq (by decide)
  · refine (lane_quarter t 2 2 (by decide)).trans ?_; rw [h2]; exact quad_lane _ _ _ _ _ _ 2 hk hq (by decide)
  · refine (lane_quarter t 2 3 (by decide)).trans ?_; rw [h2]; exact quad_lane _ _ _ _ _ _ 3 hk hq (by decide)
  · refine (lane_quarter t 3 0 (by decide)).trans ?_; rw [h3]; exact quad_lane _ _ _ _ _ _ 0 hk hq (by decide)
  · refine (lane_quarter t 3 1 (by decide)).trans ?_; rw [h3]; exact quad_lane _ _ _ _ _ _ 1 hk hq (by decide)
  · refine (lane_quarter t 3 2 (by decide)).trans ?_; rw [h3]; exact quad_lane _ _ _ _ _ _ 2 hk hq (by decide)
  · refine (lane_quarter t 3 3 (by decide)).trans ?_; rw [h3]; exact quad_lane _ _ _ _ _ _ 3 hk hq (by decide)
  · omega

theorem transpose16_eq (vs : Vector M512 16) : transpose_vecs_512 vs =
    #v[unpack_lo_128 (unpack_lo_128 (quad vs[0] vs[1] vs[2] vs[3] 0) (quad vs[4] vs[5] vs[6] vs[7] 0)) (unpack_lo_128 (quad vs[8] vs[9] vs[10] vs[11] 0) (quad vs[12] vs[13] vs[14] vs[15] 0)),
      unpack_lo_128 (unpack_lo_128 (quad vs[0] vs[1] vs[2] vs[3] 1) (quad vs[4] vs[5] vs[6] vs[7] 1)) (unpack_lo_128 (quad vs[8] vs[9] vs[10] vs[11] 1) (quad vs[12] vs[13] vs[14] vs[15] 1)),
      unpack_lo_128 (unpack_lo_128 (quad vs[0] vs[1] vs[2] vs[3] 2) (quad vs[4] vs[5] vs[6] vs[7] 2)) (unpack_lo_128 (quad vs[8] vs[9] vs[10] vs[11] 2) (quad vs[12] vs[13] vs[14] vs[15] 2)),
      unpack_lo_128 (unpack_lo_128 (quad vs[0] vs[1] vs[2] vs[3] 3) (quad vs[4] vs[5] vs[6] vs[7] 3)) (unpack_lo_128 (quad vs[8] vs[9] vs[10] vs[11] 3) (quad vs[12] vs[13] vs[14] vs[15] 3)),
      unpack_lo_128 (unpack_hi_128 (quad vs[0] vs[1] vs[2] vs[3] 0) (quad vs[4] vs[5] vs[6] vs[7] 0)) (unpack_hi_128 (quad vs[8] vs[9] vs[10] vs[11] 0) (quad vs[12] vs[13] vs[14] vs[15] 0)),
      unpack_lo_128 (unpack_hi_128 (quad vs[0] vs[1] vs[2] vs[3] 1) (quad vs[4] vs[5] vs[6] vs[7] 1)) (unpack_hi_128 (quad vs[8] vs[9] vs[10] vs[11] 1) (quad vs[12] vs[13] vs[14] vs[15] 1)),
      unpack_lo_128 (unpack_hi_128 (quad vs[0] vs[1] vs[2] vs[3] 2) (quad vs[4] vs[5] vs[6] vs[7] 2)) (unpack_hi_128 (quad vs[8] vs[9] vs[10] vs[11] 2) (quad vs[12] vs[13] vs[14] vs[15] 2)),
      unpack_lo_128 (unpack_hi_128 (quad vs[0] vs[1] vs[2] vs[3] 3) (quad vs[4] vs[5] vs[6] vs[7] 3)) (unpack_hi_128 (quad vs[8] vs[9] vs[10] vs[11] 3) (quad vs[12] vs[13] vs[14] vs[15] 3)),
      unpack_hi_128 (unpack_lo_128 (quad vs[0] vs[1] vs[2] vs[3] 0) (quad vs[4] vs[5] vs[6] vs[7] 0)) (unpack_lo_128 (quad vs[8] vs[9] vs[10] vs[11] 0) (quad vs[12] vs[13] vs[14] vs[15] 0)),
      unpack_hi_128 (unpack_lo_128 (quad vs[0] vs[1] vs[2] vs[3] 1) (quad vs[4] vs[5] vs[6] vs[7] 1)) (unpack_lo_128 (quad vs[8] vs[9] vs[10] vs[11] 1) (quad vs[12] vs[13] vs[14] vs[15] 1)),
      unpack_hi_128 (unpack_lo_128 (quad vs[0] vs[1] vs[2] vs[3] 2) (quad vs[4] vs[5] vs[6] vs[7] 2)) (unpack_lo_128 (quad vs[8] vs[9] vs[10] vs[11] 2) (quad vs[12] vs[13] vs[14] vs[15] 2)),
      unpack_hi_128 (unpack_lo_128 (quad vs[0] vs[1] vs[2] vs[3] 3) (quad vs[4] vs[5] vs[6] vs[7] 3)) (unpack_lo_128 (quad vs[8] vs[9] vs[10] vs[11] 3) (quad vs[12] vs[13] vs[14] vs[15] 3)),
      unpack_hi_128 (unpack_hi_128 (quad vs[0] vs[1] vs[2] vs[3] 0) (quad vs[4] vs[5] vs[6] vs[7] 0)) (unpack_hi_128 (quad vs[8] vs[9] vs[10] vs[11] 0) (quad vs[12] vs[13] vs[14] vs[15] 0)),
      unpack_hi_128 (unpack_hi_128 (quad vs[0] vs[1] vs[2] vs[3] 1) (quad vs[4] vs[5] vs[6] vs[7] 1)) (unpack_hi_128 (quad vs[8] vs[9] vs[10] vs[11] 1) (quad vs[12] vs[13] vs[14] vs[15] 1)),
      unpack_hi_128 (unpack_hi_128 (quad vs[0] vs[1] vs[2] vs[3] 2) (quad vs[4] vs[5] vs[6] vs[7] 2)) (unpack_hi_128 (quad vs[8] vs[9] vs[10] vs[11] 2) (quad vs[12] vs[13] vs[14] vs[15] 2)),
      unpack_hi_128 (unpack_hi_128 (quad vs[0] vs[1] vs[2] vs[3] 3) (quad vs[4] vs[5] vs[6] vs[7] 3)) (unpack_hi_128 (quad vs[8] vs[9] vs[10] vs[11] 3) (quad vs[12] vs[13] vs[14] vs[15] 3))] := rfl

theorem tr_ok16 : TrOk 16 L transpose_vecs_512 := by
  intro vs r p hr hp
  simp only [transpose16_eq]
  rcases r with _|_|_|_|_|_|_|_|_|_|_|_|_|_|_|_|r
  · exact coll_lane vs 0 0 (by decide) (by decide) _ (coll0 _ _ _ _) p hp
  · exact coll_lane vs 1 0 (by decide) (by decide) _ (coll0 _ _ _ _) p hp
  · exact coll_lane vs 2 0 (by decide) (by decide) _ (coll0 _ _ _ _) p hp
  · exact coll_lane vs 3 0 (by decide) (by decide) _ (coll0 _ _ _ _) p hp
  · exact coll_lane vs 0 1 (by decide) (by decide) _ (coll1 _ _ _ _) p hp
  · exact coll_lane vs 1 1 (by decide) (by decide) _ (coll1 _ _ _ _) p hp
  · exact coll_lane vs 2 1 (by decide) (by decide) _ (coll1 _ _ _ _) p hp
  · exact coll_lane vs 3 1 (by decide) (by decide) _ (coll1 _ _ _ _) p hp
  · exact coll_lane vs 0 2 (by decide) (by decide) _ (coll2 _ _ _ _) p hp
  · exact coll_lane vs 1 2 (by decide) (by decide) _ (coll2 _ _ _ _) p hp
  · exact coll_lane vs 2 2 (by decide) (by decide) _ (coll2 _ _ _ _) p hp
  · exact coll_lane vs 3 2 (by decide) (by decide) _ (coll2 _ _ _ _) p hp
  · exact coll_lane vs 0 3 (by decide) (by decide) _ (coll3 _ _ _ _) p hp
  · exact coll_lane vs 1 3 (by decide) (by decide) _ (coll3 _ _ _ _) p hp
  · exact coll_lane vs 2 3 (by decide) (by decide) _ (coll3 _ _ _ _) p hp
  · exact coll_lane vs 3 3 (by decide) (by decide) _ (coll3 _ _ _ _) p hp
  · omega

theorem msg_ok16 : MsgOk 16 L transpose_msg_vecs16 := msg16_ok L loadu_512 transpose_vecs_512 load_ok16 tr_ok16

theorem round_eq16 (v m : Vector M512 16) (r : Fin 7) :
    round_fn16 v m r = ops16.round v m (Model.MSG_SCHEDULE.get r) := by
  simp only [round_fn16, Ops.round, ops16, msg_schedule_eq]

theorem block_eq16 (h : Vector M512 8) (lo hi len fl : M512) (m : Vector M512 16) :
    hash16_avx512_block h lo hi len fl m =
      ops16.block (set1_512 Model.IV[0]) (set1_512 Model.IV[1]) (set1_512 Model.IV[2]) (set1_512 Model.IV[3]) h lo hi len fl m := by
  unfold hash16_avx512_block Ops.block
  simp only [round_eq16]
  rfl

theorem loop_eq16 (inputs : List Bytes) (blocks : Nat) (lo hi : M512) (flags fe : Byte) (n block : Nat)
    (h : Vector M512 8) (bf : Byte) :
    hash16_avx512_loop inputs blocks lo hi flags fe n block h bf =
      loopG (fun b => transpose_msg_vecs16 inputs (b * 64))
        (fun h bf m => ops16.block (set1_512 Model.IV[0]) (set1_512 Model.IV[1]) (set1_512 Model.IV[2]) (set1_512 Model.IV[3]) h lo hi
          (set1_512 (BitVec.ofNat 32 64)) (set1_512 (bf.setWidth 32)) m) blocks flags fe n block h bf := by
  induction n generalizing block h bf with
  | zero => rfl
  | succ n ih =>
    rw [hash16_avx512_loop, loopG]
    refine congrArg _ (funext fun m => ?_)
    rw [ih, block_eq16]

theorem kern_eq16 (key : Vector Word 8) (flags fs fe : Byte) (blocks : Nat) (deltas : List U64) (inputs : List Bytes)
    (off : U64) (out : Bytes) :
    hash16_avx512 inputs blocks key off deltas flags fs fe out =
      kern ops16 set1_512 key flags fs fe blocks deltas transpose_msg_vecs16 hash16_avx512_store Avx512.load_offsets16 inputs off out := by
  simp only [hash16_avx512, kern, loop_eq16]

theorem regBytes_cast (x : M512) : regBytes 32 (mm512_castsi512_si256 x) = (List.range 8).flatMap fun i => leBytes (lane 32 x i) := by
  refine (regBytes_lanes 8 (mm512_castsi512_si256 x)).trans ?_
  have e : ∀ i, i < 8 → lane 32 (mm512_castsi512_si256 x) i = lane 32 x i := by
    intro i hi
    have := lane_lane 32 8 x 0 i hi
    rw [Nat.mul_zero, Nat.zero_add] at this
    exact this
  simp only [show List.range 8 = [0, 1, 2, 3, 4, 5, 6, 7] by decide, List.flatMap_cons, List.flatMap_nil]
  rw [e 0 (by decide), e 1 (by decide), e 2 (by decide), e 3 (by decide), e 4 (by decide), e 5 (by decide),
    e 6 (by decide), e 7 (by decide)]

/-- row `r` of the transposed state -/
theorem row16 (h : Vector M512 8) (r : Nat) (hr : r < 16) (z : M512) :
    regBytes 32 (mm512_castsi512_si256 (transpose_vecs_512
      #v[h[0], h[1], h[2], h[3], h[4], h[5], h[6], h[7], z, z, z, z, z, z, z, z])[r]) =
      (Spec.cvBytes (h.map (L r))).toList := by
  rw [regBytes_cast]
  have t := fun p hp => tr_ok16 #v[h[0], h[1], h[2], h[3], h[4], h[5], h[6], h[7], z, z, z, z, z, z, z, z] r p hr hp
  simp only [L] at t
  have t0 := t 0 (by decide)
  have t1 := t 1 (by decide)
  have t2 := t 2 (by decide)
  have t3 := t 3 (by decide)
  have t4 := t 4 (by decide)
  have t5 := t 5 (by decide)
  have t6 := t 6 (by decide)
  have t7 := t 7 (by decide)
  simp only [show List.range 8 = [0, 1, 2, 3, 4, 5, 6, 7] by decide, List.flatMap_cons, List.flatMap_nil, t0, t1, t2, t3, t4, t5, t6, t7,
    cvBytes_toList, Vector.getElem_map, List.append_assoc, List.append_nil]
  rfl

theorem store_ok16 : StoreOk 16 L hash16_avx512_store := by
  intro h out hout
  unfold hash16_avx512_store storeu_256
  refine (store16 out _ _ _ _ _ _ _ _ _ _ _ _ _ _ _ _ 32 (length_regBytes _ _) (length_regBytes _ _) (length_regBytes _ _) (length_regBytes _ _) (length_regBytes _ _) (length_regBytes _ _) (length_regBytes _ _) (length_regBytes _ _) (length_regBytes _ _) (length_regBytes _ _) (length_regBytes _ _) (length_regBytes _ _) (length_regBytes _ _) (length_regBytes _ _) (length_regBytes _ _) (length_regBytes _ _) 
    hout).trans (congrArg Except.ok ?_)
  rw [row16 h 0 (by decide), row16 h 1 (by decide), row16 h 2 (by decide), row16 h 3 (by decide), row16 h 4 (by decide), row16 h 5 (by decide), row16 h 6 (by decide), row16 h 7 (by decide), row16 h 8 (by decide), row16 h 9 (by decide), row16 h 10 (by decide), row16 h 11 (by decide), row16 h 12 (by decide), row16 h 13 (by decide), row16 h 14 (by decide), row16 h 15 (by decide)]
  simp only [show List.range 16 = [0, 1, 2, 3, 4, 5, 6, 7, 8, 9, 10, 11, 12, 13, 14, 15] by decide, List.flatMap_cons, List.flatMap_nil, List.append_assoc, List.append_nil]

theorem lane_lo32 (a : M512) (i : Nat) : lane 32 a (2 * i) = (lane 64 a i).setWidth 32 := by
  have := lane_lane 32 2 a i 0 (by decide)
  rw [Nat.add_zero] at this
  rw [← this]
  apply BitVec.eq_of_getLsbD_eq; intro j hj
  simp [getLsbD_lane]

theorem lane_hi32 (a : M512) (i : Nat) : lane 32 a (2 * i + 1) = (lane 64 a i >>> 32).setWidth 32 := by
  have := lane_lane 32 2 a i 1 (by decide)
  rw [← this]
  apply BitVec.eq_of_getLsbD_eq; intro j hj
  simp [getLsbD_lane]

theorem lane_permutex (a b : M512) (xs : Vector Nat 16) (i : Nat) (hi : i < 16) (k : Nat)
    (hk : (BitVec.ofNat 32 (xs.toList.getD i 0)).toNat = k) :
    lane 32 (mm512_permutex2var_epi32 a (mm512_setr_epi32 xs) b) i =
      if k.testBit 4 then lane 32 b (k % 16) else lane 32 a (k % 16) := by
  unfold mm512_permutex2var_epi32 mm512_setr_epi32
  rw [lane_fromLanes 32 16 _ i hi, lane_fromLanes 32 16 _ i hi, hk]

theorem offs_ok16 (δ : Nat → U64) (deltas : List U64) (hd : ∀ i, i < 16 → deltas[i]? = some (δ i)) :
    OffsOk 16 L δ deltas Avx512.load_offsets16 := by
  intro off
  have hl : 15 < deltas.length := (List.getElem?_eq_some_iff.mp (hd 15 (by decide))).1
  refine ⟨_, _, by
    unfold Avx512.load_offsets16 loadU64s
    rw [if_pos (by omega), bind_ok, if_pos (by omega), bind_ok, pure_eq], ?_⟩
  have ea := fun i hi => lane_sum8 off δ deltas 0 i hi (hd (0 + i) (by omega))
  have eb := fun i hi => lane_sum8 off δ deltas 8 i hi (hd (8 + i) (by omega))
  intro i hi
  rcases i with _|_|_|_|_|_|_|_|_|_|_|_|_|_|_|_|i
  · constructor
    · refine (lane_permutex _ _ _ 0 (by decide) 0 (by decide)).trans ?_
      refine (lane_lo32 _ 0).trans ?_
      rw [ea 0 (by decide)]; rfl
    · refine (lane_permutex _ _ _ 0 (by decide) 1 (by decide)).trans ?_
      refine (lane_hi32 _ 0).trans ?_
      rw [ea 0 (by decide)]; rfl
  · constructor
    · refine (lane_permutex _ _ _ 1 (by decide) 2 (by decide)).trans ?_
      refine (lane_lo32 _ 1).trans ?_
      rw [ea 1 (by decide)]; rfl
    · refine (lane_permutex _ _ _ 1 (by decide) 3 (by decide)).trans ?_
      refine (lane_hi32 _ 1).trans ?_
      rw [ea 1 (by decide)]; rfl
  · constructor
    · refine (lane_permutex _ _ _ 2 (by decide) 4 (by decide)).trans ?_
      refine (lane_lo32 _ 2).trans ?_
      rw [ea 2 (by decide)]; rfl
    · refine (lane_permutex _ _ _ 2 (by decide) 5 (by decide)).trans ?_
      refine (lane_hi32 _ 2).trans ?_
      rw [ea 2 (by decide)]; rfl
  · constructor
    · refine (lane_permutex _ _ _ 3 (by decide) 6 (by decide)).trans ?_
      refine (lane_lo32 _ 3).trans ?_
      rw [ea 3 (by decide)]; rfl
    · refine (lane_permutex _ _ _ 3 (by decide) 7 (by decide)).trans ?_
      refine (lane_hi32 _ 3).trans ?_
      rw [ea 3 (by decide)]; rfl
  · constructor
    · refine (lane_permutex _ _ _ 4 (by decide) 8 (by decide)).trans ?_
      refine (lane_lo32 _ 4).trans ?_
      rw [ea 4 (by decide)]; rfl
    · refine (lane_permutex _ _ _ 4 (by decide) 9 (by decide)).trans ?_
      refine (lane_hi32 _ 4).trans ?_
      rw [ea 4 (by decide)]; rfl
  · constructor
    · refine (lane_permutex _ _ _ 5 (by decide) 10 (by decide)).trans ?_
      refine (lane_lo32 _ 5).trans ?_
      rw [ea 5 (by decide)]; rfl
    · refine (lane_permutex _ _ _ 5 (by decide) 11 (by decide)).trans ?_
      refine (lane_hi32 _ 5).trans ?_
      rw [ea 5 (by decide)]; rfl
  · constructor
    · refine (lane_permutex _ _ _ 6 (by decide) 12 (by decide)).trans ?_
      refine (lane_lo32 _ 6).trans ?_
      rw [ea 6 (by decide)]; rfl
    · refine (lane_permutex _ _ _ 6 (by decide) 13 (by decide)).trans ?_
      refine (lane_hi32 _ 6).trans ?_
      rw [ea 6 (by decide)]; rfl
  · constructor
    · refine (lane_permutex _ _ _ 7 (by decide) 14 (by decide)).trans ?_
      refine (lane_lo32 _ 7).trans ?_
      rw [ea 7 (by decide)]; rfl
    · refine (lane_permutex _ _ _ 7 (by decide) 15 (by decide)).trans ?_
      refine (lane_hi32 _ 7).trans ?_
      rw [ea 7 (by decide)]; rfl
  · constructor
    · refine (lane_permutex _ _ _ 8 (by decide) 16 (by decide)).trans ?_
      refine (lane_lo32 _ 0).trans ?_
      rw [eb 0 (by decide)]; rfl
    · refine (lane_permutex _ _ _ 8 (by decide) 17 (by decide)).trans ?_
      refine (lane_hi32 _ 0).trans ?_
      rw [eb 0 (by decide)]; rfl
  · constructor
    · refine (lane_permutex _ _ _ 9 (by decide) 18 (by decide)).trans ?_
      refine (lane_lo32 _ 1).trans ?_
      rw [eb 1 (by decide)]; rfl
    · refine (lane_permutex _ _ _ 9 (by decide) 19 (by decide)).trans ?_
      refine (lane_hi32 _ 1).trans ?_
      rw [eb 1 (by decide)]; rfl
  · constructor
    · refine (lane_permutex _ _ _ 10 (by decide) 20 (by decide)).trans ?_
      refine (lane_lo32 _ 2).trans ?_
      rw [eb 2 (by decide)]; rfl
    · refine (lane_permutex _ _ _ 10 (by decide) 21 (by decide)).trans ?_
      refine (lane_hi32 _ 2).trans ?_
      rw [eb 2 (by decide)]; rfl
  · constructor
    · refine (lane_permutex _ _ _ 11 (by decide) 22 (by decide)).trans ?_
      refine (lane_lo32 _ 3).trans ?_
      rw [eb 3 (by decide)]; rfl
    · refine (lane_permutex _ _ _ 11 (by decide) 23 (by decide)).trans ?_
      refine (lane_hi32 _ 3).trans ?_
      rw [eb 3 (by decide)]; rfl
  · constructor
    · refine (lane_permutex _ _ _ 12 (by decide) 24 (by decide)).trans ?_
      refine (lane_lo32 _ 4).trans ?_
      rw [eb 4 (by decide)]; rfl
    · refine (lane_permutex _ _ _ 12 (by decide) 25 (by decide)).trans ?_
      refine (lane_hi32 _ 4).trans ?_
      rw [eb 4 (by decide)]; rfl
  · constructor
    · refine (lane_permutex _ _ _ 13 (by decide) 26 (by decide)).trans ?_
      refine (lane_lo32 _ 5).trans ?_
      rw [eb 5 (by decide)]; rfl
    · refine (lane_permutex _ _ _ 13 (by decide) 27 (by decide)).trans ?_
      refine (lane_hi32 _ 5).trans ?_
      rw [eb 5 (by decide)]; rfl
  · constructor
    · refine (lane_permutex _ _ _ 14 (by decide) 28 (by decide)).trans ?_
      refine (lane_lo32 _ 6).trans ?_
      rw [eb 6 (by decide)]; rfl
    · refine (lane_permutex _ _ _ 14 (by decide) 29 (by decide)).trans ?_
      refine (lane_hi32 _ 6).trans ?_
      rw [eb 6 (by decide)]; rfl
  · constructor
    · refine (lane_permutex _ _ _ 15 (by decide) 30 (by decide)).trans ?_
      refine (lane_lo32 _ 7).trans ?_
      rw [eb 7 (by decide)]; rfl
    · refine (lane_permutex _ _ _ 15 (by decide) 31 (by decide)).trans ?_
      refine (lane_hi32 _ 7).trans ?_
      rw [eb 7 (by decide)]; rfl
  · omega

/-! ## hash_many -/

theorem one_loop_eq (flags fe : Byte) (off : U64) (blocks : Nat) (state : Vector Word 8) (input : Bytes) (bf : Byte) :
    hash_one_avx512_loop flags fe off blocks state input bf = oneLoop compress_avx512 flags fe off blocks state input bf := by
  induction blocks generalizing state input bf with
  | zero => rfl
  | succ n ih => simp only [hash_one_avx512_loop, oneLoop, ih]

theorem one_eq (key : Vector Word 8) (flags fs fe : Byte) (blocks : Nat) (input : Bytes) (off : U64)
    (out : Bytes) (hi : 64 * blocks ≤ input.length) (ho : 32 ≤ out.length) :
    hash_one_avx512 input blocks key off flags fs fe out =
      .ok ((Spec.cvBytes (Spec.blockChain key off flags fs fe blocks input)).toList ++ out.drop 32) := by
  rw [hash_one_avx512, one_loop_eq, oneLoop_eq compress_ok _ _ _ _ _ _ _ hi, bind_ok,
    cvLoop_chain _ _ _ _ _ _ _ hi, mem_store_eq _ _ ho]

theorem loop1_good (key : Vector Word 8) (d : U64) (flags fs fe : Byte) (blocks : Nat) (deltas : List U64)
    (hd : deltas[1]? = some (BitVec.ofNat 64 1 * d)) :
    Good key d flags fs fe blocks none (hash_many_avx512_loop1 blocks key deltas flags fs fe) := by
  refine loop_ok key d flags fs fe blocks 1 (by decide) deltas
    (fun inputs off out => do hash_one_avx512 (← cIndex inputs 0) blocks key off flags fs fe out) _
    (fun _ _ _ out => .ok out) ?_ (one_ker key d flags fs fe blocks _ (one_eq key flags fs fe blocks))
    (good_zero key d flags fs fe blocks) hd
  intro num inputs off out
  cases num with
  | zero => rw [if_neg (by omega)]; rfl
  | succ n =>
    rw [if_pos (by omega), hash_many_avx512_loop1, batch]
    simp only [Nat.add_sub_cancel, bind_assoc, Nat.one_mul]

theorem loop4_good (key : Vector Word 8) (d : U64) (flags fs fe : Byte) (blocks : Nat) (deltas : List U64)
    (hd : ∀ i, i ≤ 4 → deltas[i]? = some (BitVec.ofNat 64 i * d)) :
    Good key d flags fs fe blocks none (hash_many_avx512_loop4 blocks key deltas flags fs fe) := by
  refine loop_ok key d flags fs fe blocks 4 (by decide) deltas
    (fun inputs off out => hash4_avx512 inputs blocks key off deltas flags fs fe out) _
    (hash_many_avx512_loop1 blocks key deltas flags fs fe) ?_ ?_
    ((loop1_good key d flags fs fe blocks deltas (hd 1 (by decide))).mono _ _ _ _ _ _ _) (hd 4 (by decide))
  · intro num inputs off out
    rw [hash_many_avx512_loop4]
    by_cases h : 4 ≤ num
    · rw [dif_pos h, if_pos h]; rfl
    · rw [dif_neg h, if_neg h]
  · intro inputs off out h1 h2 h3
    refine (kern_eq4 ..).trans ?_
    exact kern_ok 4 L ops4 set1_128 key d flags fs fe blocks deltas _ _ _ hom4 lane_set14 msg_ok4 store_ok4
      (offs_ok4 (fun i => BitVec.ofNat 64 i * d) deltas fun i hi => hd i (Nat.le_of_lt hi)) inputs off out h1 h2 h3

theorem loop8_good (key : Vector Word 8) (d : U64) (flags fs fe : Byte) (blocks : Nat) (deltas : List U64)
    (hd : ∀ i, i ≤ 8 → deltas[i]? = some (BitVec.ofNat 64 i * d)) :
    Good key d flags fs fe blocks none (hash_many_avx512_loop8 blocks key deltas flags fs fe) := by
  refine loop_ok key d flags fs fe blocks 8 (by decide) deltas
    (fun inputs off out => hash8_avx512 inputs blocks key off deltas flags fs fe out) _
    (hash_many_avx512_loop4 blocks key deltas flags fs fe) ?_ ?_
    ((loop4_good key d flags fs fe blocks deltas (fun i hi => hd i (by omega))).mono _ _ _ _ _ _ _) (hd 8 (by decide))
  · intro num inputs off out
    rw [hash_many_avx512_loop8]
    by_cases h : 8 ≤ num
    · rw [dif_pos h, if_pos h]; rfl
    · rw [dif_neg h, if_neg h]
  · intro inputs off out h1 h2 h3
    refine (kern_eq8 ..).trans ?_
    exact kern_ok 8 L ops8 set1_256 key d flags fs fe blocks deltas _ _ _ hom8 lane_set18 msg_ok8 store_ok8
      (offs_ok8 (fun i => BitVec.ofNat 64 i * d) deltas fun i hi => hd i (Nat.le_of_lt hi)) inputs off out h1 h2 h3

theorem loop16_good (key : Vector Word 8) (d : U64) (flags fs fe : Byte) (blocks : Nat) (deltas : List U64)
    (hd : ∀ i, i ≤ 16 → deltas[i]? = some (BitVec.ofNat 64 i * d)) :
    Good key d flags fs fe blocks none (hash_many_avx512_loop16 blocks key deltas flags fs fe) := by
  refine loop_ok key d flags fs fe blocks 16 (by decide) deltas
    (fun inputs off out => hash16_avx512 inputs blocks key off deltas flags fs fe out) _
    (hash_many_avx512_loop8 blocks key deltas flags fs fe) ?_ ?_
    ((loop8_good key d flags fs fe blocks deltas (fun i hi => hd i (by omega))).mono _ _ _ _ _ _ _) (hd 16 (by decide))
  · intro num inputs off out
    rw [hash_many_avx512_loop16]
    by_cases h : 16 ≤ num
    · rw [dif_pos h, if_pos h]; rfl
    · rw [dif_neg h, if_neg h]
  · intro inputs off out h1 h2 h3
    refine (kern_eq16 ..).trans ?_
    exact kern_ok 16 L ops16 set1_512 key d flags fs fe blocks deltas _ _ _ hom16 lane_set116 msg_ok16 store_ok16
      (offs_ok16 (fun i => BitVec.ofNat 64 i * d) deltas fun i hi => hd i (Nat.le_of_lt hi)) inputs off out h1 h2 h3

end Baokeshed.Proofs.C.Avx512
