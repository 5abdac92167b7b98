import Verif.Model.C64.Avx512
import Verif.Proofs.C64.Compress

/-! # C, 64-bit variant: the AVX-512 back end -/

set_option linter.unusedVariables false
set_option linter.unusedSimpArgs false

namespace Baokeshed.Proofs.W64.Avx512
open Baokeshed.Model
open Baokeshed.Model.Portable64 (leWord64 leBytes64)
open Baokeshed.Model.C (cIndex cAdvance cStore)
open Baokeshed.Model.C64 (BLOCK_LEN OUT_LEN)
open Baokeshed.Proofs.C (cIndex_ok cIndex_getD cIndex_some cAdvance_ok cStore_append cStore_zero getElem_vec4 getElem_vec8)
open Baokeshed.Model.C64.Avx512
attribute [local irreducible] Spec64.compress Spec64.cvBytes

/-! ## 2 lanes -/

/-- lane `i` -/
abbrev L2 (i : Nat) (x : M128) : U64 := lane 64 x i

def ops2 : Ops M128 := ⟨add_128, xor_128, rot32_128, rot24_128, rot16_128, rot63_128⟩

theorem hom2 (i : Nat) (hi : i < 2) : LaneHom ops2 (L2 i) where
  add a b := lane64_add a b i hi
  xor a b := lane_xor 64 a b i
  rot32 a := lane64_ror a 32 i hi
  rot24 a := lane64_ror a 24 i hi
  rot16 a := lane64_ror a 16 i hi
  rot63 a := lane64_ror a 63 i hi

theorem lane_set12 (i : Nat) (hi : i < 2) (x : U64) : L2 i (set1_128 x) = x := lane64_set1 x i hi

theorem load_ok2 : LoadOk 2 L2 loadu_128 := by
  intro p off h
  exact ⟨_, loadBytes_ok 16 p off h, fun j hj => lane64_fromLanes8 2 _ j hj⟩

theorem tr_ok2 : TrOk 2 L2 transpose_vecs_128 := by
  intro vs r p hr hp
  rcases r with _|_|r
  · refine (lane64_set _ _ p hp).trans ?_
    rcases p with _|_|p
    all_goals first | rfl | omega
  · refine (lane64_set _ _ p hp).trans ?_
    rcases p with _|_|p
    all_goals first | rfl | omega
  · omega

theorem msg_ok2 : MsgOk 2 L2 transpose_msg_vecs2 := msg2_ok L2 loadu_128 transpose_vecs_128 load_ok2 tr_ok2

theorem round_eq2 (v m : Vector M128 16) (r : Fin 8) :
    round_fn2 v m r = ops2.round v m (Portable64.MSG_SCHEDULE.get r) := by
  simp only [round_fn2, Ops.round, ops2, msg_schedule_eq]

theorem block_eq2 (h : Vector M128 4) (off len fl : M128) (m : Vector M128 16) :
    hash2_avx512_block h off len fl m = ops2.block (ivs set1_128) h off len fl m := by
  unfold hash2_avx512_block Ops.block
  simp only [round_eq2, iv_eq]
  rfl

theorem loop_eq2 (inputs : List Bytes) (blocks : Nat) (off : M128) (flags fe : Byte) (n block : Nat)
    (h : Vector M128 4) (bf : Byte) :
    hash2_avx512_loop inputs blocks off flags fe n block h bf =
      loopG (fun b => transpose_msg_vecs2 inputs (b * 128))
        (fun h bf m => ops2.block (ivs set1_128) h off
          (set1_128 (BitVec.ofNat 64 128)) (set1_128 (bf.setWidth 64)) m) blocks flags fe n block h bf := by
  induction n generalizing block h bf with
  | zero => rfl
  | succ n ih =>
    rw [hash2_avx512_loop, loopG]
    refine congrArg _ (funext fun m => ?_)
    rw [ih, block_eq2]

theorem kern_eq2 (key : Vector U64 4) (flags fs fe : Byte) (blocks : Nat) (deltas : List U64) (inputs : List Bytes)
    (off : U64) (out : Bytes) :
    hash2_avx512 inputs blocks key off deltas flags fs fe out =
      kern ops2 set1_128 key flags fs fe blocks deltas transpose_msg_vecs2 hash2_avx512_store load_offsets2 inputs off out := by
  simp only [hash2_avx512, kern, loop_eq2]

theorem store_ok2 : StoreOk 2 L2 hash2_avx512_store := by
  intro h out hout
  unfold hash2_avx512_store storeu_128
  refine (store4 out _ _ _ _ 16 (length_regBytes64 2 _) (length_regBytes64 2 _) (length_regBytes64 2 _)
    (length_regBytes64 2 _) hout).trans (congrArg Except.ok ?_)
  have r2 : ∀ x : M128, regBytes 16 x = (List.range 2).flatMap fun i => leBytes64 (lane 64 x i) :=
    fun x => regBytes_lanes 2 x
  have t0 := fun vs r hr => tr_ok2 vs r 0 hr (by decide)
  have t1 := fun vs r hr => tr_ok2 vs r 1 hr (by decide)
  simp only [L2] at t0 t1
  simp only [r2, show List.range 2 = [0, 1] by decide, List.flatMap_cons, List.flatMap_nil, t0 _ 0 (by decide), t0 _ 1 (by decide), t1 _ 0 (by decide), t1 _ 1 (by decide),
    cvBytes_toList, Vector.getElem_map, List.append_assoc, List.append_nil]
  rfl

theorem offs_ok2 (δ : Nat → U64) (deltas : List U64) (hd : ∀ i, i < 2 → deltas[i]? = some (δ i)) :
    OffsOk 2 L2 δ deltas load_offsets2 := by
  intro off
  obtain ⟨x, e, hx⟩ := offs_lane 2 δ deltas hd
  refine ⟨_, by unfold load_offsets2; rw [e, bind_ok, pure_eq], fun i hi => ?_⟩
  refine (lane64_add _ _ i hi).trans ?_
  rw [hx i hi]
  exact congrArg (· + _) (lane_set12 i hi off)

/-! ## 4 lanes -/

/-- lane `i` -/
abbrev L4 (i : Nat) (x : M256) : U64 := lane 64 x i

def ops4 : Ops M256 := ⟨add_256, xor_256, rot32_256, rot24_256, rot16_256, rot63_256⟩

theorem hom4 (i : Nat) (hi : i < 4) : LaneHom ops4 (L4 i) where
  add a b := lane256_add64 a b i hi
  xor a b := lane_xor 64 a b i
  rot32 a := lane256_ror64 a 32 i hi
  rot24 a := lane256_ror64 a 24 i hi
  rot16 a := lane256_ror64 a 16 i hi
  rot63 a := lane256_ror64 a 63 i hi

theorem lane_set14 (i : Nat) (hi : i < 4) (x : U64) : L4 i (set1_256 x) = x := lane256_set164 x i hi

theorem load_ok4 : LoadOk 4 L4 loadu_256 := by
  intro p off h
  exact ⟨_, loadBytes_ok 32 p off h, fun j hj => lane64_fromLanes8 4 _ j hj⟩

theorem transpose_eq4 (vs : Vector M256 4) : transpose_vecs_256 vs =
    #v[pack4 (lane 64 vs[0] 0) (lane 64 vs[1] 0) (lane 64 vs[2] 0) (lane 64 vs[3] 0),
       pack4 (lane 64 vs[0] 1) (lane 64 vs[1] 1) (lane 64 vs[2] 1) (lane 64 vs[3] 1),
       pack4 (lane 64 vs[0] 2) (lane 64 vs[1] 2) (lane 64 vs[2] 2) (lane 64 vs[3] 2),
       pack4 (lane 64 vs[0] 3) (lane 64 vs[1] 3) (lane 64 vs[2] 3) (lane 64 vs[3] 3)] :=
  vec4_congr (tr4_row0 ..) (tr4_row1 ..) (tr4_row2 ..) (tr4_row3 ..)

theorem tr_ok4 : TrOk 4 L4 transpose_vecs_256 := by
  intro vs r p hr hp
  simp only [transpose_eq4]
  rcases r with _|_|_|_|r
  all_goals first
    | omega
    | (rcases p with _|_|_|_|p
       · exact pack4_0 ..
       · exact pack4_1 ..
       · exact pack4_2 ..
       · exact pack4_3 ..
       · omega)

theorem msg_ok4 : MsgOk 4 L4 transpose_msg_vecs4 := msg4_ok L4 loadu_256 transpose_vecs_256 load_ok4 tr_ok4

theorem round_eq4 (v m : Vector M256 16) (r : Fin 8) :
    round_fn4 v m r = ops4.round v m (Portable64.MSG_SCHEDULE.get r) := by
  simp only [round_fn4, Ops.round, ops4, msg_schedule_eq]

theorem block_eq4 (h : Vector M256 4) (off len fl : M256) (m : Vector M256 16) :
    hash4_avx512_block h off len fl m = ops4.block (ivs set1_256) h off len fl m := by
  unfold hash4_avx512_block Ops.block
  simp only [round_eq4, iv_eq]
  rfl

theorem loop_eq4 (inputs : List Bytes) (blocks : Nat) (off : M256) (flags fe : Byte) (n block : Nat)
    (h : Vector M256 4) (bf : Byte) :
    hash4_avx512_loop inputs blocks off flags fe n block h bf =
      loopG (fun b => transpose_msg_vecs4 inputs (b * 128))
        (fun h bf m => ops4.block (ivs set1_256) h off
          (set1_256 (BitVec.ofNat 64 128)) (set1_256 (bf.setWidth 64)) m) blocks flags fe n block h bf := by
  induction n generalizing block h bf with
  | zero => rfl
  | succ n ih =>
    rw [hash4_avx512_loop, loopG]
    refine congrArg _ (funext fun m => ?_)
    rw [ih, block_eq4]

theorem kern_eq4 (key : Vector U64 4) (flags fs fe : Byte) (blocks : Nat) (deltas : List U64) (inputs : List Bytes)
    (off : U64) (out : Bytes) :
    hash4_avx512 inputs blocks key off deltas flags fs fe out =
      kern ops4 set1_256 key flags fs fe blocks deltas transpose_msg_vecs4 hash4_avx512_store C64.Avx512.load_offsets4 inputs off out := by
  simp only [hash4_avx512, kern, loop_eq4]

theorem store_ok4 : StoreOk 4 L4 hash4_avx512_store := by
  intro h out hout
  unfold hash4_avx512_store storeu_256
  refine (store4 out _ _ _ _ 32 (length_regBytes64 4 _) (length_regBytes64 4 _) (length_regBytes64 4 _)
    (length_regBytes64 4 _) hout).trans (congrArg Except.ok ?_)
  have r4 : ∀ x : M256, regBytes 32 x = (List.range 4).flatMap fun i => leBytes64 (lane 64 x i) :=
    fun x => regBytes_lanes 4 x
  have t0 := fun vs r hr => tr_ok4 vs r 0 hr (by decide)
  have t1 := fun vs r hr => tr_ok4 vs r 1 hr (by decide)
  have t2 := fun vs r hr => tr_ok4 vs r 2 hr (by decide)
  have t3 := fun vs r hr => tr_ok4 vs r 3 hr (by decide)
  simp only [L4] at t0 t1 t2 t3
  simp only [r4, show List.range 4 = [0, 1, 2, 3] by decide, List.flatMap_cons, List.flatMap_nil, t0, t1, t2, t3,
    cvBytes_toList, Vector.getElem_map, List.append_assoc, List.append_nil]

theorem offs_ok4 (δ : Nat → U64) (deltas : List U64) (hd : ∀ i, i < 4 → deltas[i]? = some (δ i)) :
    OffsOk 4 L4 δ deltas C64.Avx512.load_offsets4 := by
  intro off
  obtain ⟨x, e, hx⟩ := offs_lane 4 δ deltas hd
  refine ⟨_, by unfold C64.Avx512.load_offsets4; rw [e, bind_ok, pure_eq], fun i hi => ?_⟩
  refine (lane256_add64 _ _ i hi).trans ?_
  rw [hx i hi]
  exact congrArg (· + _) (lane_set14 i hi off)

/-! ## 8 lanes -/

/-- lane `i` -/
abbrev L8 (i : Nat) (x : M512) : U64 := lane 64 x i

def ops8 : Ops M512 := ⟨add_512, xor_512, rot32_512, rot24_512, rot16_512, rot63_512⟩

theorem hom8 (i : Nat) (hi : i < 8) : LaneHom ops8 (L8 i) where
  add a b := lane512_add64 a b i hi
  xor a b := lane_xor 64 a b i
  rot32 a := lane512_ror64 a 32 i hi
  rot24 a := lane512_ror64 a 24 i hi
  rot16 a := lane512_ror64 a 16 i hi
  rot63 a := lane512_ror64 a 63 i hi

theorem lane_set18 (i : Nat) (hi : i < 8) (x : U64) : L8 i (set1_512 x) = x := lane512_set164 x i hi

theorem load_ok8 : LoadOk 8 L8 loadu_512 := by
  intro p off h
  exact ⟨_, loadBytes_ok 64 p off h, fun j hj => lane64_fromLanes8 8 _ j hj⟩

/-- the 64-bit elements of `mm512_unpacklo_epi64` -/
theorem unpack_quarter (a b : M512) (k q j : Nat) (hk : k < 2) (hq : q < 4) (hj : j < 2) :
    lane 64 (lane 128 (if k = 0 then mm512_unpacklo_epi64 a b else mm512_unpackhi_epi64 a b) q) j =
      lane 64 #v[a, b][j] (2 * q + k) := by
  rcases k with _|_|k
  · rw [if_pos rfl]; unfold mm512_unpacklo_epi64; rw [half_quarters _ _ _ _ hq]
    rcases j with _|_|j
    · rw [(lane64_unpacklo _ _).1]; exact (lane64_half a q 0 (by decide)).symm
    · refine ((lane64_unpacklo _ _).2).trans ?_; exact (lane64_half b q 0 (by decide)).symm
    · omega
  · rw [if_neg (by decide)]; unfold mm512_unpackhi_epi64; rw [half_quarters _ _ _ _ hq]
    rcases j with _|_|j
    · rw [(lane64_unpackhi _ _).1]; exact (lane64_half a q 1 (by decide)).symm
    · refine ((lane64_unpackhi _ _).2).trans ?_; exact (lane64_half b q 1 (by decide)).symm
    · omega
  · omega

theorem shuf_quarter (a b : M512) (imm q : Nat) (hq : q < 4) : lane 128 (mm512_shuffle_i32x4 a b imm) q =
    if q < 2 then lane 128 a (imm2 imm q) else lane 128 b (imm2 imm q) := by
  unfold mm512_shuffle_i32x4; rw [lane_fromLanes 128 4 _ q hq]

theorem lo_quarter (a b : M512) : lane 128 (unpack_lo_128 a b) 0 = lane 128 a 0 ∧
    lane 128 (unpack_lo_128 a b) 1 = lane 128 a 2 ∧ lane 128 (unpack_lo_128 a b) 2 = lane 128 b 0 ∧
    lane 128 (unpack_lo_128 a b) 3 = lane 128 b 2 :=
  ⟨shuf_quarter a b _ 0 (by decide), shuf_quarter a b _ 1 (by decide), shuf_quarter a b _ 2 (by decide),
    shuf_quarter a b _ 3 (by decide)⟩
theorem hi_quarter (a b : M512) : lane 128 (unpack_hi_128 a b) 0 = lane 128 a 1 ∧
    lane 128 (unpack_hi_128 a b) 1 = lane 128 a 3 ∧ lane 128 (unpack_hi_128 a b) 2 = lane 128 b 1 ∧
    lane 128 (unpack_hi_128 a b) 3 = lane 128 b 3 :=
  ⟨shuf_quarter a b _ 0 (by decide), shuf_quarter a b _ 1 (by decide), shuf_quarter a b _ 2 (by decide),
    shuf_quarter a b _ 3 (by decide)⟩

/-- `t` collects quarter `q` of four registers -/
def Coll (t x y z w : M512) (q : Nat) : Prop :=
  lane 128 t 0 = lane 128 x q ∧ lane 128 t 1 = lane 128 y q ∧ lane 128 t 2 = lane 128 z q ∧ lane 128 t 3 = lane 128 w q

theorem coll0 (x y z w : M512) : Coll (unpack_lo_128 (unpack_lo_128 x y) (unpack_lo_128 z w)) x y z w 0 := by
  obtain ⟨a0, a1, a2, a3⟩ := lo_quarter (unpack_lo_128 x y) (unpack_lo_128 z w)
  obtain ⟨b0, b1, b2, b3⟩ := lo_quarter x y
  obtain ⟨c0, c1, c2, c3⟩ := lo_quarter z w
  exact ⟨a0.trans b0, a1.trans b2, a2.trans c0, a3.trans c2⟩
theorem coll1 (x y z w : M512) : Coll (unpack_lo_128 (unpack_hi_128 x y) (unpack_hi_128 z w)) x y z w 1 := by
  obtain ⟨a0, a1, a2, a3⟩ := lo_quarter (unpack_hi_128 x y) (unpack_hi_128 z w)
  obtain ⟨b0, b1, b2, b3⟩ := hi_quarter x y
  obtain ⟨c0, c1, c2, c3⟩ := hi_quarter z w
  exact ⟨a0.trans b0, a1.trans b2, a2.trans c0, a3.trans c2⟩
theorem coll2 (x y z w : M512) : Coll (unpack_hi_128 (unpack_lo_128 x y) (unpack_lo_128 z w)) x y z w 2 := by
  obtain ⟨a0, a1, a2, a3⟩ := hi_quarter (unpack_lo_128 x y) (unpack_lo_128 z w)
  obtain ⟨b0, b1, b2, b3⟩ := lo_quarter x y
  obtain ⟨c0, c1, c2, c3⟩ := lo_quarter z w
  exact ⟨a0.trans b1, a1.trans b3, a2.trans c1, a3.trans c3⟩
theorem coll3 (x y z w : M512) : Coll (unpack_hi_128 (unpack_hi_128 x y) (unpack_hi_128 z w)) x y z w 3 := by
  obtain ⟨a0, a1, a2, a3⟩ := hi_quarter (unpack_hi_128 x y) (unpack_hi_128 z w)
  obtain ⟨b0, b1, b2, b3⟩ := hi_quarter x y
  obtain ⟨c0, c1, c2, c3⟩ := hi_quarter z w
  exact ⟨a0.trans b1, a1.trans b3, a2.trans c1, a3.trans c3⟩

/-- the pairs of interleaved registers -/
def pair (k : Nat) (a b : M512) : M512 := if k = 0 then mm512_unpacklo_epi64 a b else mm512_unpackhi_epi64 a b

theorem coll_lane (vs : Vector M512 8) (k q : Nat) (hk : k < 2) (hq : q < 4) (t : M512)
    (h : Coll t (pair k vs[0] vs[1]) (pair k vs[2] vs[3]) (pair k vs[4] vs[5]) (pair k vs[6] vs[7]) q)
    (p : Nat) (hp : p < 8) : lane 64 t p = lane 64 vs[p] (2 * q + k) := by
  obtain ⟨h0, h1, h2, h3⟩ := h
  rcases p with _|_|_|_|_|_|_|_|p
  · refine (lane64_half t 0 0 (by decide)).trans ?_; rw [h0]; exact unpack_quarter _ _ _ _ 0 hk hq (by decide)
  · refine (lane64_half t 0 1 (by decide)).trans ?_; rw [h0]; exact unpack_quarter _ _ _ _ 1 hk hq (by decide)
  · refine (lane64_half t 1 0 (by decide)).trans ?_; rw [h1]; exact unpack_quarter _ _ _ _ 0 hk hq (by decide)
  · refine (lane64_half t 1 1 (by decide)).trans ?_; rw [h1]; exact unpack_quarter _ _ _ _ 1 hk hq (by decide)
  · refine (lane64_half t 2 0 (by decide)).trans ?_; rw [h2]; exact unpack_quarter _ _ _ _ 0 hk hq (by decide)
  · refine (lane64_half t 2 1 (by decide)).trans ?_; rw [h2]; exact unpack_quarter _ _ _ _ 1 hk hq (by decide)
  · refine (lane64_half t 3 0 (by decide)).trans ?_; rw [h3]; exact unpack_quarter _ _ _ _ 0 hk hq (by decide)
  · refine (lane64_half t 3 1 (by decide)).trans ?_; rw [h3]; exact unpack_quarter _ _ _ _ 1 hk hq (by decide)
  · omega

theorem transpose8_eq (vs : Vector M512 8) : transpose_vecs_512 vs =
    #v[unpack_lo_128 (unpack_lo_128 (pair 0 vs[0] vs[1]) (pair 0 vs[2] vs[3])) (unpack_lo_128 (pair 0 vs[4] vs[5]) (pair 0 vs[6] vs[7])),
      unpack_lo_128 (unpack_lo_128 (pair 1 vs[0] vs[1]) (pair 1 vs[2] vs[3])) (unpack_lo_128 (pair 1 vs[4] vs[5]) (pair 1 vs[6] vs[7])),
      unpack_lo_128 (unpack_hi_128 (pair 0 vs[0] vs[1]) (pair 0 vs[2] vs[3])) (unpack_hi_128 (pair 0 vs[4] vs[5]) (pair 0 vs[6] vs[7])),
      unpack_lo_128 (unpack_hi_128 (pair 1 vs[0] vs[1]) (pair 1 vs[2] vs[3])) (unpack_hi_128 (pair 1 vs[4] vs[5]) (pair 1 vs[6] vs[7])),
      unpack_hi_128 (unpack_lo_128 (pair 0 vs[0] vs[1]) (pair 0 vs[2] vs[3])) (unpack_lo_128 (pair 0 vs[4] vs[5]) (pair 0 vs[6] vs[7])),
      unpack_hi_128 (unpack_lo_128 (pair 1 vs[0] vs[1]) (pair 1 vs[2] vs[3])) (unpack_lo_128 (pair 1 vs[4] vs[5]) (pair 1 vs[6] vs[7])),
      unpack_hi_128 (unpack_hi_128 (pair 0 vs[0] vs[1]) (pair 0 vs[2] vs[3])) (unpack_hi_128 (pair 0 vs[4] vs[5]) (pair 0 vs[6] vs[7])),
      unpack_hi_128 (unpack_hi_128 (pair 1 vs[0] vs[1]) (pair 1 vs[2] vs[3])) (unpack_hi_128 (pair 1 vs[4] vs[5]) (pair 1 vs[6] vs[7]))] := rfl

theorem tr_ok8 : TrOk 8 L8 transpose_vecs_512 := by
  intro vs r p hr hp
  simp only [transpose8_eq]
  rcases r with _|_|_|_|_|_|_|_|r
  · exact coll_lane vs 0 0 (by decide) (by decide) _ (coll0 _ _ _ _) p hp
  · exact coll_lane vs 1 0 (by decide) (by decide) _ (coll0 _ _ _ _) p hp
  · exact coll_lane vs 0 1 (by decide) (by decide) _ (coll1 _ _ _ _) p hp
  · exact coll_lane vs 1 1 (by decide) (by decide) _ (coll1 _ _ _ _) p hp
  · exact coll_lane vs 0 2 (by decide) (by decide) _ (coll2 _ _ _ _) p hp
  · exact coll_lane vs 1 2 (by decide) (by decide) _ (coll2 _ _ _ _) p hp
  · exact coll_lane vs 0 3 (by decide) (by decide) _ (coll3 _ _ _ _) p hp
  · exact coll_lane vs 1 3 (by decide) (by decide) _ (coll3 _ _ _ _) p hp
  · omega

theorem msg_ok8 : MsgOk 8 L8 transpose_msg_vecs8 := msg8_ok L8 loadu_512 transpose_vecs_512 load_ok8 tr_ok8

theorem round_eq8 (v m : Vector M512 16) (r : Fin 8) :
    round_fn8 v m r = ops8.round v m (Portable64.MSG_SCHEDULE.get r) := by
  simp only [round_fn8, Ops.round, ops8, msg_schedule_eq]

theorem block_eq8 (h : Vector M512 4) (off len fl : M512) (m : Vector M512 16) :
    hash8_avx512_block h off len fl m = ops8.block (ivs set1_512) h off len fl m := by
  unfold hash8_avx512_block Ops.block
  simp only [round_eq8, iv_eq]
  rfl

theorem loop_eq8 (inputs : List Bytes) (blocks : Nat) (off : M512) (flags fe : Byte) (n block : Nat)
    (h : Vector M512 4) (bf : Byte) :
    hash8_avx512_loop inputs blocks off flags fe n block h bf =
      loopG (fun b => transpose_msg_vecs8 inputs (b * 128))
        (fun h bf m => ops8.block (ivs set1_512) h off
          (set1_512 (BitVec.ofNat 64 128)) (set1_512 (bf.setWidth 64)) m) blocks flags fe n block h bf := by
  induction n generalizing block h bf with
  | zero => rfl
  | succ n ih =>
    rw [hash8_avx512_loop, loopG]
    refine congrArg _ (funext fun m => ?_)
    rw [ih, block_eq8]

theorem kern_eq8 (key : Vector U64 4) (flags fs fe : Byte) (blocks : Nat) (deltas : List U64) (inputs : List Bytes)
    (off : U64) (out : Bytes) :
    hash8_avx512 inputs blocks key off deltas flags fs fe out =
      kern ops8 set1_512 key flags fs fe blocks deltas transpose_msg_vecs8 hash8_avx512_store C64.Avx512.load_offsets8 inputs off out := by
  simp only [hash8_avx512, kern, loop_eq8]

theorem regBytes_cast (x : M512) : regBytes 32 (mm512_castsi512_si256 x) =
    leBytes64 (lane 64 x 0) ++ (leBytes64 (lane 64 x 1) ++ (leBytes64 (lane 64 x 2) ++ leBytes64 (lane 64 x 3))) := by
  have e : ∀ i, i < 4 → lane 64 (mm512_castsi512_si256 x) i = lane 64 x i := by
    intro i hi
    have := lane_lane 64 4 x 0 i hi
    rw [Nat.mul_zero, Nat.zero_add] at this
    exact this
  refine (regBytes_lanes 4 (mm512_castsi512_si256 x)).trans ?_
  simp only [show List.range 4 = [0, 1, 2, 3] by decide, List.flatMap_cons, List.flatMap_nil, List.append_nil,
    e 0 (by decide), e 1 (by decide), e 2 (by decide), e 3 (by decide)]

theorem row8 (h : Vector M512 4) (r : Nat) (hr : r < 8) (z : M512) :
    regBytes 32 (mm512_castsi512_si256 (transpose_vecs_512 #v[h[0], h[1], h[2], h[3], z, z, z, z])[r]) =
      Spec64.cvBytes (h.map (L8 r)) := by
  rw [regBytes_cast]
  have t := fun p hp => tr_ok8 #v[h[0], h[1], h[2], h[3], z, z, z, z] r p hr hp
  simp only [L8] at t
  rw [t 0 (by decide), t 1 (by decide), t 2 (by decide), t 3 (by decide), cvBytes_toList]
  simp only [Vector.getElem_map, List.append_assoc]
  rfl

theorem store_ok8 : StoreOk 8 L8 hash8_avx512_store := by
  intro h out hout
  unfold hash8_avx512_store storeu_256
  refine (store8 out _ _ _ _ _ _ _ _ 32 (length_regBytes64 4 _) (length_regBytes64 4 _) (length_regBytes64 4 _)
    (length_regBytes64 4 _) (length_regBytes64 4 _) (length_regBytes64 4 _) (length_regBytes64 4 _)
    (length_regBytes64 4 _) hout).trans (congrArg Except.ok ?_)
  simp only [row8 h _ (by decide : 0 < 8), row8 h _ (by decide : 1 < 8), row8 h _ (by decide : 2 < 8), row8 h _ (by decide : 3 < 8), row8 h _ (by decide : 4 < 8), row8 h _ (by decide : 5 < 8), row8 h _ (by decide : 6 < 8), row8 h _ (by decide : 7 < 8),
    show List.range 8 = [0, 1, 2, 3, 4, 5, 6, 7] by decide, List.flatMap_cons, List.flatMap_nil, List.append_assoc, List.append_nil]

theorem offs_ok8 (δ : Nat → U64) (deltas : List U64) (hd : ∀ i, i < 8 → deltas[i]? = some (δ i)) :
    OffsOk 8 L8 δ deltas C64.Avx512.load_offsets8 := by
  intro off
  obtain ⟨x, e, hx⟩ := offs_lane 8 δ deltas hd
  refine ⟨_, by unfold C64.Avx512.load_offsets8; rw [e, bind_ok, pure_eq], fun i hi => ?_⟩
  refine (lane512_add64 _ _ i hi).trans ?_
  rw [hx i hi]
  exact congrArg (· + _) (lane_set18 i hi off)

/-! ## single inputs -/

theorem one_loop_eq (flags fe : Byte) (off : U64) (blocks : Nat) (state : Vector U64 4) (input : Bytes) (bf : Byte) :
    hash_one_avx512_loop flags fe off blocks state input bf = oneLoop compress_avx512 flags fe off blocks state input bf := by
  induction blocks generalizing state input bf with
  | zero => rfl
  | succ n ih => simp only [hash_one_avx512_loop, oneLoop, ih]

theorem one_eq (key : Vector U64 4) (flags fs fe : Byte) (blocks : Nat) (input : Bytes) (off : U64)
    (out : Bytes) (hi : 128 * blocks ≤ input.length) (ho : 32 ≤ out.length) :
    hash_one_avx512 input blocks key off flags fs fe out =
      .ok (Spec64.cvBytes (Spec64.blockChain key off flags fs fe blocks input) ++ out.drop 32) := by
  rw [hash_one_avx512, one_loop_eq, oneLoop_eq compress_ok _ _ _ _ _ _ _ hi, bind_ok,
    cvLoop_chain _ _ _ _ _ _ _ hi, memOf_eq, cStore_zero _ _ (by rw [length_cvBytes]; exact ho), length_cvBytes]

theorem loop1_good (key : Vector U64 4) (d : U64) (flags fs fe : Byte) (blocks : Nat) (deltas : List U64)
    (hd : deltas[1]? = some (BitVec.ofNat 64 1 * d)) :
    Good key d flags fs fe blocks none (hash_many_avx512_loop1 blocks key deltas flags fs fe) := by
  refine loop_ok key d flags fs fe blocks 1 (by decide) deltas
    (fun inputs off out => do hash_one_avx512 (← cIndex inputs 0) blocks key off flags fs fe out) _
    (fun _ _ _ out => .ok out) ?_ (one_ker key d flags fs fe blocks _ (one_eq key flags fs fe blocks))
    (good_zero key d flags fs fe blocks) hd
  intro num inputs off out
  cases num with
  | zero => rw [if_neg (by omega)]; rfl
  | succ n =>
    rw [if_pos (by omega), hash_many_avx512_loop1, batch]
    simp only [Nat.add_sub_cancel, bind_assoc, Nat.one_mul]

theorem loop2_good (key : Vector U64 4) (d : U64) (flags fs fe : Byte) (blocks : Nat) (deltas : List U64)
    (hd : ∀ i, i ≤ 2 → deltas[i]? = some (BitVec.ofNat 64 i * d)) :
    Good key d flags fs fe blocks none (hash_many_avx512_loop2 blocks key deltas flags fs fe) := by
  refine loop_ok key d flags fs fe blocks 2 (by decide) deltas
    (fun inputs off out => hash2_avx512 inputs blocks key off deltas flags fs fe out) _
    (hash_many_avx512_loop1 blocks key deltas flags fs fe) ?_ ?_
    ((loop1_good key d flags fs fe blocks deltas (hd 1 (by decide))).mono _ _ _ _ _ _ _) (hd 2 (by decide))
  · intro num inputs off out
    rw [hash_many_avx512_loop2]
    by_cases h : 2 ≤ num
    · rw [dif_pos h, if_pos h]; rfl
    · rw [dif_neg h, if_neg h]
  · intro inputs off out h1 h2 h3
    refine (kern_eq2 ..).trans ?_
    exact kern_ok 2 L2 ops2 _ key d flags fs fe blocks deltas _ _ _ hom2 lane_set12 msg_ok2 store_ok2
      (offs_ok2 (fun i => BitVec.ofNat 64 i * d) deltas fun i hi => hd i (Nat.le_of_lt hi)) inputs off out h1 h2 h3

theorem loop4_good (key : Vector U64 4) (d : U64) (flags fs fe : Byte) (blocks : Nat) (deltas : List U64)
    (hd : ∀ i, i ≤ 4 → deltas[i]? = some (BitVec.ofNat 64 i * d)) :
    Good key d flags fs fe blocks none (hash_many_avx512_loop4 blocks key deltas flags fs fe) := by
  refine loop_ok key d flags fs fe blocks 4 (by decide) deltas
    (fun inputs off out => hash4_avx512 inputs blocks key off deltas flags fs fe out) _
    (hash_many_avx512_loop2 blocks key deltas flags fs fe) ?_ ?_
    ((loop2_good key d flags fs fe blocks deltas (fun i hi => hd i (by omega))).mono _ _ _ _ _ _ _) (hd 4 (by decide))
  · intro num inputs off out
    rw [hash_many_avx512_loop4]
    by_cases h : 4 ≤ num
    · rw [dif_pos h, if_pos h]; rfl
    · rw [dif_neg h, if_neg h]
  · intro inputs off out h1 h2 h3
    refine (kern_eq4 ..).trans ?_
    exact kern_ok 4 L4 ops4 _ key d flags fs fe blocks deltas _ _ _ hom4 lane_set14 msg_ok4 store_ok4
      (offs_ok4 (fun i => BitVec.ofNat 64 i * d) deltas fun i hi => hd i (Nat.le_of_lt hi)) inputs off out h1 h2 h3

theorem loop8_good (key : Vector U64 4) (d : U64) (flags fs fe : Byte) (blocks : Nat) (deltas : List U64)
    (hd : ∀ i, i ≤ 8 → deltas[i]? = some (BitVec.ofNat 64 i * d)) :
    Good key d flags fs fe blocks none (hash_many_avx512_loop8 blocks key deltas flags fs fe) := by
  refine loop_ok key d flags fs fe blocks 8 (by decide) deltas
    (fun inputs off out => hash8_avx512 inputs blocks key off deltas flags fs fe out) _
    (hash_many_avx512_loop4 blocks key deltas flags fs fe) ?_ ?_
    ((loop4_good key d flags fs fe blocks deltas (fun i hi => hd i (by omega))).mono _ _ _ _ _ _ _) (hd 8 (by decide))
  · intro num inputs off out
    rw [hash_many_avx512_loop8]
    by_cases h : 8 ≤ num
    · rw [dif_pos h, if_pos h]; rfl
    · rw [dif_neg h, if_neg h]
  · intro inputs off out h1 h2 h3
    refine (kern_eq8 ..).trans ?_
    exact kern_ok 8 L8 ops8 _ key d flags fs fe blocks deltas _ _ _ hom8 lane_set18 msg_ok8 store_ok8
      (offs_ok8 (fun i => BitVec.ofNat 64 i * d) deltas fun i hi => hd i (Nat.le_of_lt hi)) inputs off out h1 h2 h3

end Baokeshed.Proofs.W64.Avx512
