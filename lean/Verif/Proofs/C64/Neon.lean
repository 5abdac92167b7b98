import Verif.Model.C64.Neon
import Verif.Proofs.C.NeonOrder
import Verif.Proofs.C64.Kernel
import Verif.Proofs.C64.Simd

/-! # C, 64-bit variant: the NEON back end -/

set_option linter.unusedVariables false
set_option linter.unusedSimpArgs false

namespace Baokeshed.Proofs.W64.Neon
open Baokeshed.Model
open Baokeshed.Model.Portable64 (leWord64 leBytes64)
open Baokeshed.Model.C (cIndex cAdvance cStore)
open Baokeshed.Model.C64 (BLOCK_LEN OUT_LEN)
open Baokeshed.Proofs.C (cIndex_ok cIndex_getD cIndex_some cAdvance_ok cStore_append cStore_zero getElem_vec4 getElem_vec8)
open Baokeshed.Model.C64.Neon
attribute [local irreducible] Spec64.compress Spec64.cvBytes

theorem lane_dup (x : U64) (i : Nat) (hi : i < 2) : lane 64 (vld1q_dup_u64 x) i = x := by
  unfold vld1q_dup_u64; rw [lane_fromLanes 64 2 _ i hi]
theorem lane_set2 (a b : U64) (i : Nat) (hi : i < 2) : lane 64 (set2 a b) i = #v[a, b][i] := by
  unfold set2 vld1q_u64
  rw [lane_fromLanes 64 2 _ i hi]
  rcases i with _|_|i
  all_goals first | rfl | omega
theorem lane_vadd (a b : M128) (i : Nat) (hi : i < 2) : lane 64 (vaddq_u64 a b) i = lane 64 a i + lane 64 b i :=
  lane_fromLanes 64 2 _ i hi
theorem lane_rot (i : Nat) (hi : i < 2) (x : M128) (n : Nat) (h0 : 0 < n) (h : n < 64) :
    lane 64 (vorrq_u64 (vshrq_n_u64 x n) (vshlq_n_u64 x (64 - n))) i = (lane 64 x i).rotateRight n := by
  refine (lane_or 64 _ _ i).trans ?_
  have e1 : lane 64 (vshrq_n_u64 x n) i = lane 64 x i >>> n := lane_fromLanes 64 2 _ i hi
  have e2 : lane 64 (vshlq_n_u64 x (64 - n)) i = lane 64 x i <<< (64 - n) := lane_fromLanes 64 2 _ i hi
  rw [e1, e2]; exact rot_or64 _ n h0 h

/-! ## 2 lanes -/

/-- lane `i` -/
abbrev L (i : Nat) (x : M128) : U64 := lane 64 x i

def ops : Ops M128 := ⟨add_128, xor_128, rot32_128, rot24_128, rot16_128, rot63_128⟩

theorem hom (i : Nat) (hi : i < 2) : LaneHom ops (L i) where
  add a b := lane_vadd a b i hi
  xor a b := lane_xor 64 a b i
  rot32 a := lane_rot i hi a 32 (by decide) (by decide)
  rot24 a := lane_rot i hi a 24 (by decide) (by decide)
  rot16 a := lane_rot i hi a 16 (by decide) (by decide)
  rot63 a := lane_rot i hi a 63 (by decide) (by decide)

theorem lane_set1 (i : Nat) (hi : i < 2) (x : U64) : L i (set1_128 x) = x := lane_dup x i hi

theorem load_little (p : Bytes) (off : Nat) : loadu_128 .little p off = loadBytes 16 p off := by
  rw [loadu_128]
  cases loadBytes 16 p off <;> rfl

theorem load_ok : LoadOk 2 L (loadu_128 .little) := by
  intro p off h
  exact ⟨_, (load_little p off).trans (loadBytes_ok 16 p off h), fun j hj => lane64_fromLanes8 2 _ j hj⟩

/-- the element of a vector that is the word `r` of it in memory -/
def el : ByteOrder → Nat → Nat
  | .bigA64, r => 1 - r
  | _, r => r

theorem getD_mem (o : ByteOrder) (x : M128) (i : Nat) (hi : i < 16) : (vec_bytes o x).getD i 0 = lane 8 x (o.at i) := by
  rw [vec_bytes, regBytes, List.getD_eq_getElem?_getD, List.getElem?_map, List.getElem?_range hi]
  exact C.Neon.vec_lane o x i hi

theorem u64_little (bs : Bytes) (i : Nat) (hi : i < 8) : lane 8 (ByteOrder.little.u64OfBytes bs) i = bs.getD i 0 := by
  unfold ByteOrder.u64OfBytes
  exact lane_fromLanes 8 8 (fun i => bs.getD i 0) i hi

theorem u64_big (o : ByteOrder) (ho : o ≠ .little) (bs : Bytes) (i : Nat) (hi : i < 8) :
    lane 8 (o.u64OfBytes bs) i = bs.getD (7 - i) 0 := by
  have h := lane_fromLanes 8 8 (fun i => bs.getD (7 - i) 0) i hi
  cases o with
  | little => exact absurd rfl ho
  | bigA64 => unfold ByteOrder.u64OfBytes; exact h
  | bigA32 => unfold ByteOrder.u64OfBytes; exact h

/-- the words of a vector in memory, as the host reads them -/
theorem row_eq (o : ByteOrder) (x : M128) (r : Nat) (hr : r < 2) (bs : Bytes)
    (hb : ∀ i, i < 8 → bs.getD i 0 = lane 8 x (o.at (8 * r + i))) : o.u64OfBytes bs = lane 64 x (el o r) := by
  refine lanes_ext 8 8 (x := o.u64OfBytes bs) (y := lane 64 x (el o r)) fun i hi => ?_
  have hl : lane 8 (lane 64 x (el o r)) i = lane 8 x (8 * el o r + i) := lane_lane 8 8 x (el o r) i hi
  refine Eq.trans ?_ hl.symm
  cases o with
  | little =>
    rw [u64_little bs i hi, hb i hi]; rfl
  | bigA64 =>
    rw [u64_big _ (by decide) bs i hi, hb (7 - i) (by omega)]
    refine congrArg (lane 8 x) ?_
    show 15 - (8 * r + (7 - i)) = 8 * (1 - r) + i
    omega
  | bigA32 =>
    rw [u64_big _ (by decide) bs i hi, hb (7 - i) (by omega)]
    refine congrArg (lane 8 x) ?_
    show (if 8 * r + (7 - i) < 8 then 7 - (8 * r + (7 - i)) else 23 - (8 * r + (7 - i))) = 8 * r + i
    split <;> omega

theorem row0 (o : ByteOrder) (x : M128) : o.u64OfBytes ((vec_bytes o x).take 8) = lane 64 x (el o 0) := by
  refine row_eq o x 0 (by decide) _ fun i hi => ?_
  rw [← getD_mem o x _ (by omega)]
  simp only [List.getD_eq_getElem?_getD]
  rw [List.getElem?_take, if_pos hi, Nat.mul_zero, Nat.zero_add]

theorem row1 (o : ByteOrder) (x : M128) : o.u64OfBytes ((vec_bytes o x).drop 8) = lane 64 x (el o 1) := by
  refine row_eq o x 1 (by decide) _ fun i hi => ?_
  rw [← getD_mem o x _ (by omega)]
  simp only [List.getD_eq_getElem?_getD]
  rw [List.getElem?_drop]

theorem tr_eq (o : ByteOrder) (vs : Vector M128 2) :
    transpose_vecs_128 o vs = #v[set2 (lane 64 vs[0] (el o 0)) (lane 64 vs[1] (el o 0)),
      set2 (lane 64 vs[0] (el o 1)) (lane 64 vs[1] (el o 1))] := by
  rw [← row0, ← row0, ← row1, ← row1]
  rfl

theorem tr_el (o : ByteOrder) (vs : Vector M128 2) (r p : Nat) (hr : r < 2) (hp : p < 2) :
    L p (transpose_vecs_128 o vs)[r] = L (el o r) vs[p] := by
  simp only [tr_eq]
  rcases r with _|_|r
  · refine (lane_set2 _ _ p hp).trans ?_
    rcases p with _|_|p
    all_goals first | rfl | omega
  · refine (lane_set2 _ _ p hp).trans ?_
    rcases p with _|_|p
    all_goals first | rfl | omega
  · omega

theorem tr_ok : TrOk 2 L (transpose_vecs_128 .little) := fun vs r p hr hp => tr_el .little vs r p hr hp

theorem msg_ok : MsgOk 2 L (transpose_msg_vecs2 .little) :=
  msg2_ok L (loadu_128 .little) (transpose_vecs_128 .little) load_ok tr_ok

theorem round_eq (v m : Vector M128 16) (r : Fin 8) :
    round_fn2 v m r = ops.round v m (Portable64.MSG_SCHEDULE.get r) := by
  simp only [round_fn2, Ops.round, ops, msg_schedule_eq]

theorem block_eq (h : Vector M128 4) (off len fl : M128) (m : Vector M128 16) :
    hash2_neon_block h off len fl m = ops.block (ivs set1_128) h off len fl m := by
  unfold hash2_neon_block Ops.block
  simp only [round_eq, iv_eq]
  rfl

theorem loop_eq (inputs : List Bytes) (blocks : Nat) (off : M128) (flags fe : Byte) (n block : Nat)
    (h : Vector M128 4) (bf : Byte) :
    hash2_neon_loop .little inputs blocks off flags fe n block h bf =
      loopG (fun b => transpose_msg_vecs2 .little inputs (b * 128))
        (fun h bf m => ops.block (ivs set1_128) h off
          (set1_128 (BitVec.ofNat 64 128)) (set1_128 (bf.setWidth 64)) m) blocks flags fe n block h bf := by
  induction n generalizing block h bf with
  | zero => rfl
  | succ n ih =>
    rw [hash2_neon_loop, loopG]
    refine congrArg _ (funext fun m => ?_)
    rw [ih, block_eq]

theorem kern_eq (key : Vector U64 4) (flags fs fe : Byte) (blocks : Nat) (deltas : List U64) (inputs : List Bytes)
    (off : U64) (out : Bytes) :
    hash2_neon .little inputs blocks key off deltas flags fs fe out =
      kern ops set1_128 key flags fs fe blocks deltas (transpose_msg_vecs2 .little) (hash2_neon_store .little) load_offsets2 inputs off out := by
  simp only [hash2_neon, kern, loop_eq]

theorem store_ok : StoreOk 2 L (hash2_neon_store .little) := by
  intro h out hout
  unfold hash2_neon_store storeu_128
  refine (store4 out _ _ _ _ 16 (length_regBytes64 2 _) (length_regBytes64 2 _) (length_regBytes64 2 _)
    (length_regBytes64 2 _) hout).trans (congrArg Except.ok ?_)
  have r2 : ∀ x : M128, regBytes 16 x = (List.range 2).flatMap fun i => leBytes64 (lane 64 x i) :=
    fun x => regBytes_lanes 2 x
  have t0 := fun vs r hr => tr_ok vs r 0 hr (by decide)
  have t1 := fun vs r hr => tr_ok vs r 1 hr (by decide)
  simp only [L] at t0 t1
  simp only [vec_bytes, C.Neon.vec_little, r2, show List.range 2 = [0, 1] by decide, List.flatMap_cons, List.flatMap_nil, t0 _ 0 (by decide), t0 _ 1 (by decide), t1 _ 0 (by decide), t1 _ 1 (by decide),
    cvBytes_toList, Vector.getElem_map, List.append_assoc, List.append_nil]
  rfl

theorem offs_ok (δ : Nat → U64) (deltas : List U64) (hd : ∀ i, i < 2 → deltas[i]? = some (δ i)) :
    OffsOk 2 L δ deltas load_offsets2 := by
  intro off
  refine ⟨_, by
    unfold load_offsets2
    rw [cIndex_some _ _ _ (hd 0 (by decide)), bind_ok, cIndex_some _ _ _ (hd 1 (by decide)), bind_ok, pure_eq],
    fun i hi => ?_⟩
  refine (lane_set2 _ _ i hi).trans ?_
  rcases i with _|_|i
  all_goals first | rfl | omega

/-! ## single inputs -/

theorem one_loop_eq (flags fe : Byte) (off : U64) (blocks : Nat) (state : Vector U64 4) (input : Bytes) (bf : Byte) :
    hash_one_neon_loop flags fe off blocks state input bf = oneLoop C64.Portable.compress_portable flags fe off blocks state input bf := by
  induction blocks generalizing state input bf with
  | zero => rfl
  | succ n ih => simp only [hash_one_neon_loop, oneLoop, ih]

theorem u64s_little (ws : Vector U64 4) : ByteOrder.little.u64s ws = memOfU64s ws := rfl

theorem one_eq (key : Vector U64 4) (flags fs fe : Byte) (blocks : Nat) (input : Bytes) (off : U64)
    (out : Bytes) (hi : 128 * blocks ≤ input.length) (ho : 32 ≤ out.length) :
    hash_one_neon .little input blocks key off flags fs fe out =
      .ok (Spec64.cvBytes (Spec64.blockChain key off flags fs fe blocks input) ++ out.drop 32) := by
  rw [hash_one_neon, one_loop_eq, oneLoop_eq compress_portable_ok _ _ _ _ _ _ _ hi, bind_ok,
    cvLoop_chain _ _ _ _ _ _ _ hi, u64s_little, memOf_eq, cStore_zero _ _ (by rw [length_cvBytes]; exact ho), length_cvBytes]

theorem loop1_good (key : Vector U64 4) (d : U64) (flags fs fe : Byte) (blocks : Nat) (deltas : List U64)
    (hd : deltas[1]? = some (BitVec.ofNat 64 1 * d)) :
    Good key d flags fs fe blocks none (hash_many_neon_loop1 .little blocks key deltas flags fs fe) := by
  refine loop_ok key d flags fs fe blocks 1 (by decide) deltas
    (fun inputs off out => do hash_one_neon .little (← cIndex inputs 0) blocks key off flags fs fe out) _
    (fun _ _ _ out => .ok out) ?_ (one_ker key d flags fs fe blocks _ (one_eq key flags fs fe blocks))
    (good_zero key d flags fs fe blocks) hd
  intro num inputs off out
  cases num with
  | zero => rw [if_neg (by omega)]; rfl
  | succ n =>
    rw [if_pos (by omega), hash_many_neon_loop1, batch]
    simp only [Nat.add_sub_cancel, bind_assoc, Nat.one_mul]

theorem loop2_good (key : Vector U64 4) (d : U64) (flags fs fe : Byte) (blocks : Nat) (deltas : List U64)
    (hd : ∀ i, i ≤ 2 → deltas[i]? = some (BitVec.ofNat 64 i * d)) :
    Good key d flags fs fe blocks none (hash_many_neon_loop2 .little blocks key deltas flags fs fe) := by
  refine loop_ok key d flags fs fe blocks 2 (by decide) deltas
    (fun inputs off out => hash2_neon .little inputs blocks key off deltas flags fs fe out) _
    (hash_many_neon_loop1 .little blocks key deltas flags fs fe) ?_ ?_
    ((loop1_good key d flags fs fe blocks deltas (hd 1 (by decide))).mono _ _ _ _ _ _ _) (hd 2 (by decide))
  · intro num inputs off out
    rw [hash_many_neon_loop2]
    by_cases h : 2 ≤ num
    · rw [dif_pos h, if_pos h]; rfl
    · rw [dif_neg h, if_neg h]
  · intro inputs off out h1 h2 h3
    refine (kern_eq ..).trans ?_
    exact kern_ok 2 L ops _ key d flags fs fe blocks deltas _ _ _ hom lane_set1 msg_ok store_ok
      (offs_ok (fun i => BitVec.ofNat 64 i * d) deltas fun i hi => hd i (Nat.le_of_lt hi)) inputs off out h1 h2 h3

end Baokeshed.Proofs.W64.Neon
