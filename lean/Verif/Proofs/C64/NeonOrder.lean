import Verif.Proofs.C64.Neon

/-! # C, 64-bit variant: the NEON back end on hosts with another byte order -/

set_option linter.unusedVariables false
set_option linter.unusedSimpArgs false

namespace Baokeshed.Proofs.W64.Neon
open Baokeshed.Model
open Baokeshed.Model.Portable64 (leWord64 leBytes64)
open Baokeshed.Model.C (cIndex cAdvance cStore)

open Baokeshed.Proofs.C (cIndex_ok cIndex_getD cIndex_some cAdvance_ok cStore_append cStore_zero getElem_vec4 getElem_vec8)
open Baokeshed.Proofs.C.Neon (vk vk_pos revGroups_nil revGroups_cons revGroups_append revGroups_one length_revGroups
  getD_revGroups vec_lane at_lt regBytes_vec swap_append getD_drop)
open Baokeshed.Model.C64.Neon
open Baokeshed.Spec (revGroups)
attribute [local irreducible] Spec64.compress Spec64.cvBytes

/-- the size of the groups of bytes that the host reverses in an array of `uint64_t` -/
def wk : ByteOrder → Nat
  | .little => 1
  | _ => 8

theorem wk_pos (o : ByteOrder) : 0 < wk o := by cases o <;> decide

/-! ## loads -/

theorem load_swap (o : ByteOrder) (bs : Bytes) (n off : Nat) (hn : n ≤ bs.length) (ho : off % 16 = 0) (h : off + 16 ≤ n) :
    ∃ x y, loadu_128 o bs off = .ok x ∧ loadu_128 .little (revGroups (wk o) (bs.take n)) off = .ok y ∧
      ∀ r, r < 2 → lane 64 x (el o r) = lane 64 y r := by
  have hl : (bs.take n).length = n := by rw [List.length_take]; omega
  have h1 := loadBytes_ok 16 bs off (by omega)
  have h2 := loadBytes_ok 16 (revGroups (wk o) (bs.take n)) off (by rw [length_revGroups _ (wk_pos o)]; omega)
  refine ⟨_, _, by rw [loadu_128, h1, bind_ok, pure_eq], by rw [load_little, h2], fun r hr => ?_⟩
  refine lanes_ext 8 8 (x := lane 64 _ (el o r)) (y := lane 64 _ r) fun i hi => ?_
  have hel : el o r < 2 := by cases o <;> simp only [el] <;> omega
  refine (lane_lane 8 8 _ (el o r) i hi).trans ((?_ : _ = _).trans (lane_lane 8 8 _ r i hi).symm)
  rw [vec_lane o _ _ (by omega), lane_fromLanes 8 16 _ _ (at_lt o _ (by omega)), lane_fromLanes 8 16 _ _ (by omega)]
  have hg : ∀ k, k < n → (bs.take n).getD k 0 = bs.getD k 0 := by
    intro k hk
    simp only [List.getD_eq_getElem?_getD]
    rw [List.getElem?_take, if_pos hk]
  cases o with
  | little =>
    rw [wk, revGroups_one, hg _ (by omega)]; rfl
  | bigA64 =>
    have := getD_revGroups 8 (by decide) (bs.take n) (off / 8 + r) i hi (by omega)
    rw [show 8 * (off / 8 + r) + i = off + (8 * r + i) by omega, hg _ (by omega)] at this
    refine Eq.trans ?_ this.symm
    refine congrArg (fun k => bs.getD k 0) ?_
    show off + (15 - (8 * (1 - r) + i)) = 8 * (off / 8 + r) + (8 - 1 - i)
    omega
  | bigA32 =>
    have := getD_revGroups 8 (by decide) (bs.take n) (off / 8 + r) i hi (by omega)
    rw [show 8 * (off / 8 + r) + i = off + (8 * r + i) by omega, hg _ (by omega)] at this
    refine Eq.trans ?_ this.symm
    refine congrArg (fun k => bs.getD k 0) ?_
    show off + (if 8 * r + i < 8 then 7 - (8 * r + i) else 23 - (8 * r + i)) = 8 * (off / 8 + r) + (8 - 1 - i)
    split <;> omega

/-- The inputs as a kernel on a host of order `o` reads them. -/
def seen (o : ByteOrder) (blocks : Nat) (inputs : List Bytes) : List Bytes :=
  inputs.map fun x => revGroups (wk o) (x.take (128 * blocks))

theorem length_seen (o : ByteOrder) (blocks : Nat) (inputs : List Bytes) : (seen o blocks inputs).length = inputs.length := by
  rw [seen, List.length_map]

theorem getD_seen (o : ByteOrder) (blocks : Nat) (inputs : List Bytes) (i : Nat) (h : i < inputs.length) :
    (seen o blocks inputs).getD i [] = revGroups (wk o) ((inputs.getD i []).take (128 * blocks)) := by
  simp only [seen, List.getD_eq_getElem?_getD]
  rw [List.getElem?_map, List.getElem?_eq_getElem h]
  rfl

/-- two vectors after the transposition -/
theorem pair_swap (o : ByteOrder) (a b : Bytes) (n off : Nat) (ha : n ≤ a.length) (hb : n ≤ b.length) (ho : off % 16 = 0)
    (h : off + 16 ≤ n) :
    ∃ x0 x1 y0 y1, loadu_128 o a off = .ok x0 ∧ loadu_128 o b off = .ok x1 ∧
      loadu_128 .little (revGroups (wk o) (a.take n)) off = .ok y0 ∧
      loadu_128 .little (revGroups (wk o) (b.take n)) off = .ok y1 ∧
      transpose_vecs_128 o #v[x0, x1] = transpose_vecs_128 .little #v[y0, y1] := by
  obtain ⟨x0, y0, e0, f0, l0⟩ := load_swap o a n off ha ho h
  obtain ⟨x1, y1, e1, f1, l1⟩ := load_swap o b n off hb ho h
  refine ⟨x0, x1, y0, y1, e0, e1, f0, f1, ?_⟩
  rw [tr_eq, tr_eq]
  show #v[set2 (lane 64 x0 (el o 0)) (lane 64 x1 (el o 0)), set2 (lane 64 x0 (el o 1)) (lane 64 x1 (el o 1))] =
    #v[set2 (lane 64 y0 0) (lane 64 y1 0), set2 (lane 64 y0 1) (lane 64 y1 1)]
  rw [l0 0 (by decide), l0 1 (by decide), l1 0 (by decide), l1 1 (by decide)]

theorem msg_swap (o : ByteOrder) (inputs : List Bytes) (blocks b : Nat) (h2 : 2 ≤ inputs.length)
    (hlen : ∀ i, i < 2 → 128 * blocks ≤ (inputs.getD i []).length) (hb : b < blocks) :
    transpose_msg_vecs2 o inputs (b * 128) = transpose_msg_vecs2 .little (seen o blocks inputs) (b * 128) := by
  have c : ∀ i, i < 2 → cIndex inputs i = .ok (inputs.getD i []) := fun i hi => cIndex_getD _ i [] (by omega)
  have c' : ∀ i, i < 2 → cIndex (seen o blocks inputs) i = .ok (revGroups (wk o) ((inputs.getD i []).take (128 * blocks))) :=
    fun i hi => (cIndex_getD _ i [] (by rw [length_seen]; omega)).trans (by rw [getD_seen _ _ _ _ (by omega)])
  have P := fun q (hq : q < 8) => pair_swap o (inputs.getD 0 []) (inputs.getD 1 []) (128 * blocks) (b * 128 + q * 16)
    (hlen 0 (by decide)) (hlen 1 (by decide)) (by omega) (by omega)
  obtain ⟨a0, b0, c0, d0, p0, q0, r0, s0, t0⟩ := P 0 (by decide)
  obtain ⟨a1, b1, c1, d1, p1, q1, r1, s1, t1⟩ := P 1 (by decide)
  obtain ⟨a2, b2, c2, d2, p2, q2, r2, s2, t2⟩ := P 2 (by decide)
  obtain ⟨a3, b3, c3, d3, p3, q3, r3, s3, t3⟩ := P 3 (by decide)
  obtain ⟨a4, b4, c4, d4, p4, q4, r4, s4, t4⟩ := P 4 (by decide)
  obtain ⟨a5, b5, c5, d5, p5, q5, r5, s5, t5⟩ := P 5 (by decide)
  obtain ⟨a6, b6, c6, d6, p6, q6, r6, s6, t6⟩ := P 6 (by decide)
  obtain ⟨a7, b7, c7, d7, p7, q7, r7, s7, t7⟩ := P 7 (by decide)
  unfold transpose_msg_vecs2
  rw [c 0 (by decide), c 1 (by decide), c' 0 (by decide), c' 1 (by decide)]
  simp only [bind_ok]
  rw [p0, q0, r0, s0, p1, q1, r1, s1, p2, q2, r2, s2, p3, q3, r3, s3, p4, q4, r4, s4, p5, q5, r5, s5, p6, q6, r6, s6,
    p7, q7, r7, s7]
  simp only [bind_ok]
  rw [t0, t1, t2, t3, t4, t5, t6, t7]

theorem loop_swap (o : ByteOrder) (inputs : List Bytes) (blocks : Nat) (h2 : 2 ≤ inputs.length)
    (hlen : ∀ i, i < 2 → 128 * blocks ≤ (inputs.getD i []).length) (offs : M128) (flags fe : Byte) (n block : Nat)
    (hn : block + n ≤ blocks) (h : Vector M128 4) (bf : Byte) :
    hash2_neon_loop o inputs blocks offs flags fe n block h bf =
      hash2_neon_loop .little (seen o blocks inputs) blocks offs flags fe n block h bf := by
  induction n generalizing block h bf with
  | zero => rfl
  | succ n ih =>
    rw [hash2_neon_loop, hash2_neon_loop]
    have e : transpose_msg_vecs2 o inputs (block * C64.BLOCK_LEN) =
        transpose_msg_vecs2 .little (seen o blocks inputs) (block * C64.BLOCK_LEN) := msg_swap o inputs blocks block h2 hlen (by omega)
    rw [e]
    refine congrArg _ (funext fun m => ?_)
    exact ih (block + 1) (by omega) _ _

/-! ## stores -/

theorem store_swap (o : ByteOrder) (h : Vector M128 4) (out : Bytes) (hout : 64 ≤ out.length) :
    hash2_neon_store o h out = .ok (revGroups (vk o) (Spec64.cvBytes (h.map (L (el o 0)))) ++
      revGroups (vk o) (Spec64.cvBytes (h.map (L (el o 1)))) ++ out.drop 64) := by
  have len : ∀ x : M128, (regBytes 16 x).length = 16 := fun x => length_regBytes64 2 x
  unfold hash2_neon_store storeu_128
  refine (store4 out _ _ _ _ 16 (len _) (len _) (len _) (len _) hout).trans (congrArg Except.ok ?_)
  have r2 : ∀ x : M128, regBytes 16 x = (List.range 2).flatMap fun i => leBytes64 (lane 64 x i) :=
    fun x => regBytes_lanes 2 x
  have rv : ∀ (i : Nat), revGroups (vk o) (Spec64.cvBytes (h.map (L i))) =
      revGroups (vk o) (leBytes64 (L i h[0]) ++ leBytes64 (L i h[1])) ++
      revGroups (vk o) (leBytes64 (L i h[2]) ++ leBytes64 (L i h[3])) := by
    intro i
    rw [← swap_append o _ _ (by rfl), cvBytes_toList]
    simp only [Vector.getElem_map, List.append_assoc]
  have t0 := fun vs r hr => tr_el o vs r 0 hr (by decide)
  have t1 := fun vs r hr => tr_el o vs r 1 hr (by decide)
  simp only [L] at t0 t1
  rw [rv, rv]
  simp only [vec_bytes, regBytes_vec]
  simp only [r2, show List.range 2 = [0, 1] by decide, List.flatMap_cons, List.flatMap_nil, t0 _ 0 (by decide), t0 _ 1 (by decide), t1 _ 0 (by decide), t1 _ 1 (by decide),
    List.append_assoc, List.append_nil]
  rfl

theorem u64s_swap (o : ByteOrder) (ws : Vector U64 4) : o.u64s ws = revGroups (wk o) (Spec64.cvBytes ws) := by
  have e : Spec64.cvBytes ws = ws.toList.flatMap fun w => regBytes 8 w := by rw [← memOf_eq]; rfl
  have hb : ∀ l : List U64, revGroups 8 (l.flatMap fun w => regBytes 8 w) = l.flatMap fun w => (regBytes 8 w).reverse := by
    intro l
    induction l with
    | nil => exact revGroups_nil 8
    | cons w l ih =>
      have hw : (regBytes 8 w).length = 8 := by rw [regBytes, List.length_map, List.length_range]
      rw [List.flatMap_cons, List.flatMap_cons, revGroups_append 8 (by decide) 1 _ _ (by rw [hw]), ih]
      refine congrArg (· ++ _) ?_
      rw [revGroups_cons 8 (by decide) _ (by intro h0; rw [h0] at hw; cases hw), List.take_of_length_le (by omega),
        List.drop_of_length_le (by omega), revGroups_nil, List.append_nil]
  rw [e]
  cases o with
  | little => rw [wk, revGroups_one]; rfl
  | bigA64 => exact (hb ws.toList).symm
  | bigA32 => exact (hb ws.toList).symm

/-! ## the kernel -/

/-- the number of the input whose result is at position `i` -/
def src : ByteOrder → Nat → Nat
  | .bigA64, i => if i % 2 = 0 then i + 1 else i - 1
  | _, i => i

/-- the result at position `i` of those that were computed in pairs -/
def pairRes (o : ByteOrder) (key : Vector U64 4) (d : U64) (flags fs fe : Byte) (blocks : Nat) (off : U64) (inputs : List Bytes)
    (i : Nat) : Bytes :=
  revGroups (vk o) (Spec64.cvBytes (Spec64.blockChain key (off + BitVec.ofNat 64 (src o i) * d) flags fs fe blocks
    (revGroups (wk o) ((inputs.getD (src o i) []).take (128 * blocks)))))

/-- the result for a single input -/
def oneRes (o : ByteOrder) (key : Vector U64 4) (flags fs fe : Byte) (blocks : Nat) (off : U64) (x : Bytes) : Bytes :=
  revGroups (wk o) (Spec64.cvBytes (Spec64.blockChain key off flags fs fe blocks x))

theorem length_pairRes (o : ByteOrder) (key : Vector U64 4) (d : U64) (flags fs fe : Byte) (blocks : Nat) (off : U64)
    (inputs : List Bytes) (i : Nat) : (pairRes o key d flags fs fe blocks off inputs i).length = 32 := by
  rw [pairRes, length_revGroups _ (vk_pos o), length_cvBytes]

theorem length_oneRes (o : ByteOrder) (key : Vector U64 4) (flags fs fe : Byte) (blocks : Nat) (off : U64) (x : Bytes) :
    (oneRes o key flags fs fe blocks off x).length = 32 := by
  rw [oneRes, length_revGroups _ (wk_pos o), length_cvBytes]

theorem hash2_swap (o : ByteOrder) (key : Vector U64 4) (d : U64) (flags fs fe : Byte) (blocks : Nat) (deltas : List U64)
    (hd : ∀ i, i ≤ 2 → deltas[i]? = some (BitVec.ofNat 64 i * d)) (inputs : List Bytes) (off : U64) (out : Bytes)
    (h2 : 2 ≤ inputs.length) (hlen : ∀ i, i < 2 → 128 * blocks ≤ (inputs.getD i []).length) (hout : 64 ≤ out.length) :
    hash2_neon o inputs blocks key off deltas flags fs fe out =
      .ok (pairRes o key d flags fs fe blocks off inputs 0 ++ pairRes o key d flags fs fe blocks off inputs 1 ++ out.drop 64) := by
  have hk : hash2_neon .little (seen o blocks inputs) blocks key off deltas flags fs fe out = _ :=
    (kern_eq ..).trans (kern_ok 2 L ops set1_128 key d flags fs fe blocks deltas _ _ _ hom lane_set1 msg_ok store_ok
      (offs_ok (fun i => BitVec.ofNat 64 i * d) deltas fun i hi => hd i (Nat.le_of_lt hi)) (seen o blocks inputs) off out (by rw [length_seen]; exact h2) (fun i hi => by
        rw [getD_seen _ _ _ _ (by omega), length_revGroups _ (wk_pos o), List.length_take]
        have := hlen i hi
        omega) (by omega))
  obtain ⟨offs, el', -⟩ := offs_ok (fun i => BitVec.ofNat 64 i * d) deltas (fun i hi => hd i (Nat.le_of_lt hi)) off
  rw [hash2_neon, el', bind_ok] at hk ⊢
  rw [loop_swap o inputs blocks h2 hlen offs flags fe blocks 0 (by omega)]
  revert hk
  generalize hash2_neon_loop .little (seen o blocks inputs) blocks offs flags fe blocks 0 _ _ = r
  cases r with
  | error e => intro hk; cases hk
  | ok h =>
    rw [bind_ok, bind_ok]
    intro hk
    rw [store_swap o h out hout]
    have e := List.append_cancel_right (Except.ok.inj ((store_ok h out hout).symm.trans hk))
    rw [Spec64.manyOut] at e
    simp only [show List.range 2 = [0, 1] by decide, List.flatMap_cons, List.flatMap_nil, List.append_nil] at e
    obtain ⟨e0, e1⟩ := List.append_inj e (by rw [length_cvBytes, length_cvBytes])
    rw [getD_seen _ _ _ _ (by omega)] at e0 e1
    have E : ∀ j, j < 2 → Spec64.cvBytes (h.map (L j)) = Spec64.cvBytes (Spec64.blockChain key (off + BitVec.ofNat 64 j * d) flags fs fe blocks
        (revGroups (wk o) ((inputs.getD j []).take (128 * blocks)))) := by
      intro j hj
      rcases j with _ | _ | j
      · exact e0
      · exact e1
      · omega
    have hs : ∀ i, i < 2 → el o i = src o i ∧ src o i < 2 := by
      intro i hi
      rcases i with _ | _ | i
      · cases o <;> decide
      · cases o <;> decide
      · omega
    rw [E _ ((hs 0 (by decide)).1 ▸ (hs 0 (by decide)).2), E _ ((hs 1 (by decide)).1 ▸ (hs 1 (by decide)).2), (hs 0 (by decide)).1,
      (hs 1 (by decide)).1]
    rfl

theorem one_swap (o : ByteOrder) (key : Vector U64 4) (flags fs fe : Byte) (blocks : Nat) (input : Bytes) (off : U64)
    (out : Bytes) (hi : 128 * blocks ≤ input.length) (ho : 32 ≤ out.length) :
    hash_one_neon o input blocks key off flags fs fe out =
      .ok (oneRes o key flags fs fe blocks off input ++ out.drop 32) := by
  rw [hash_one_neon, one_loop_eq, oneLoop_eq compress_portable_ok _ _ _ _ _ _ _ hi, bind_ok,
    cvLoop_chain _ _ _ _ _ _ _ hi, u64s_swap]
  have hl := length_oneRes o key flags fs fe blocks off input
  rw [oneRes] at hl
  rw [cStore_zero _ _ (by omega), hl, oneRes]

/-! ## hash_many -/

/-- the result at position `i` of `num` -/
def res (o : ByteOrder) (key : Vector U64 4) (d : U64) (flags fs fe : Byte) (blocks num : Nat) (off : U64) (inputs : List Bytes)
    (i : Nat) : Bytes :=
  if i < 2 * (num / 2) then pairRes o key d flags fs fe blocks off inputs i
  else oneRes o key flags fs fe blocks (off + BitVec.ofNat 64 i * d) (inputs.getD i [])

theorem res_shift (o : ByteOrder) (key : Vector U64 4) (d : U64) (flags fs fe : Byte) (blocks num : Nat) (h : 2 ≤ num) (off : U64)
    (inputs : List Bytes) (i : Nat) :
    res o key d flags fs fe blocks num off inputs (2 + i) =
      res o key d flags fs fe blocks (num - 2) (off + BitVec.ofNat 64 2 * d) (inputs.drop 2) i := by
  have ho : ∀ j, off + BitVec.ofNat 64 (2 + j) * d = off + BitVec.ofNat 64 2 * d + BitVec.ofNat 64 j * d := by
    intro j; rw [BitVec.ofNat_add, BitVec.add_mul, BitVec.add_assoc]
  have hs : src o (2 + i) = 2 + src o i := by
    cases o with
    | little => rfl
    | bigA32 => rfl
    | bigA64 => show (if (2 + i) % 2 = 0 then 2 + i + 1 else 2 + i - 1) = 2 + (if i % 2 = 0 then i + 1 else i - 1); split <;> split <;> omega
  rw [res, res]
  by_cases hi : i < 2 * ((num - 2) / 2)
  · rw [if_pos hi, if_pos (by omega), pairRes, pairRes, hs, ho, getD_drop]
  · rw [if_neg hi, if_neg (by omega), ho, getD_drop]

theorem loop2_swap (o : ByteOrder) (key : Vector U64 4) (d : U64) (flags fs fe : Byte) (blocks : Nat) (deltas : List U64)
    (hd : ∀ i, i ≤ 2 → deltas[i]? = some (BitVec.ofNat 64 i * d)) (num : Nat) (inputs : List Bytes) (off : U64) (out : Bytes)
    (hn : num ≤ inputs.length) (hlen : ∀ i, i < num → 128 * blocks ≤ (inputs.getD i []).length) (hout : 32 * num ≤ out.length) :
    hash_many_neon_loop2 o blocks key deltas flags fs fe num inputs off out =
      .ok ((List.range num).flatMap (res o key d flags fs fe blocks num off inputs) ++ out.drop (32 * num)) := by
  induction hnn : num using Nat.strongRecOn generalizing num inputs off out with
  | ind k ih =>
    subst hnn
    rw [hash_many_neon_loop2]
    by_cases h : 2 ≤ num
    · have l0 := length_pairRes o key d flags fs fe blocks off inputs 0
      have l1 := length_pairRes o key d flags fs fe blocks off inputs 1
      have hl : (pairRes o key d flags fs fe blocks off inputs 0 ++ pairRes o key d flags fs fe blocks off inputs 1).length = 2 * C64.OUT_LEN := by
        rw [List.length_append, l0, l1]; rfl
      rw [dif_pos h, hash2_swap o key d flags fs fe blocks deltas hd inputs off out (by omega) (fun i hi => hlen i (by omega)) (by omega),
        bind_ok, cAdvance_ok _ _ (by omega), bind_ok, cIndex_some _ _ _ (hd 2 (by decide)), bind_ok,
        cAdvance_ok _ _ (by rw [List.length_append, hl]; omega), bind_ok, List.drop_left' hl, List.take_left' hl,
        ih (num - 2) (by omega) (num - 2) (inputs.drop 2) _ (out.drop 64) (by rw [List.length_drop]; omega) (fun i hi => by
          rw [getD_drop]; exact hlen _ (by omega)) (by rw [List.length_drop]; omega) rfl, bind_ok, pure_eq]
      have hr : List.range num = [0, 1] ++ (List.range (num - 2)).map (2 + ·) := by
        have := List.range_add (n := 2) (m := num - 2)
        rw [show 2 + (num - 2) = num by omega] at this
        exact this
      have r0 : res o key d flags fs fe blocks num off inputs 0 = pairRes o key d flags fs fe blocks off inputs 0 := by
        rw [res, if_pos (by omega)]
      have r1 : res o key d flags fs fe blocks num off inputs 1 = pairRes o key d flags fs fe blocks off inputs 1 := by
        rw [res, if_pos (by omega)]
      rw [hr, List.flatMap_append, List.flatMap_map]
      simp only [List.flatMap_cons, List.flatMap_nil, List.append_nil]
      rw [r0, r1, List.drop_drop, show 64 + 32 * (num - 2) = 32 * num by omega]
      simp only [res_shift o key d flags fs fe blocks num h off inputs, List.append_assoc]
    · rw [dif_neg h]
      rcases num with _ | _ | num
      · simp [hash_many_neon_loop1]
      · have hl := length_oneRes o key flags fs fe blocks off (inputs.getD 0 [])
        rw [hash_many_neon_loop1, cIndex_getD _ 0 [] (by omega), bind_ok, one_swap o key flags fs fe blocks _ off out (hlen 0 (by omega)) (by omega),
          bind_ok, cAdvance_ok _ _ (by omega), bind_ok, cIndex_some _ _ _ (hd 1 (by decide)), bind_ok,
          cAdvance_ok _ _ (by simp only [C64.OUT_LEN, List.length_append, List.length_drop]; omega), bind_ok,
          List.drop_left' (show _ = C64.OUT_LEN from hl), List.take_left' (show _ = C64.OUT_LEN from hl), hash_many_neon_loop1, bind_ok, pure_eq]
        have r0 : res o key d flags fs fe blocks 1 off inputs 0 = oneRes o key flags fs fe blocks off (inputs.getD 0 []) := by
          rw [res, if_neg (by decide), show off + BitVec.ofNat 64 0 * d = off by simp]
        rw [show List.range (0 + 1) = [0] from rfl]
        simp only [List.flatMap_cons, List.flatMap_nil, List.append_nil]
        rw [show (0 + 1 : Nat) = 1 from rfl, r0]
      · omega

end Baokeshed.Proofs.W64.Neon
