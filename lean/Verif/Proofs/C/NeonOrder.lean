import Verif.SpecOrder
import Verif.Proofs.C.Neon

/-! # C: the NEON back end on hosts with another byte order -/

set_option linter.unusedVariables false
set_option linter.unusedSimpArgs false

namespace Baokeshed.Proofs.C.Neon
open Baokeshed.Model Baokeshed.Model.C Baokeshed.Model.C.Neon Baokeshed.Spec
attribute [local irreducible] Spec.compress Spec.cvBytes

/-! ## Reversing groups of bytes -/

theorem revGroups_nil (k : Nat) : revGroups k [] = [] := by
  rw [revGroups, dif_pos (Or.inl rfl)]

theorem revGroups_cons (k : Nat) (hk : 0 < k) (bs : Bytes) (h : bs ≠ []) :
    revGroups k bs = (bs.take k).reverse ++ revGroups k (bs.drop k) := by
  rw [revGroups, dif_neg (by rintro (h' | h'); exact h h'; omega)]

theorem revGroups_append (k : Nat) (hk : 0 < k) (n : Nat) (a b : Bytes) (h : a.length = n * k) :
    revGroups k (a ++ b) = revGroups k a ++ revGroups k b := by
  induction n generalizing a with
  | zero =>
    have : a = [] := List.length_eq_zero_iff.1 (by omega)
    subst this
    rw [revGroups_nil]; rfl
  | succ n ih =>
    have e : (n + 1) * k = n * k + k := Nat.succ_mul n k
    have ha : a ≠ [] := by intro h0; rw [h0, List.length_nil] at h; omega
    rw [revGroups_cons k hk (a ++ b) (by intro h0; exact ha (List.append_eq_nil_iff.1 h0).1), revGroups_cons k hk a ha,
      List.take_append_of_le_length (by omega), List.drop_append_of_le_length (by omega),
      ih (a.drop k) (by rw [List.length_drop]; omega), List.append_assoc]

theorem revGroups_one (bs : Bytes) : revGroups 1 bs = bs := by
  induction bs with
  | nil => exact revGroups_nil 1
  | cons b bs ih => rw [revGroups_cons 1 (by decide) _ (by simp), List.drop_one, List.tail_cons, ih]; rfl

theorem length_revGroups (k : Nat) (hk : 0 < k) (bs : Bytes) : (revGroups k bs).length = bs.length := by
  induction hn : bs.length using Nat.strongRecOn generalizing bs with
  | ind n ih =>
    by_cases h : bs = []
    · subst h; rw [revGroups_nil]; exact hn
    · have := List.length_pos_iff.2 h
      rw [revGroups_cons k hk bs h, List.length_append, List.length_reverse, List.length_take,
        ih _ (by rw [List.length_drop]; omega) (bs.drop k) rfl, List.length_drop]
      omega

/-- byte `j` of group `q` -/
theorem getD_revGroups (k : Nat) (hk : 0 < k) (bs : Bytes) (q j : Nat) (hj : j < k) (h : k * q + k ≤ bs.length) :
    (revGroups k bs).getD (k * q + j) 0 = bs.getD (k * q + (k - 1 - j)) 0 := by
  induction q generalizing bs with
  | zero =>
    have hne : bs ≠ [] := by intro h0; rw [h0, List.length_nil] at h; omega
    rw [Nat.mul_zero, Nat.zero_add] at h
    rw [Nat.mul_zero, Nat.zero_add, Nat.zero_add, revGroups_cons k hk bs hne]
    simp only [List.getD_eq_getElem?_getD]
    rw [List.getElem?_append_left (by rw [List.length_reverse, List.length_take]; omega),
      List.getElem?_reverse (by rw [List.length_take]; omega), List.length_take, Nat.min_eq_left h, List.getElem?_take,
      if_pos (by omega)]
  | succ q ih =>
    have hne : bs ≠ [] := by intro h0; rw [h0, List.length_nil] at h; omega
    have e : k * (q + 1) = k * q + k := Nat.mul_succ k q
    rw [e] at h ⊢
    have hi := ih (bs.drop k) (by rw [List.length_drop]; omega)
    simp only [List.getD_eq_getElem?_getD] at hi ⊢
    rw [List.getElem?_drop] at hi
    rw [revGroups_cons k hk bs hne, List.getElem?_append_right (by rw [List.length_reverse, List.length_take]; omega),
      List.length_reverse, List.length_take, Nat.min_eq_left (by omega),
      show k * q + k + j - k = k * q + j by omega, hi, show k + (k * q + (k - 1 - j)) = k * q + k + (k - 1 - j) by omega]

/-- the size of the groups of bytes that the host reverses in a vector -/
def vk : ByteOrder → Nat
  | .little => 1
  | .bigA64 => 16
  | .bigA32 => 8

/-- and in an array of `uint32_t` -/
def wk : ByteOrder → Nat
  | .little => 1
  | _ => 4

theorem vk_pos (o : ByteOrder) : 0 < vk o := by cases o <;> decide
theorem wk_pos (o : ByteOrder) : 0 < wk o := by cases o <;> decide

theorem swap_getD (o : ByteOrder) (bs : Bytes) (off : Nat) (ho : off % 16 = 0) (h : off + 16 ≤ bs.length) (i : Nat) (hi : i < 16) :
    (revGroups (vk o) bs).getD (off + i) 0 = bs.getD (off + o.at i) 0 := by
  cases o with
  | little => rw [vk, revGroups_one]; rfl
  | bigA64 =>
    have := getD_revGroups 16 (by decide) bs (off / 16) i hi (by omega)
    rw [show 16 * (off / 16) = off by omega] at this
    exact this
  | bigA32 =>
    by_cases h8 : i < 8
    · have := getD_revGroups 8 (by decide) bs (off / 8) i h8 (by omega)
      rw [show 8 * (off / 8) = off by omega] at this
      rw [vk, this, ByteOrder.at, if_pos h8]
    · have := getD_revGroups 8 (by decide) bs (off / 8 + 1) (i - 8) (by omega) (by omega)
      rw [show 8 * (off / 8 + 1) = off + 8 by omega, show off + 8 + (i - 8) = off + i by omega] at this
      rw [vk, this, ByteOrder.at, if_neg h8, show off + 8 + (8 - 1 - (i - 8)) = off + (23 - i) by omega]

theorem at_lt (o : ByteOrder) (i : Nat) (hi : i < 16) : o.at i < 16 := by
  cases o with
  | little => exact hi
  | bigA64 => show 15 - i < 16; omega
  | bigA32 => show (if i < 8 then 7 - i else 23 - i) < 16; split <;> omega

theorem vec_lane (o : ByteOrder) (x : M128) (i : Nat) (hi : i < 16) : lane 8 (o.vec x) i = lane 8 x (o.at i) := by
  cases o with
  | little => rfl
  | bigA64 => unfold ByteOrder.vec; dsimp only; rw [lane_fromLanes 8 16 _ i hi]
  | bigA32 => unfold ByteOrder.vec; dsimp only; rw [lane_fromLanes 8 16 _ i hi]

theorem fromLanes_vec (o : ByteOrder) (f : Nat → Byte) :
    o.vec (fromLanes 8 16 f) = fromLanes 8 16 fun i => f (o.at i) := by
  cases o with
  | little => rfl
  | bigA64 =>
    unfold ByteOrder.vec; dsimp only
    refine fromLanes_congr 8 16 fun i hi => ?_
    rw [lane_fromLanes 8 16 f _ (at_lt .bigA64 i hi)]
  | bigA32 =>
    unfold ByteOrder.vec; dsimp only
    refine fromLanes_congr 8 16 fun i hi => ?_
    rw [lane_fromLanes 8 16 f _ (at_lt .bigA32 i hi)]

theorem load_swap (o : ByteOrder) (bs : Bytes) (n off : Nat) (hn : n ≤ bs.length) (ho : off % 16 = 0) (h : off + 16 ≤ n) :
    loadu_128 o bs off = loadu_128 .little (revGroups (vk o) (bs.take n)) off := by
  have hl : (bs.take n).length = n := by rw [List.length_take]; omega
  rw [load_little, loadu_128, loadBytes_ok 16 _ off (by omega), loadBytes_ok 16 _ off (by rw [length_revGroups _ (vk_pos o)]; omega),
    bind_ok, pure_eq, fromLanes_vec]
  refine congrArg Except.ok (fromLanes_congr 8 16 fun i hi => ?_)
  have := at_lt o i hi
  rw [swap_getD o _ off ho (by omega) i hi]
  simp only [List.getD_eq_getElem?_getD]
  rw [List.getElem?_take, if_pos (by omega)]

theorem regBytes_vec (o : ByteOrder) (x : M128) : regBytes 16 (o.vec x) = revGroups (vk o) (regBytes 16 x) := by
  have hl : (regBytes 16 x).length = 16 := length_regBytes 16 x
  have hl' : (regBytes 16 (o.vec x)).length = 16 := length_regBytes 16 _
  have hr : (revGroups (vk o) (regBytes 16 x)).length = 16 := by rw [length_revGroups _ (vk_pos o), hl]
  have hg : ∀ (y : M128) (i : Nat), i < 16 → (regBytes 16 y).getD i 0 = lane 8 y i := by
    intro y i hi
    rw [regBytes, List.getD_eq_getElem?_getD, List.getElem?_map, List.getElem?_range hi]; rfl
  refine List.ext_getElem (by rw [hl', hr]) fun i h1 h2 => ?_
  have e1 := hg (o.vec x) i (by omega)
  have e2 := swap_getD o (regBytes 16 x) 0 rfl (by omega) i (by omega)
  rw [Nat.zero_add, Nat.zero_add, hg x _ (at_lt o i (by omega)), ← vec_lane o x i (by omega)] at e2
  have e3 := e1.trans e2.symm
  simp only [List.getD_eq_getElem?_getD, List.getElem?_eq_getElem h1, List.getElem?_eq_getElem h2, Option.getD_some] at e3
  exact e3

/-! ## hash4 -/

theorem swap_append (o : ByteOrder) (a b : Bytes) (h : a.length = 16) :
    revGroups (vk o) (a ++ b) = revGroups (vk o) a ++ revGroups (vk o) b := by
  refine revGroups_append (vk o) (vk_pos o) (16 / vk o) a b ?_
  rw [h]; cases o <;> rfl

theorem store_swap (o : ByteOrder) (h : Vector M128 8) (out : Bytes) (hout : 128 ≤ out.length) :
    hash4_neon_store o h out = .ok (revGroups (vk o)
      ((List.range 4).flatMap fun i => (Spec.cvBytes (h.map (L i))).toList) ++ out.drop 128) := by
  have hl := store_ok h out hout
  have len : ∀ x : M128, (regBytes 16 x).length = 16 := fun x => length_regBytes 16 x
  have e1 : hash4_neon_store .little h out = _ := store8 out _ _ _ _ _ _ _ _ 16 (len _) (len _) (len _) (len _) (len _) (len _)
    (len _) (len _) hout
  have e2 : hash4_neon_store o h out = _ := store8 out _ _ _ _ _ _ _ _ 16 (len _) (len _) (len _) (len _) (len _) (len _)
    (len _) (len _) hout
  have e3 := hl.symm.trans e1
  rw [e2]
  simp only [vec_little] at e3
  have e4 := Except.ok.inj e3
  rw [show 32 * 4 = 8 * 16 from rfl] at e4
  simp only [← List.append_assoc] at e4
  have e5 := List.append_cancel_right e4
  rw [e5]
  simp only [List.append_assoc]
  rw [swap_append o _ _ (len _), swap_append o _ _ (len _), swap_append o _ _ (len _), swap_append o _ _ (len _),
    swap_append o _ _ (len _), swap_append o _ _ (len _), swap_append o _ _ (len _)]
  simp only [regBytes_vec, List.append_assoc]

/-- The inputs as a kernel on a host of order `o` reads them. -/
def seen (o : ByteOrder) (blocks : Nat) (inputs : List Bytes) : List Bytes :=
  inputs.map fun x => revGroups (vk o) (x.take (64 * blocks))

theorem length_seen (o : ByteOrder) (blocks : Nat) (inputs : List Bytes) : (seen o blocks inputs).length = inputs.length := by
  rw [seen, List.length_map]

theorem getD_seen (o : ByteOrder) (blocks : Nat) (inputs : List Bytes) (i : Nat) (h : i < inputs.length) :
    (seen o blocks inputs).getD i [] = revGroups (vk o) ((inputs.getD i []).take (64 * blocks)) := by
  simp only [seen, List.getD_eq_getElem?_getD]
  rw [List.getElem?_map, List.getElem?_eq_getElem h]
  rfl

theorem msg_swap (o : ByteOrder) (inputs : List Bytes) (blocks b : Nat) (h4 : 4 ≤ inputs.length)
    (hlen : ∀ i, i < 4 → 64 * blocks ≤ (inputs.getD i []).length) (hb : b < blocks) :
    transpose_msg_vecs4 o inputs (b * 64) = transpose_msg_vecs4 .little (seen o blocks inputs) (b * 64) := by
  have c : ∀ i, i < 4 → cIndex inputs i = .ok (inputs.getD i []) := fun i hi => cIndex_getD _ i [] (by omega)
  have c' : ∀ i, i < 4 → cIndex (seen o blocks inputs) i = .ok (revGroups (vk o) ((inputs.getD i []).take (64 * blocks))) :=
    fun i hi => (cIndex_getD _ i [] (by rw [length_seen]; omega)).trans (by rw [getD_seen _ _ _ _ (by omega)])
  have l : ∀ i q, i < 4 → q < 4 → loadu_128 o (inputs.getD i []) (b * 64 + q * 16) =
      loadu_128 .little (revGroups (vk o) ((inputs.getD i []).take (64 * blocks))) (b * 64 + q * 16) :=
    fun i q hi hq => load_swap o _ _ _ (hlen i hi) (by omega) (by omega)
  unfold transpose_msg_vecs4
  rw [c 0 (by decide), c 1 (by decide), c 2 (by decide), c 3 (by decide), c' 0 (by decide), c' 1 (by decide), c' 2 (by decide),
    c' 3 (by decide)]
  simp only [bind_ok]
  rw [l 0 0 (by decide) (by decide), l 1 0 (by decide) (by decide), l 2 0 (by decide) (by decide), l 3 0 (by decide) (by decide),
    l 0 1 (by decide) (by decide), l 1 1 (by decide) (by decide), l 2 1 (by decide) (by decide), l 3 1 (by decide) (by decide),
    l 0 2 (by decide) (by decide), l 1 2 (by decide) (by decide), l 2 2 (by decide) (by decide), l 3 2 (by decide) (by decide),
    l 0 3 (by decide) (by decide), l 1 3 (by decide) (by decide), l 2 3 (by decide) (by decide), l 3 3 (by decide) (by decide)]

theorem loop_swap (o : ByteOrder) (inputs : List Bytes) (blocks : Nat) (h4 : 4 ≤ inputs.length)
    (hlen : ∀ i, i < 4 → 64 * blocks ≤ (inputs.getD i []).length) (lo hi : M128) (flags fe : Byte) (n block : Nat)
    (hn : block + n ≤ blocks) (h : Vector M128 8) (bf : Byte) :
    hash4_neon_loop o inputs blocks lo hi flags fe n block h bf =
      hash4_neon_loop .little (seen o blocks inputs) blocks lo hi flags fe n block h bf := by
  induction n generalizing block h bf with
  | zero => rfl
  | succ n ih =>
    rw [hash4_neon_loop, hash4_neon_loop]
    have e : transpose_msg_vecs4 o inputs (block * C.BLOCK_LEN) =
        transpose_msg_vecs4 .little (seen o blocks inputs) (block * C.BLOCK_LEN) := msg_swap o inputs blocks block h4 hlen (by omega)
    rw [e]
    refine congrArg _ (funext fun m => ?_)
    exact ih (block + 1) (by omega) _ _

theorem length_flatMap4 (f : Nat → Vector Byte 32) (n : Nat) : ((List.range n).flatMap fun i => (f i).toList).length = 32 * n := by
  induction n with
  | zero => rfl
  | succ n ih => rw [List.range_succ, List.flatMap_append, List.length_append, ih]; simp; omega

/-- what `hash4_neon` writes on a host of order `o` -/
theorem hash4_swap (o : ByteOrder) (key : Vector Word 8) (d : U64) (flags fs fe : Byte) (blocks : Nat) (deltas : List U64)
    (hd : ∀ i, i ≤ 4 → deltas[i]? = some (BitVec.ofNat 64 i * d)) (inputs : List Bytes) (off : U64) (out : Bytes)
    (h4 : 4 ≤ inputs.length) (hlen : ∀ i, i < 4 → 64 * blocks ≤ (inputs.getD i []).length) (hout : 128 ≤ out.length) :
    hash4_neon o inputs blocks key off deltas flags fs fe out =
      .ok (revGroups (vk o) (Spec.manyOut key off d flags fs fe blocks 4 (seen o blocks inputs)) ++ out.drop 128) := by
  have hk : hash4_neon .little (seen o blocks inputs) blocks key off deltas flags fs fe out = _ :=
    (kern_eq ..).trans (kern_ok 4 L ops set1_128 key d flags fs fe blocks deltas _ _ _ hom lane_set1 msg_ok store_ok
      (offs_ok (fun i => BitVec.ofNat 64 i * d) deltas fun i hi => hd i (Nat.le_of_lt hi)) (seen o blocks inputs) off out (by rw [length_seen]; exact h4) (fun i hi => by
        rw [getD_seen _ _ _ _ (by omega), length_revGroups _ (vk_pos o), List.length_take]
        have := hlen i hi
        omega) (by omega))
  obtain ⟨lo, hi, el, -⟩ := offs_ok (fun i => BitVec.ofNat 64 i * d) deltas (fun i hi => hd i (Nat.le_of_lt hi)) off
  rw [hash4_neon, el, bind_ok] at hk ⊢
  dsimp only at hk ⊢
  rw [loop_swap o inputs blocks h4 hlen lo hi flags fe blocks 0 (by omega)]
  revert hk
  generalize hash4_neon_loop .little (seen o blocks inputs) blocks lo hi flags fe blocks 0 _ _ = r
  cases r with
  | error e => intro hk; cases hk
  | ok h =>
    rw [bind_ok, bind_ok]
    intro hk
    rw [store_swap o h out hout]
    have e := Except.ok.inj ((store_ok h out hout).symm.trans hk)
    rw [List.append_cancel_right e]

/-! ## hash_many -/

theorem words_swap (o : ByteOrder) (ws : Vector Word 8) : o.words ws = revGroups (wk o) (Spec.cvBytes ws).toList := by
  have e : (Spec.cvBytes ws).toList = (memOfWords ws).toList := by rw [memOfWords_eq, bytes_from_state_words_eq]
  rw [e]
  have hm : (memOfWords ws).toList = ws.toList.flatMap leBytes := rfl
  have hb : ∀ l : List Word, revGroups 4 (l.flatMap leBytes) =
      l.flatMap fun w => [w.extractLsb' 24 8, w.extractLsb' 16 8, w.extractLsb' 8 8, w.extractLsb' 0 8] := by
    intro l
    induction l with
    | nil => exact revGroups_nil 4
    | cons w l ih =>
      rw [List.flatMap_cons, List.flatMap_cons, revGroups_append 4 (by decide) 1 _ _ (by rfl), ih]
      refine congrArg (· ++ _) ?_
      rw [revGroups_cons 4 (by decide) _ (by simp [leBytes]), show (leBytes w).drop 4 = [] from rfl, revGroups_nil]
      rfl
  cases o with
  | little => rw [wk, revGroups_one]; rfl
  | bigA64 => exact (hb ws.toList).symm
  | bigA32 => exact (hb ws.toList).symm

theorem one_swap (o : ByteOrder) (key : Vector Word 8) (flags fs fe : Byte) (blocks : Nat) (input : Bytes) (off : U64)
    (out : Bytes) (hi : 64 * blocks ≤ input.length) (ho : 32 ≤ out.length) :
    hash_one_neon o input blocks key off flags fs fe out =
      .ok (revGroups (wk o) (Spec.cvBytes (Spec.blockChain key off flags fs fe blocks input)).toList ++ out.drop 32) := by
  rw [hash_one_neon, one_loop_eq, oneLoop_eq compress_portable_ok _ _ _ _ _ _ _ hi, bind_ok,
    cvLoop_chain _ _ _ _ _ _ _ hi, words_swap]
  have hl : (revGroups (wk o) (Spec.cvBytes (Spec.blockChain key off flags fs fe blocks input)).toList).length = 32 := by
    rw [length_revGroups _ (wk_pos o)]; simp
  rw [cStore_zero _ _ (by omega), hl]

/-- the results for `num` inputs one after the other -/
def cat (f : U64 → Bytes → Bytes) (off d : U64) (num : Nat) (inputs : List Bytes) : Bytes :=
  (List.range num).flatMap fun i => f (off + BitVec.ofNat 64 i * d) (inputs.getD i [])

theorem cat_add (f : U64 → Bytes → Bytes) (off d : U64) (a b : Nat) (inputs : List Bytes) :
    cat f off d (a + b) inputs = cat f off d a inputs ++ cat f (off + BitVec.ofNat 64 a * d) d b (inputs.drop a) := by
  rw [cat, List.range_add, List.flatMap_append, List.flatMap_map]
  refine congrArg (_ ++ ·) (congrArg (fun g => List.flatMap g (List.range b)) (funext fun i => ?_))
  rw [BitVec.ofNat_add, BitVec.add_mul, BitVec.add_assoc]
  simp only [List.getD_eq_getElem?_getD, List.getElem?_drop]

theorem length_cat (f : U64 → Bytes → Bytes) (hf : ∀ o x, (f o x).length = 32) (off d : U64) (num : Nat) (inputs : List Bytes) :
    (cat f off d num inputs).length = 32 * num := by
  induction num with
  | zero => rfl
  | succ n ih =>
    rw [cat_add, List.length_append, ih, cat]
    simp only [List.range_one, List.flatMap_cons, List.flatMap_nil, List.append_nil, hf]
    omega

theorem cat_congr (f g : U64 → Bytes → Bytes) (off d : U64) (num : Nat) (inputs : List Bytes)
    (h : ∀ o i, i < num → f o (inputs.getD i []) = g o (inputs.getD i [])) : cat f off d num inputs = cat g off d num inputs := by
  rw [cat, cat, List.flatMap_def, List.flatMap_def]
  exact congrArg List.flatten (List.map_congr_left fun i hi => h _ i (List.mem_range.1 hi))

/-- the result for one of four inputs -/
def vecRes (o : ByteOrder) (key : Vector Word 8) (flags fs fe : Byte) (blocks : Nat) (off : U64) (x : Bytes) : Bytes :=
  revGroups (vk o) (Spec.cvBytes (Spec.blockChain key off flags fs fe blocks (revGroups (vk o) (x.take (64 * blocks))))).toList

/-- the result for a single input -/
def oneRes (o : ByteOrder) (key : Vector Word 8) (flags fs fe : Byte) (blocks : Nat) (off : U64) (x : Bytes) : Bytes :=
  revGroups (wk o) (Spec.cvBytes (Spec.blockChain key off flags fs fe blocks x)).toList

theorem swap_manyOut (o : ByteOrder) (key : Vector Word 8) (d : U64) (flags fs fe : Byte) (blocks : Nat) (inputs : List Bytes)
    (num : Nat) (hn : num ≤ inputs.length) (off : U64) :
    revGroups (vk o) (Spec.manyOut key off d flags fs fe blocks num (seen o blocks inputs)) =
      cat (vecRes o key flags fs fe blocks) off d num inputs := by
  induction num with
  | zero => exact revGroups_nil _
  | succ n ih =>
    have hl : (Spec.manyOut key off d flags fs fe blocks n (seen o blocks inputs)).length = n * (32 / vk o) * vk o := by
      rw [Spec.manyOut, length_flatMap4, Nat.mul_assoc, show 32 / vk o * vk o = 32 by cases o <;> rfl, Nat.mul_comm]
    have e : Spec.manyOut key off d flags fs fe blocks (n + 1) (seen o blocks inputs) =
        Spec.manyOut key off d flags fs fe blocks n (seen o blocks inputs) ++
          (Spec.cvBytes (Spec.blockChain key (off + BitVec.ofNat 64 n * d) flags fs fe blocks
            ((seen o blocks inputs).getD n []))).toList := by
      rw [Spec.manyOut, List.range_succ, List.flatMap_append, List.flatMap_cons, List.flatMap_nil, List.append_nil]
      rfl
    rw [e, revGroups_append _ (vk_pos o) _ _ _ hl, ih (by omega), cat_add]
    refine congrArg (_ ++ ·) ?_
    rw [getD_seen _ _ _ _ (by omega), cat]
    simp only [List.range_one, List.flatMap_cons, List.flatMap_nil, List.append_nil, vecRes]
    simp only [List.getD_eq_getElem?_getD, List.getElem?_drop, Nat.add_zero]
    rw [show off + BitVec.ofNat 64 n * d + BitVec.ofNat 64 0 * d = off + BitVec.ofNat 64 n * d by simp]

theorem length_vecRes (o : ByteOrder) (key : Vector Word 8) (flags fs fe : Byte) (blocks : Nat) (off : U64) (x : Bytes) :
    (vecRes o key flags fs fe blocks off x).length = 32 := by
  rw [vecRes, length_revGroups _ (vk_pos o)]; simp

theorem length_oneRes (o : ByteOrder) (key : Vector Word 8) (flags fs fe : Byte) (blocks : Nat) (off : U64) (x : Bytes) :
    (oneRes o key flags fs fe blocks off x).length = 32 := by
  rw [oneRes, length_revGroups _ (wk_pos o)]; simp

theorem getD_drop (inputs : List Bytes) (k i : Nat) : (inputs.drop k).getD i [] = inputs.getD (k + i) [] := by
  simp only [List.getD_eq_getElem?_getD, List.getElem?_drop]

theorem loop1_swap (o : ByteOrder) (key : Vector Word 8) (d : U64) (flags fs fe : Byte) (blocks : Nat) (deltas : List U64)
    (hd : deltas[1]? = some (BitVec.ofNat 64 1 * d)) (num : Nat) (inputs : List Bytes) (off : U64) (out : Bytes)
    (hn : num ≤ inputs.length) (hlen : ∀ i, i < num → 64 * blocks ≤ (inputs.getD i []).length) (hout : 32 * num ≤ out.length) :
    hash_many_neon_loop1 o blocks key deltas flags fs fe num inputs off out =
      .ok (cat (oneRes o key flags fs fe blocks) off d num inputs ++ out.drop (32 * num)) := by
  induction num generalizing inputs off out with
  | zero => simp [hash_many_neon_loop1, cat]
  | succ n ih =>
    have hl := length_oneRes o key flags fs fe blocks off (inputs.getD 0 [])
    have e0 : cat (oneRes o key flags fs fe blocks) off d 1 inputs = oneRes o key flags fs fe blocks off (inputs.getD 0 []) := by
      simp only [cat, List.range_one, List.flatMap_cons, List.flatMap_nil, List.append_nil]
      rw [show off + BitVec.ofNat 64 0 * d = off by simp]
    rw [hash_many_neon_loop1, cIndex_getD _ 0 [] (by omega), bind_ok, one_swap o key flags fs fe blocks _ off out (hlen 0 (by omega)) (by omega),
      bind_ok, cAdvance_ok _ _ (by omega), bind_ok, cIndex_some _ _ _ hd, bind_ok,
      cAdvance_ok _ _ (by simp only [C.OUT_LEN, List.length_append, List.length_drop]; rw [show (revGroups (wk o) _).length = 32 from hl]; omega), bind_ok]
    have hdr : (revGroups (wk o) (Spec.cvBytes (Spec.blockChain key off flags fs fe blocks (inputs.getD 0 []))).toList ++ out.drop 32).drop C.OUT_LEN =
        out.drop 32 := List.drop_left' hl
    have htk : (revGroups (wk o) (Spec.cvBytes (Spec.blockChain key off flags fs fe blocks (inputs.getD 0 []))).toList ++ out.drop 32).take C.OUT_LEN =
        oneRes o key flags fs fe blocks off (inputs.getD 0 []) := List.take_left' hl
    rw [hdr, htk, ih (inputs.drop 1) _ (out.drop 32) (by rw [List.length_drop]; omega) (fun i hi => by
        rw [getD_drop]; exact hlen _ (by omega)) (by rw [List.length_drop]; omega), bind_ok, pure_eq,
      Nat.add_comm n 1, cat_add, e0, List.append_assoc, List.drop_drop, show 32 + 32 * n = 32 * (1 + n) by omega]

theorem loop4_swap (o : ByteOrder) (key : Vector Word 8) (d : U64) (flags fs fe : Byte) (blocks : Nat) (deltas : List U64)
    (hd : ∀ i, i ≤ 4 → deltas[i]? = some (BitVec.ofNat 64 i * d)) (num : Nat) (inputs : List Bytes) (off : U64) (out : Bytes)
    (hn : num ≤ inputs.length) (hlen : ∀ i, i < num → 64 * blocks ≤ (inputs.getD i []).length) (hout : 32 * num ≤ out.length) :
    hash_many_neon_loop4 o blocks key deltas flags fs fe num inputs off out =
      .ok (cat (vecRes o key flags fs fe blocks) off d (4 * (num / 4)) inputs ++
        cat (oneRes o key flags fs fe blocks) (off + BitVec.ofNat 64 (4 * (num / 4)) * d) d (num % 4) (inputs.drop (4 * (num / 4))) ++
        out.drop (32 * num)) := by
  induction hnn : num using Nat.strongRecOn generalizing num inputs off out with
  | ind k ih =>
    subst hnn
    rw [hash_many_neon_loop4]
    by_cases h : 4 ≤ num
    · have hs := swap_manyOut o key d flags fs fe blocks inputs 4 (by omega) off
      have hl := length_cat _ (length_vecRes o key flags fs fe blocks) off d 4 inputs
      rw [dif_pos h, hash4_swap o key d flags fs fe blocks deltas hd inputs off out (by omega) (fun i hi => hlen i (by omega)) (by omega), hs,
        bind_ok, cAdvance_ok _ _ (by omega), bind_ok, cIndex_some _ _ _ (hd 4 (by decide)), bind_ok,
        cAdvance_ok _ _ (by simp only [C.OUT_LEN, List.length_append, List.length_drop]; omega), bind_ok]
      have hdr : (cat (vecRes o key flags fs fe blocks) off d 4 inputs ++ out.drop 128).drop (4 * C.OUT_LEN) = out.drop 128 := List.drop_left' hl
      have htk : (cat (vecRes o key flags fs fe blocks) off d 4 inputs ++ out.drop 128).take (4 * C.OUT_LEN) =
          cat (vecRes o key flags fs fe blocks) off d 4 inputs := List.take_left' hl
      rw [hdr, htk, ih (num - 4) (by omega) (num - 4) (inputs.drop 4) _ (out.drop 128) (by rw [List.length_drop]; omega) (fun i hi => by
          rw [getD_drop]; exact hlen _ (by omega)) (by rw [List.length_drop]; omega) rfl, bind_ok, pure_eq]
      rw [show 4 * (num / 4) = 4 + 4 * ((num - 4) / 4) by omega, cat_add, show num % 4 = (num - 4) % 4 by omega, List.drop_drop, List.drop_drop,
        BitVec.ofNat_add, BitVec.add_mul, ← BitVec.add_assoc, show 128 + 32 * (num - 4) = 32 * num by omega]
      simp only [List.append_assoc]
    · rw [dif_neg h, loop1_swap o key d flags fs fe blocks deltas (hd 1 (by decide)) num inputs off out hn hlen hout,
        show num / 4 = 0 by omega, show num % 4 = num by omega]
      simp [cat]

end Baokeshed.Proofs.C.Neon
