import Verif.Proofs.HashMany

/-! # `sse41::hash4` -/

set_option linter.unusedVariables false
set_option linter.unusedSimpArgs false

namespace Baokeshed.Proofs
open Baokeshed.Model

/-- offset of input number `i` -/
def offs (off d : U64) (i : Nat) : U64 := BitVec.ofNat 64 (off.toNat + i * d.toNat)

theorem offset_plus_eq (off d : U64) (i : Nat) (hi : i < 2 ^ 64) :
    Sse41.offset_plus off (BitVec.ofNat 64 i) d =
      if off.toNat + i * d.toNat < 2 ^ 64 then .ok (offs off d i) else .error .overflow := by
  have hi' : (BitVec.ofNat 64 i).toNat = i := by simp [Nat.mod_eq_of_lt hi]
  simp only [Sse41.offset_plus, mulU64, addU64, hi']
  by_cases h : i * d.toNat < 2 ^ 64
  · rw [if_pos h, bind_ok]
    have e : (BitVec.ofNat 64 i * d).toNat = i * d.toNat := by
      rw [BitVec.toNat_mul, hi', Nat.mod_eq_of_lt h]
    rw [e]
    by_cases h2 : off.toNat + i * d.toNat < 2 ^ 64
    · rw [if_pos h2, if_pos h2]
      refine congrArg Except.ok (BitVec.eq_of_toNat_eq ?_)
      rw [BitVec.toNat_add, e, offs, BitVec.toNat_ofNat]
    · rw [if_neg h2, if_neg h2]
  · rw [if_neg h, if_neg (by omega), bind_error]

theorem addU64_eq (off d : U64) : addU64 off d =
    if off.toNat + d.toNat < 2 ^ 64 then .ok (offs off d 1) else .error .overflow := by
  unfold addU64
  split
  · refine congrArg Except.ok (BitVec.eq_of_toNat_eq ?_)
    rw [BitVec.toNat_add, offs, BitVec.toNat_ofNat, Nat.one_mul]
  · rfl

theorem offs_zero (off d : U64) : offs off d 0 = off := by
  apply BitVec.eq_of_toNat_eq; simp [offs]

theorem toNat_offs (off d : U64) (i : Nat) (h : off.toNat + i * d.toNat < 2 ^ 64) :
    (offs off d i).toNat = off.toNat + i * d.toNat := by
  rw [offs, BitVec.toNat_ofNat, Nat.mod_eq_of_lt h]

theorem offs_offs (off d : U64) (i j : Nat) (h : off.toNat + i * d.toNat < 2 ^ 64) :
    offs (offs off d i) d j = offs off d (i + j) := by
  rw [offs, toNat_offs off d i h, offs, Nat.add_mul, Nat.add_assoc]

theorem writeAt_append {α} (p rest d : List α) (off : Nat) (h : off = p.length)
    (hd : d.length ≤ rest.length) :
    writeAt (p ++ rest) off d = .ok ((p ++ d) ++ rest.drop d.length) := by
  subst h
  rw [writeAt, if_pos (by rw [List.length_append]; omega), List.take_left, List.drop_append,
    List.drop_of_length_le (by omega)]
  simp

theorem loadBytes_ok (k : Nat) (p : Bytes) (off : Nat) (h : off + k ≤ p.length) :
    loadBytes k p off = .ok (fromLanes 8 k fun i => p.getD (off + i) 0) := by
  rw [loadBytes, if_pos h]

/-- the word at byte `4 j` of the block starting at `off` -/
def wordAt (p : Bytes) (off j : Nat) : Word :=
  leWord (p.getD (off + 4 * j) 0) (p.getD (off + (4 * j + 1)) 0) (p.getD (off + (4 * j + 2)) 0)
    (p.getD (off + (4 * j + 3)) 0)

theorem words_pad (p : Bytes) (off : Nat) : Portable.words_from_block (Spec.pad (p.drop off)) =
    Vector.ofFn fun j : Fin 16 => wordAt p off j := by
  apply Vector.ext; intro j hj
  have e : ∀ i (hi : i < 64), (Spec.pad (p.drop off))[i] = p.getD (off + i) 0 := by
    intro i hi
    rw [pad_getElem]
    simp [List.getD_eq_getElem?_getD, List.getElem?_drop]
  rw [Vector.getElem_ofFn]
  simp only [Portable.words_from_block, e]
  rcases j with _|_|_|_|_|_|_|_|_|_|_|_|_|_|_|_|j
  all_goals first | rfl | omega

/-! ## SSE4.1 lanes -/

def sseOps : Ops M128 where
  add := Sse41.add
  xor := Sse41.xor
  rot16 := Sse41.rot16
  rot12 := Sse41.rot12
  rot8 := Sse41.rot8
  rot7 := Sse41.rot7

theorem sseHom (i : Nat) (hi : i < 4) : LaneHom sseOps (fun x => lane 32 x i) where
  add a b := lane_add a b i hi
  xor a b := lane_xor 32 a b i
  rot16 a := lane_rot16 a i hi
  rot12 a := lane_rot12 a i hi
  rot8 a := lane_rot8 a i hi
  rot7 a := lane_rot7 a i hi

theorem sse41_round_eq (v m : Vector M128 16) (r : Fin 7) :
    Sse41.round v m r = sseOps.round v m (MSG_SCHEDULE.get r) := by
  simp only [Sse41.round, Ops.round, sseOps]

theorem hash4_block_eq (h : Vector M128 8) (lo hi len fl : M128) (m : Vector M128 16) :
    Sse41.hash4_block h lo hi len fl m =
      sseOps.block (Sse41.set1 IV[0]) (Sse41.set1 IV[1]) (Sse41.set1 IV[2]) (Sse41.set1 IV[3])
        h lo hi len fl m := by
  unfold Sse41.hash4_block Ops.block
  simp only [sse41_round_eq]
  rfl

theorem hash4_loop_eq (inputs : Vector Bytes 4) (blocks : Nat) (lo hi : M128) (flags fe : Byte)
    (n block : Nat) (h : Vector M128 8) (bf : Byte) :
    Sse41.hash4_loop inputs blocks lo hi flags fe n block h bf =
      loopG (fun b => Sse41.transpose_msg_vecs inputs (b * 64))
        (fun h bf m => Sse41.hash4_block h lo hi (Sse41.set1 (BitVec.ofNat 32 64))
          (Sse41.set1 (bf.setWidth 32)) m) blocks flags fe n block h bf := by
  induction n generalizing block h bf with
  | zero => rfl
  | succ n ih =>
    rw [Sse41.hash4_loop, loopG]
    refine congrArg _ (funext fun m => ?_)
    exact ih _ _ _

theorem transpose4 (a b c d : M128) : Sse41.transpose_vecs #v[a, b, c, d] =
    #v[mm_setr_epi32 (lane 32 a 0) (lane 32 b 0) (lane 32 c 0) (lane 32 d 0),
       mm_setr_epi32 (lane 32 a 1) (lane 32 b 1) (lane 32 c 1) (lane 32 d 1),
       mm_setr_epi32 (lane 32 a 2) (lane 32 b 2) (lane 32 c 2) (lane 32 d 2),
       mm_setr_epi32 (lane 32 a 3) (lane 32 b 3) (lane 32 c 3) (lane 32 d 3)] := by
  have e : Sse41.transpose_vecs #v[a, b, c, d] =
    #v[mm_unpacklo_epi64 (mm_unpacklo_epi32 a b) (mm_unpacklo_epi32 c d),
       mm_unpackhi_epi64 (mm_unpacklo_epi32 a b) (mm_unpacklo_epi32 c d),
       mm_unpacklo_epi64 (mm_unpackhi_epi32 a b) (mm_unpackhi_epi32 c d),
       mm_unpackhi_epi64 (mm_unpackhi_epi32 a b) (mm_unpackhi_epi32 c d)] := rfl
  rw [e]
  simp only [mm_unpacklo_epi32, mm_unpackhi_epi32, pack_unpacklo64, pack_unpackhi64]

theorem loadu4 (p : Bytes) (off : Nat) (h : off + 16 ≤ p.length) :
    Sse41.loadu p off = .ok
      (mm_setr_epi32 (wordAt p off 0) (wordAt p off 1) (wordAt p off 2) (wordAt p off 3)) := by
  refine (loadBytes_ok 16 p off h).trans (congrArg Except.ok (ext4 ?_ ?_ ?_ ?_)) <;>
    exact lane32_fromLanes8 4 _ _ (by decide)

theorem wordAt_add (p : Bytes) (off k j : Nat) : wordAt p (off + k) j =
    leWord (p.getD (off + (k + 4 * j)) 0) (p.getD (off + (k + 4 * j + 1)) 0)
      (p.getD (off + (k + 4 * j + 2)) 0) (p.getD (off + (k + 4 * j + 3)) 0) := by
  simp only [wordAt, Nat.add_assoc]

theorem ofFn16 {α} (f : Fin 16 → α) : Vector.ofFn f =
    #v[f 0, f 1, f 2, f 3, f 4, f 5, f 6, f 7, f 8, f 9, f 10, f 11, f 12, f 13, f 14, f 15] := by
  apply Vector.ext; intro j hj
  rw [Vector.getElem_ofFn]
  rcases j with _|_|_|_|_|_|_|_|_|_|_|_|_|_|_|_|j
  all_goals first | rfl | omega

theorem append4444 {α} (a0 a1 a2 a3 a4 a5 a6 a7 a8 a9 a10 a11 a12 a13 a14 a15 : α) :
    (#v[a0, a1, a2, a3] ++ #v[a4, a5, a6, a7] ++ #v[a8, a9, a10, a11] ++ #v[a12, a13, a14, a15] : Vector α 16) =
    #v[a0, a1, a2, a3, a4, a5, a6, a7, a8, a9, a10, a11, a12, a13, a14, a15] := rfl

theorem sse41_msg (inputs : Vector Bytes 4) (off : Nat)
    (h : ∀ i (hi : i < 4), off + 64 ≤ inputs[i].length) :
    ∃ m, Sse41.transpose_msg_vecs inputs off = .ok m ∧ ∀ i (hi : i < 4),
      m.map (fun x => lane 32 x i) = Portable.words_from_block (Spec.pad (inputs[i].drop off)) := by
  have H : ∀ i (hi : i < 4) k, k < 4 → Sse41.loadu inputs[i] (off + k * 4 * 4) = .ok
      (mm_setr_epi32 (wordAt inputs[i] (off + k * 4 * 4) 0) (wordAt inputs[i] (off + k * 4 * 4) 1)
        (wordAt inputs[i] (off + k * 4 * 4) 2) (wordAt inputs[i] (off + k * 4 * 4) 3)) := by
    intro i hi k hk
    exact loadu4 inputs[i] (off + k * 4 * 4) (by have := h i hi; omega)
  refine ⟨_, by
    simp only [Sse41.transpose_msg_vecs, Sse41.DEGREE]
    rw [H 0 (by decide) 0 (by decide), bind_ok]
    rw [H 1 (by decide) 0 (by decide), bind_ok]
    rw [H 2 (by decide) 0 (by decide), bind_ok]
    rw [H 3 (by decide) 0 (by decide), bind_ok]
    rw [H 0 (by decide) 1 (by decide), bind_ok]
    rw [H 1 (by decide) 1 (by decide), bind_ok]
    rw [H 2 (by decide) 1 (by decide), bind_ok]
    rw [H 3 (by decide) 1 (by decide), bind_ok]
    rw [H 0 (by decide) 2 (by decide), bind_ok]
    rw [H 1 (by decide) 2 (by decide), bind_ok]
    rw [H 2 (by decide) 2 (by decide), bind_ok]
    rw [H 3 (by decide) 2 (by decide), bind_ok]
    rw [H 0 (by decide) 3 (by decide), bind_ok]
    rw [H 1 (by decide) 3 (by decide), bind_ok]
    rw [H 2 (by decide) 3 (by decide), bind_ok]
    rw [H 3 (by decide) 3 (by decide), bind_ok]
    rw [pure_eq]
    , ?_⟩
  simp only [transpose4, lane_setr0, lane_setr1, lane_setr2, lane_setr3, append4444, map16]
  intro i hi
  rw [words_pad, ofFn16]
  rcases i with _|_|_|_|i
  · simp only [lane_setr0]; rfl
  · simp only [Nat.reduceAdd, lane_setr1]; rfl
  · simp only [Nat.reduceAdd, lane_setr2]; rfl
  · simp only [Nat.reduceAdd, lane_setr3]; rfl
  · omega

theorem load_offsets4 (off d : U64) : Sse41.load_offsets off d =
    if off.toNat + 3 * d.toNat < 2 ^ 64 then
      .ok (mm_setr_epi32 (offset_low (offs off d 0)) (offset_low (offs off d 1)) (offset_low (offs off d 2))
            (offset_low (offs off d 3)),
           mm_setr_epi32 (offset_high (offs off d 0)) (offset_high (offs off d 1))
            (offset_high (offs off d 2)) (offset_high (offs off d 3)))
    else .error .overflow := by
  have e0 := offset_plus_eq off d 0 (by decide)
  have e1 := offset_plus_eq off d 1 (by decide)
  have e2 := offset_plus_eq off d 2 (by decide)
  have e3 := offset_plus_eq off d 3 (by decide)
  unfold Sse41.load_offsets
  rw [show (0 : U64) = BitVec.ofNat 64 0 from rfl, show (1 : U64) = BitVec.ofNat 64 1 from rfl,
    show (2 : U64) = BitVec.ofNat 64 2 from rfl, show (3 : U64) = BitVec.ofNat 64 3 from rfl,
    e0, e1, e2, e3]
  have hoff := off.isLt
  by_cases h3 : off.toNat + 3 * d.toNat < 2 ^ 64
  · rw [if_pos (by omega), if_pos (by omega), if_pos (by omega), if_pos h3, if_pos h3]
    rfl
  · rw [if_pos (by omega), if_neg h3, if_neg h3, bind_ok]
    by_cases h1 : off.toNat + 1 * d.toNat < 2 ^ 64
    · rw [if_pos h1, bind_ok]
      by_cases h2 : off.toNat + 2 * d.toNat < 2 ^ 64
      · rw [if_pos h2]; rfl
      · rw [if_neg h2]; rfl
    · rw [if_neg h1]; rfl

/-- the output of the lanes of a kernel, one after the other -/
def lanesOut (key : Vector Word 8) (off d : U64) (flags fs fe : Byte) : (i : Nat) → List Bytes → Bytes
  | _, [] => []
  | i, input :: inputs =>
    (Spec.cvBytes (cvLoop flags fe (offs off d i) key (flags ||| fs) input)).toList ++
      lanesOut key off d flags fs fe (i + 1) inputs

theorem map_set1 (key : Vector Word 8) (i : Nat) (hi : i < 4) :
    (#v[Sse41.set1 key[0], Sse41.set1 key[1], Sse41.set1 key[2], Sse41.set1 key[3],
       Sse41.set1 key[4], Sse41.set1 key[5], Sse41.set1 key[6], Sse41.set1 key[7]]).map
      (fun x => lane 32 x i) = key := by
  apply Vector.ext; intro j hj
  rw [Vector.getElem_map]
  rcases j with _|_|_|_|_|_|_|_|j
  all_goals first | omega | exact lane_set1 _ i hi

theorem cvBytes_toList (cv : Vector Word 8) : (Spec.cvBytes cv).toList =
    leBytes cv[0] ++ leBytes cv[1] ++ leBytes cv[2] ++ leBytes cv[3] ++
    leBytes cv[4] ++ leBytes cv[5] ++ leBytes cv[6] ++ leBytes cv[7] := by
  rw [← bytes_from_state_words_eq]; rfl

theorem hash4_step (i : Nat) (hi : i < 4) (lo hi' : M128) (o : U64) (hlo : lane 32 lo i = offset_low o)
    (hhi : lane 32 hi' i = offset_high o) (h : Vector M128 8) (bf : Byte) (m : Vector M128 16) :
    (Sse41.hash4_block h lo hi' (Sse41.set1 (BitVec.ofNat 32 64)) (Sse41.set1 (bf.setWidth 32)) m).map
      (fun x => lane 32 x i) =
      compressW (h.map (fun x => lane 32 x i)) (m.map (fun x => lane 32 x i)) (offset_low o)
        (offset_high o) (BitVec.setWidth 32 (64 : Byte)) (BitVec.setWidth 32 bf) := by
  have hs : ∀ x, lane 32 (Sse41.set1 x) i = x := fun x => lane_set1 x i hi
  rw [hash4_block_eq, Ops.block_lane sseOps _ (sseHom i hi) _ _ _ _ _ _ _ _ _ _ (hs _) (hs _) (hs _) (hs _),
    hlo, hhi, hs, hs]
  rfl

/-- the stores at the end of `hash4` -/
def hash4_store (h_vecs : Vector M128 8) (out : Bytes) : R Bytes := do
  let sq0 := Sse41.transpose_vecs #v[h_vecs[0], h_vecs[1], h_vecs[2], h_vecs[3]]
  let sq1 := Sse41.transpose_vecs #v[h_vecs[4], h_vecs[5], h_vecs[6], h_vecs[7]]
  let out ← writeAt out (0 * 4 * Sse41.DEGREE) (regBytes 16 sq0[0])
  let out ← writeAt out (1 * 4 * Sse41.DEGREE) (regBytes 16 sq1[0])
  let out ← writeAt out (2 * 4 * Sse41.DEGREE) (regBytes 16 sq0[1])
  let out ← writeAt out (3 * 4 * Sse41.DEGREE) (regBytes 16 sq1[1])
  let out ← writeAt out (4 * 4 * Sse41.DEGREE) (regBytes 16 sq0[2])
  let out ← writeAt out (5 * 4 * Sse41.DEGREE) (regBytes 16 sq1[2])
  let out ← writeAt out (6 * 4 * Sse41.DEGREE) (regBytes 16 sq0[3])
  let out ← writeAt out (7 * 4 * Sse41.DEGREE) (regBytes 16 sq1[3])
  return out

theorem write8 (out d0 d1 d2 d3 d4 d5 d6 d7 : Bytes) (k : Nat) (h0 : d0.length = k) (h1 : d1.length = k)
    (h2 : d2.length = k) (h3 : d3.length = k) (h4 : d4.length = k) (h5 : d5.length = k)
    (h6 : d6.length = k) (h7 : d7.length = k) (h : out.length = 8 * k) :
    (do
      let out ← writeAt out (0 * k) d0
      let out ← writeAt out (1 * k) d1
      let out ← writeAt out (2 * k) d2
      let out ← writeAt out (3 * k) d3
      let out ← writeAt out (4 * k) d4
      let out ← writeAt out (5 * k) d5
      let out ← writeAt out (6 * k) d6
      let out ← writeAt out (7 * k) d7
      return out : R Bytes) =
    .ok (d0 ++ d1 ++ d2 ++ d3 ++ d4 ++ d5 ++ d6 ++ d7) := by
  have e0 := writeAt_append [] out d0 (0 * k) (by simp) (by omega)
  rw [List.nil_append, List.nil_append] at e0
  rw [e0, bind_ok, writeAt_append _ _ d1 (1 * k) (by simp; omega) (by simp; omega), bind_ok,
    writeAt_append _ _ d2 (2 * k) (by simp; omega) (by simp; omega), bind_ok,
    writeAt_append _ _ d3 (3 * k) (by simp; omega) (by simp; omega), bind_ok,
    writeAt_append _ _ d4 (4 * k) (by simp; omega) (by simp; omega), bind_ok,
    writeAt_append _ _ d5 (5 * k) (by simp; omega) (by simp; omega), bind_ok,
    writeAt_append _ _ d6 (6 * k) (by simp; omega) (by simp; omega), bind_ok,
    writeAt_append _ _ d7 (7 * k) (by simp; omega) (by simp; omega)]
  refine congrArg Except.ok ?_
  rw [List.drop_of_length_le (by simp; omega), List.append_nil]

theorem hash4_store_eq (h : Vector M128 8) (out : Bytes) (hout : out.length = 128) :
    hash4_store h out = .ok (
      (Spec.cvBytes (h.map fun x => lane 32 x 0)).toList ++
      ((Spec.cvBytes (h.map fun x => lane 32 x 1)).toList ++
      ((Spec.cvBytes (h.map fun x => lane 32 x 2)).toList ++
      ((Spec.cvBytes (h.map fun x => lane 32 x 3)).toList ++ [])))) := by
  unfold hash4_store
  refine (write8 out _ _ _ _ _ _ _ _ 16 (length_regBytes _ _) (length_regBytes _ _) (length_regBytes _ _)
    (length_regBytes _ _) (length_regBytes _ _) (length_regBytes _ _) (length_regBytes _ _)
    (length_regBytes _ _) hout).trans (congrArg Except.ok ?_)
  rw [transpose4, transpose4]
  simp only [cvBytes_toList, Vector.getElem_map]
  have g : ∀ (a b c d : M128),
    (#v[a, b, c, d][0]) = a ∧ (#v[a, b, c, d][1]) = b ∧ (#v[a, b, c, d][2]) = c ∧ (#v[a, b, c, d][3]) = d :=
    fun a b c d => ⟨rfl, rfl, rfl, rfl⟩
  simp only [g, regBytes_pack, List.append_assoc, List.append_nil]

theorem hash4_eq (inputs : Vector Bytes 4) (blocks : Nat) (key : Vector Word 8) (off d : U64)
    (flags fs fe : Byte) (out : Bytes) (hlen : ∀ i (hi : i < 4), inputs[i].length = 64 * blocks)
    (hout : out.length = 128) :
    Sse41.hash4 inputs blocks key off d flags fs fe out =
      if off.toNat + 3 * d.toNat < 2 ^ 64 then
        .ok (lanesOut key off d flags fs fe 0 inputs.toList)
      else .error .overflow := by
  unfold Sse41.hash4
  rw [load_offsets4]
  split
  next hlt =>
    obtain ⟨h', e, hh⟩ := loopG_lane (I := Fin 4) (fun i x => lane 32 x i.val) (fun i => inputs[i])
      (fun i => offs off d i) (fun b => Sse41.transpose_msg_vecs inputs (b * 64))
      (fun h bf m => Sse41.hash4_block h
        (mm_setr_epi32 (offset_low (offs off d 0)) (offset_low (offs off d 1)) (offset_low (offs off d 2))
            (offset_low (offs off d 3)))
        (mm_setr_epi32 (offset_high (offs off d 0)) (offset_high (offs off d 1))
            (offset_high (offs off d 2)) (offset_high (offs off d 3)))
        (Sse41.set1 (BitVec.ofNat 32 64)) (Sse41.set1 (bf.setWidth 32)) m)
      blocks flags fe (fun i => hlen i i.isLt)
      (by
        intro b hb
        obtain ⟨m, e, hm⟩ := sse41_msg inputs (b * 64) (by intro i hi; rw [hlen i hi]; omega)
        exact ⟨m, e, fun i => by rw [Nat.mul_comm 64 b]; exact hm i i.isLt⟩)
      (by
        intro i h bf m
        match i with
        | 0 => exact hash4_step 0 (by decide) _ _ _ (lane_setr0 _ _ _ _) (lane_setr0 _ _ _ _) h bf m
        | 1 => exact hash4_step 1 (by decide) _ _ _ (lane_setr1 _ _ _ _) (lane_setr1 _ _ _ _) h bf m
        | 2 => exact hash4_step 2 (by decide) _ _ _ (lane_setr2 _ _ _ _) (lane_setr2 _ _ _ _) h bf m
        | 3 => exact hash4_step 3 (by decide) _ _ _ (lane_setr3 _ _ _ _) (lane_setr3 _ _ _ _) h bf m)
      blocks 0 (by omega)
      #v[Sse41.set1 key[0], Sse41.set1 key[1], Sse41.set1 key[2], Sse41.set1 key[3],
       Sse41.set1 key[4], Sse41.set1 key[5], Sse41.set1 key[6], Sse41.set1 key[7]] (flags ||| fs)
    rw [bind_ok]
    simp only [hash4_loop_eq]
    rw [e, bind_ok]
    refine (hash4_store_eq h' out hout).trans (congrArg Except.ok ?_)
    have hh' : ∀ i (hi : i < 4), h'.map (fun x => lane 32 x i) =
        cvLoop flags fe (offs off d i) key (flags ||| fs) inputs[i] := by
      intro i hi
      have := hh ⟨i, hi⟩
      rw [map_set1 key i hi, Nat.mul_zero, List.drop_zero] at this
      exact this
    rw [hh' 0 (by decide), hh' 1 (by decide), hh' 2 (by decide), hh' 3 (by decide)]
    have e4 : inputs.toList = [inputs[0], inputs[1], inputs[2], inputs[3]] := by
      apply List.ext_getElem
      · simp
      · intro n h1 h2
        rcases n with _|_|_|_|n
        all_goals first | rfl | (simp at h2; omega)
    rw [e4]
    rfl
  next h => rfl

end Baokeshed.Proofs
