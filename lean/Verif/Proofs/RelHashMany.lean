import Verif.Model.Release
import Verif.Proofs.HashMany8
import Verif.Proofs.Lib

/-! # `hash_many` without overflow checks -/

set_option linter.unusedVariables false
set_option linter.unusedSimpArgs false

namespace Baokeshed.Proofs
open Baokeshed.Model

theorem offs_wrap (off d : U64) (i j : Nat) : offs (offs off d i) d j = offs off d (i + j) := by
  apply BitVec.eq_of_toNat_eq
  simp only [offs, BitVec.toNat_ofNat, Nat.mod_add_mod]
  rw [Nat.add_mul, Nat.add_assoc]

theorem add_mul_offs (off d : U64) (i : Nat) : off + BitVec.ofNat 64 i * d = offs off d i := by
  apply BitVec.eq_of_toNat_eq
  simp only [offs, BitVec.toNat_add, BitVec.toNat_mul, BitVec.toNat_ofNat, Nat.mod_mul_mod, Nat.add_mod_mod]

theorem add_offs (off d : U64) : off + d = offs off d 1 := by
  apply BitVec.eq_of_toNat_eq
  simp only [offs, BitVec.toNat_add, BitVec.toNat_ofNat, Nat.one_mul]

theorem lanesOut_shift (key : Vector Word 8) (off d : U64) (flags fs fe : Byte) (i j : Nat) (xs : List Bytes) :
    lanesOut key off d flags fs fe (i + j) xs = lanesOut key (offs off d i) d flags fs fe j xs := by
  induction xs generalizing j with
  | nil => rfl
  | cons x xs ih => rw [lanesOut, lanesOut, offs_wrap, ← ih (j + 1)]; rfl

theorem lanesOut_append (key : Vector Word 8) (off d : U64) (flags fs fe : Byte) (i : Nat) (xs ys : List Bytes) :
    lanesOut key off d flags fs fe i (xs ++ ys) =
      lanesOut key off d flags fs fe i xs ++ lanesOut key off d flags fs fe (i + xs.length) ys := by
  induction xs generalizing i with
  | nil => rfl
  | cons x xs ih =>
    rw [List.cons_append, lanesOut, ih, lanesOut, List.append_assoc, List.length_cons,
      show i + 1 + xs.length = i + (xs.length + 1) by omega]

theorem length_lanesOut' (key : Vector Word 8) (off d : U64) (flags fs fe : Byte) (i : Nat) (xs : List Bytes) :
    (lanesOut key off d flags fs fe i xs).length = 32 * xs.length := by
  induction xs generalizing i with
  | nil => rfl
  | cons x xs ih => rw [lanesOut, List.length_append, ih, List.length_cons, Vector.length_toList]; omega

/-- what `hash_many` writes: the lanes for which there is room, and the old contents behind them -/
def manyBuf (key : Vector Word 8) (off d : U64) (flags fs fe : Byte) (xs : List Bytes) (out : Bytes) : Bytes :=
  lanesOut key off d flags fs fe 0 (xs.take (out.length / 32)) ++ out.drop (32 * min xs.length (out.length / 32))

theorem manyBuf_append (key : Vector Word 8) (off d : U64) (flags fs fe : Byte) (xs ys : List Bytes) (out : Bytes)
    (h : 32 * xs.length ≤ out.length) :
    manyBuf key off d flags fs fe (xs ++ ys) out =
      lanesOut key off d flags fs fe 0 xs ++ manyBuf key (offs off d xs.length) d flags fs fe ys (out.drop (32 * xs.length)) := by
  unfold manyBuf
  have h1 : (out.drop (32 * xs.length)).length / 32 = out.length / 32 - xs.length := by
    rw [List.length_drop]; omega
  rw [h1, List.take_append, List.take_of_length_le (by omega), lanesOut_append, List.append_assoc,
    ← lanesOut_shift _ _ _ _ _ _ xs.length 0, List.drop_drop, List.length_append]
  rw [show 0 + xs.length = xs.length + 0 by omega,
    show 32 * min (xs.length + ys.length) (out.length / 32) = 32 * xs.length + 32 * min ys.length (out.length / 32 - xs.length) by omega]

theorem manyBuf_nil (key : Vector Word 8) (off d : U64) (flags fs fe : Byte) (out : Bytes) :
    manyBuf key off d flags fs fe [] out = out := by
  simp [manyBuf, lanesOut]

theorem manyBuf_short (key : Vector Word 8) (off d : U64) (flags fs fe : Byte) (xs : List Bytes) (out : Bytes)
    (h : out.length < 32) : manyBuf key off d flags fs fe xs out = out := by
  simp [manyBuf, lanesOut, Nat.div_eq_of_lt h]

theorem length_manyBuf (key : Vector Word 8) (off d : U64) (flags fs fe : Byte) (xs : List Bytes) (out : Bytes) :
    (manyBuf key off d flags fs fe xs out).length = out.length := by
  rw [manyBuf, List.length_append, length_lanesOut', List.length_take, List.length_drop]
  omega

/-! ## portable -/

theorem rel_hash1_eq (input : Bytes) (key : Vector Word 8) (off : U64) (flags fs fe : Byte) :
    Rel.Portable.hash1 input key off flags fs fe =
      .ok (Spec.cvBytes (cvLoop flags fe off key (flags ||| fs) input)) := by
  simp only [Rel.Portable.hash1, hash1_loop_eq, bind_ok, pure_eq, bytes_from_state_words_eq]

theorem rel_sse41_hash1_eq (input : Bytes) (key : Vector Word 8) (off : U64) (flags fs fe : Byte) :
    Rel.Sse41.hash1 input key off flags fs fe =
      .ok (Spec.cvBytes (cvLoop flags fe off key (flags ||| fs) input)) := by
  simp only [Rel.Sse41.hash1, sse41_hash1_loop_eq, bind_ok, pure_eq, memOfWords_eq, bytes_from_state_words_eq]

theorem rel_portable_loop (key : Vector Word 8) (d : U64) (flags fs fe : Byte) (xs : List Bytes) (off : U64) (out : Bytes) :
    Rel.Portable.hash_many_loop key d flags fs fe xs off out = .ok (manyBuf key off d flags fs fe xs out) := by
  induction xs generalizing off out with
  | nil => rw [manyBuf_nil]; rfl
  | cons x xs ih =>
    rw [Rel.Portable.hash_many_loop]
    split
    next h => rw [manyBuf_short _ _ _ _ _ _ _ _ h]
    next h =>
      simp only [OUT_LEN] at h ⊢
      rw [rel_hash1_eq, bind_ok, ih, bind_ok, show x :: xs = [x] ++ xs from rfl,
        manyBuf_append _ _ _ _ _ _ _ _ _ (by simp only [List.length_singleton]; omega), add_offs, lanesOut, offs_zero, lanesOut,
        List.append_nil]
      rfl

/-! ## SSE4.1 -/

theorem rel_tail (key : Vector Word 8) (d : U64) (flags fs fe : Byte) (xs : List Bytes) (off : U64) (out : Bytes) :
    Rel.Sse41.hash_many_tail key d flags fs fe xs off out = .ok (manyBuf key off d flags fs fe xs out) := by
  induction xs generalizing off out with
  | nil => rw [manyBuf_nil]; rfl
  | cons x xs ih =>
    rw [Rel.Sse41.hash_many_tail]
    split
    next h => rw [manyBuf_short _ _ _ _ _ _ _ _ h]
    next h =>
      simp only [OUT_LEN] at h ⊢
      rw [rel_sse41_hash1_eq, bind_ok, ih, bind_ok, show x :: xs = [x] ++ xs from rfl,
        manyBuf_append _ _ _ _ _ _ _ _ _ (by simp only [List.length_singleton]; omega), add_offs, lanesOut, offs_zero, lanesOut,
        List.append_nil]
      rfl

theorem rel_load_offsets4 (off d : U64) : Rel.Sse41.load_offsets off d =
    (mm_setr_epi32 (offset_low (offs off d 0)) (offset_low (offs off d 1)) (offset_low (offs off d 2))
        (offset_low (offs off d 3)),
     mm_setr_epi32 (offset_high (offs off d 0)) (offset_high (offs off d 1))
        (offset_high (offs off d 2)) (offset_high (offs off d 3))) := by
  simp only [← add_mul_offs]; rfl

theorem rel_hash4_eq (inputs : Vector Bytes 4) (blocks : Nat) (key : Vector Word 8) (off d : U64)
    (flags fs fe : Byte) (out : Bytes) (hlen : ∀ i (hi : i < 4), inputs[i].length = 64 * blocks)
    (hout : out.length = 128) :
    Rel.Sse41.hash4 inputs blocks key off d flags fs fe out =
      .ok (lanesOut key off d flags fs fe 0 inputs.toList) := by
  unfold Rel.Sse41.hash4
  rw [rel_load_offsets4]
  obtain ⟨h', e, hh⟩ := loopG_lane (I := Fin 4) (fun i x => lane 32 x i.val) (fun i => inputs[i])
    (fun i => offs off d i) (fun b => Sse41.transpose_msg_vecs inputs (b * 64))
    (fun h bf m => Sse41.hash4_block h
      (mm_setr_epi32 (offset_low (offs off d 0)) (offset_low (offs off d 1)) (offset_low (offs off d 2))
          (offset_low (offs off d 3)))
      (mm_setr_epi32 (offset_high (offs off d 0)) (offset_high (offs off d 1))
          (offset_high (offs off d 2)) (offset_high (offs off d 3)))
      (Sse41.set1 (BitVec.ofNat 32 64)) (Sse41.set1 (bf.setWidth 32)) m)
    blocks flags fe (fun i => hlen i i.isLt)
    (by
      intro b hb
      obtain ⟨m, e, hm⟩ := sse41_msg inputs (b * 64) (by intro i hi; rw [hlen i hi]; omega)
      exact ⟨m, e, fun i => by rw [Nat.mul_comm 64 b]; exact hm i i.isLt⟩)
    (by
      intro i h bf m
      match i with
      | 0 => exact hash4_step 0 (by decide) _ _ _ (lane_setr0 _ _ _ _) (lane_setr0 _ _ _ _) h bf m
      | 1 => exact hash4_step 1 (by decide) _ _ _ (lane_setr1 _ _ _ _) (lane_setr1 _ _ _ _) h bf m
      | 2 => exact hash4_step 2 (by decide) _ _ _ (lane_setr2 _ _ _ _) (lane_setr2 _ _ _ _) h bf m
      | 3 => exact hash4_step 3 (by decide) _ _ _ (lane_setr3 _ _ _ _) (lane_setr3 _ _ _ _) h bf m)
    blocks 0 (by omega)
    #v[Sse41.set1 key[0], Sse41.set1 key[1], Sse41.set1 key[2], Sse41.set1 key[3],
     Sse41.set1 key[4], Sse41.set1 key[5], Sse41.set1 key[6], Sse41.set1 key[7]] (flags ||| fs)
  simp only [hash4_loop_eq]
  rw [e, bind_ok]
  refine (hash4_store_eq h' out hout).trans (congrArg Except.ok ?_)
  have hh' : ∀ i (hi : i < 4), h'.map (fun x => lane 32 x i) =
      cvLoop flags fe (offs off d i) key (flags ||| fs) inputs[i] := by
    intro i hi
    have := hh ⟨i, hi⟩
    rw [map_set1 key i hi, Nat.mul_zero, List.drop_zero] at this
    exact this
  rw [hh' 0 (by decide), hh' 1 (by decide), hh' 2 (by decide), hh' 3 (by decide)]
  have e4 : inputs.toList = [inputs[0], inputs[1], inputs[2], inputs[3]] := by
    apply List.ext_getElem
    · simp
    · intro n h1 h2
      rcases n with _|_|_|_|n
      all_goals first | rfl | (simp at h2; omega)
  rw [e4]
  rfl

theorem rel_sse41_loop (cap : Nat) (hcap : cap % 64 = 0) (key : Vector Word 8) (d : U64) (flags fs fe : Byte)
    (xs : List Bytes) (off : U64) (out : Bytes) (hx : ∀ x ∈ xs, x.length = cap) :
    Rel.Sse41.hash_many_loop cap key d flags fs fe xs off out = .ok (manyBuf key off d flags fs fe xs out) := by
  induction hn : xs.length using Nat.strongRecOn generalizing xs off out with
  | ind n ih =>
  rw [Rel.Sse41.hash_many_loop]
  split
  next h =>
    obtain ⟨h4, h5⟩ := h
    simp only [Sse41.DEGREE, OUT_LEN] at h4 h5
    obtain ⟨v, ev, tv⟩ := arrayRef_take xs 4 h4
    rw [ev, bind_ok]
    have hv : ∀ i (hi : i < 4), v[i].length = 64 * (cap / 64) := by
      intro i hi
      have : v[i] ∈ xs := List.mem_of_mem_take (by rw [← tv]; exact Vector.mem_toList_iff.2 (Vector.getElem_mem hi))
      rw [hx _ this]; omega
    have e := rel_hash4_eq v (cap / 64) key off d flags fs fe (out.take 128) hv (by simp; omega)
    simp only [Sse41.DEGREE, OUT_LEN, BLOCK_LEN] at e ⊢
    rw [e, bind_ok, tv]
    conv => rhs; rw [← List.take_append_drop 4 xs]
    have l4 : (xs.take 4).length = 4 := by simp; omega
    rw [manyBuf_append _ _ _ _ _ _ _ _ _ (by omega), l4, add_mul_offs,
      ih (xs.drop 4).length (by simp; omega) _ _ _ (fun x hx' => hx x (List.mem_of_mem_drop hx')) rfl]
    rfl
  next h => exact rel_tail ..

/-! ## AVX2 -/

theorem rel_load_offsets8 (off d : U64) : Rel.Avx2.load_offsets off d =
    (pack8 (offset_low (offs off d 0)) (offset_low (offs off d 1)) (offset_low (offs off d 2)) (offset_low (offs off d 3)) (offset_low (offs off d 4)) (offset_low (offs off d 5)) (offset_low (offs off d 6)) (offset_low (offs off d 7)),
     pack8 (offset_high (offs off d 0)) (offset_high (offs off d 1)) (offset_high (offs off d 2)) (offset_high (offs off d 3)) (offset_high (offs off d 4)) (offset_high (offs off d 5)) (offset_high (offs off d 6)) (offset_high (offs off d 7))) := by
  simp only [← add_mul_offs, ← set8_eq]; rfl

theorem rel_hash8_eq (inputs : Vector Bytes 8) (blocks : Nat) (key : Vector Word 8) (off d : U64)
    (flags fs fe : Byte) (out : Bytes) (hlen : ∀ i (hi : i < 8), inputs[i].length = 64 * blocks)
    (hout : out.length = 256) :
    Rel.Avx2.hash8 inputs blocks key off d flags fs fe out =
      .ok (lanesOut key off d flags fs fe 0 inputs.toList) := by
  unfold Rel.Avx2.hash8
  rw [rel_load_offsets8]
  obtain ⟨h', e, hh⟩ := loopG_lane (I := Fin 8) (fun i x => lane 32 x i.val) (fun i => inputs[i])
    (fun i => offs off d i) (fun b => Avx2.transpose_msg_vecs inputs (b * 64))
    (fun h bf m => Avx2.hash8_block h
      (pack8 (offset_low (offs off d 0)) (offset_low (offs off d 1)) (offset_low (offs off d 2)) (offset_low (offs off d 3)) (offset_low (offs off d 4)) (offset_low (offs off d 5)) (offset_low (offs off d 6)) (offset_low (offs off d 7)))
      (pack8 (offset_high (offs off d 0)) (offset_high (offs off d 1)) (offset_high (offs off d 2)) (offset_high (offs off d 3)) (offset_high (offs off d 4)) (offset_high (offs off d 5)) (offset_high (offs off d 6)) (offset_high (offs off d 7)))
      (Avx2.set1 (BitVec.ofNat 32 64)) (Avx2.set1 (bf.setWidth 32)) m)
    blocks flags fe (fun i => hlen i i.isLt)
    (by
      intro b hb
      obtain ⟨m, e, hm⟩ := avx2_msg inputs (b * 64) (by intro i hi; rw [hlen i hi]; omega)
      exact ⟨m, e, fun i => by rw [Nat.mul_comm 64 b]; exact hm i i.isLt⟩)
    (by
      intro i h bf m
      match i with
      | 0 => exact hash8_step 0 (by decide) _ _ _ (p8_0 ..) (p8_0 ..) h bf m
      | 1 => exact hash8_step 1 (by decide) _ _ _ (p8_1 ..) (p8_1 ..) h bf m
      | 2 => exact hash8_step 2 (by decide) _ _ _ (p8_2 ..) (p8_2 ..) h bf m
      | 3 => exact hash8_step 3 (by decide) _ _ _ (p8_3 ..) (p8_3 ..) h bf m
      | 4 => exact hash8_step 4 (by decide) _ _ _ (p8_4 ..) (p8_4 ..) h bf m
      | 5 => exact hash8_step 5 (by decide) _ _ _ (p8_5 ..) (p8_5 ..) h bf m
      | 6 => exact hash8_step 6 (by decide) _ _ _ (p8_6 ..) (p8_6 ..) h bf m
      | 7 => exact hash8_step 7 (by decide) _ _ _ (p8_7 ..) (p8_7 ..) h bf m)
    blocks 0 (by omega)
    #v[Avx2.set1 key[0], Avx2.set1 key[1], Avx2.set1 key[2], Avx2.set1 key[3], Avx2.set1 key[4], Avx2.set1 key[5], Avx2.set1 key[6], Avx2.set1 key[7]] (flags ||| fs)
  simp only [hash8_loop_eq]
  rw [e, bind_ok]
  refine (hash8_store_eq h' out hout).trans (congrArg Except.ok ?_)
  have hh' : ∀ i (hi : i < 8), h'.map (fun x => lane 32 x i) =
      cvLoop flags fe (offs off d i) key (flags ||| fs) inputs[i] := by
    intro i hi
    have := hh ⟨i, hi⟩
    rw [map_set1_8 key i hi, Nat.mul_zero, List.drop_zero] at this
    exact this
  rw [hh' 0 (by decide), hh' 1 (by decide), hh' 2 (by decide), hh' 3 (by decide), hh' 4 (by decide), hh' 5 (by decide), hh' 6 (by decide), hh' 7 (by decide)]
  have e8 : inputs.toList = [inputs[0], inputs[1], inputs[2], inputs[3], inputs[4], inputs[5], inputs[6], inputs[7]] := by
    apply List.ext_getElem
    · simp
    · intro n h1 h2
      rcases n with _|_|_|_|_|_|_|_|n
      all_goals first | rfl | (simp at h2; omega)
  rw [e8]
  rfl

theorem rel_avx2_loop (cap : Nat) (hcap : cap % 64 = 0) (key : Vector Word 8) (d : U64) (flags fs fe : Byte)
    (xs : List Bytes) (off : U64) (out : Bytes) (hx : ∀ x ∈ xs, x.length = cap) :
    Rel.Avx2.hash_many_loop cap key d flags fs fe xs off out = .ok (manyBuf key off d flags fs fe xs out) := by
  induction hn : xs.length using Nat.strongRecOn generalizing xs off out with
  | ind n ih =>
  rw [Rel.Avx2.hash_many_loop]
  split
  next h =>
    obtain ⟨h4, h5⟩ := h
    simp only [Avx2.DEGREE, OUT_LEN] at h4 h5
    obtain ⟨v, ev, tv⟩ := arrayRef_take xs 8 h4
    rw [ev, bind_ok]
    have hv : ∀ i (hi : i < 8), v[i].length = 64 * (cap / 64) := by
      intro i hi
      have : v[i] ∈ xs := List.mem_of_mem_take (by rw [← tv]; exact Vector.mem_toList_iff.2 (Vector.getElem_mem hi))
      rw [hx _ this]; omega
    have e := rel_hash8_eq v (cap / 64) key off d flags fs fe (out.take 256) hv (by simp; omega)
    simp only [Avx2.DEGREE, OUT_LEN, BLOCK_LEN] at e ⊢
    rw [e, bind_ok, tv]
    conv => rhs; rw [← List.take_append_drop 8 xs]
    have l8 : (xs.take 8).length = 8 := by simp; omega
    rw [manyBuf_append _ _ _ _ _ _ _ _ _ (by omega), l8, add_mul_offs,
      ih (xs.drop 8).length (by simp; omega) _ _ _ (fun x hx' => hx x (List.mem_of_mem_drop hx')) rfl]
    rfl
  next h => exact rel_sse41_loop cap hcap key d flags fs fe xs off out hx

theorem rel_hash_many (p : Platform) (cap : Nat) (hcap : cap % 64 = 0) (xs : List Bytes) (key : Vector Word 8)
    (off d : U64) (flags fs fe : Byte) (out : Bytes) (hx : ∀ x ∈ xs, x.length = cap) :
    Rel.hash_many p cap xs key off d flags fs fe out = .ok (manyBuf key off d flags fs fe xs out) := by
  cases p
  · exact rel_portable_loop ..
  · exact rel_sse41_loop cap hcap key d flags fs fe xs off out hx
  · exact rel_avx2_loop cap hcap key d flags fs fe xs off out hx

end Baokeshed.Proofs
