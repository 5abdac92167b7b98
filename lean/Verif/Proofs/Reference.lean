import Verif.Proofs.Hasher
import Verif.Model.Reference

/-! # reference_impl.rs computes the specified function -/

set_option linter.unusedVariables false
set_option linter.unusedSimpArgs false

namespace Baokeshed.Proofs
open Baokeshed.Model

/-! ## Words -/

/-- the sixteen words of a block -/
def blockWords (b : Vector Byte 64) : Vector Word 16 := Vector.ofFn (Spec.blockWord b)

theorem word_of_bytes (w : Word) :
    w.extractLsb' 24 8 ++ w.extractLsb' 16 8 ++ w.extractLsb' 8 8 ++ w.extractLsb' 0 8 = w := by
  apply BitVec.eq_of_getLsbD_eq
  intro i hi
  simp only [BitVec.getLsbD_append, BitVec.getLsbD_extractLsb']
  rcases Nat.lt_or_ge i 8 with h | h
  · simp [h]
  · rcases Nat.lt_or_ge (i - 8) 8 with h1 | h1
    · simp [h1, show ¬ i < 8 by omega]; rw [show 8 + (i - 8) = i by omega]
    · rcases Nat.lt_or_ge (i - 8 - 8) 8 with h2 | h2
      · simp [show ¬ i < 8 by omega, show ¬ (i - 8 < 8) by omega, h2]; rw [show 16 + (i - 8 - 8) = i by omega]
      · simp [show ¬ i < 8 by omega, show ¬ (i - 8 < 8) by omega, show ¬ (i - 8 - 8 < 8) by omega, show i - 8 - 8 - 8 < 8 by omega]
        rw [show 24 + (i - 8 - 8 - 8) = i by omega]

theorem wordBytes_getElem (ws : List Word) (i k : Nat) (hk : k < 4) (hi : i < ws.length) (h : 4 * i + k < (Spec.wordBytes ws).length) :
    (Spec.wordBytes ws)[4 * i + k] = ws[i].extractLsb' (8 * k) 8 := by
  induction ws generalizing i with
  | nil => simp at hi
  | cons w ws ih =>
    have e : Spec.wordBytes (w :: ws) = [w.extractLsb' 0 8, w.extractLsb' 8 8, w.extractLsb' 16 8, w.extractLsb' 24 8] ++
      Spec.wordBytes ws := by simp [Spec.wordBytes]
    simp only [e]
    cases i with
    | zero =>
      rw [List.getElem_append_left (by simp; omega)]
      rcases k with _ | _ | _ | _ | k <;> first | rfl | omega
    | succ i =>
      rw [List.getElem_append_right (by simp; omega)]
      have := ih i (by simpa using hi) (by rw [Spec.length_wordBytes]; simp at hi; omega)
      simp only [List.length_cons, List.length_nil, show 4 * (i + 1) + k - (0 + 1 + 1 + 1 + 1) = 4 * i + k by omega, this,
        List.getElem_cons_succ]

theorem cvBytes_getElem (v : Vector Word 8) (i k : Nat) (hk : k < 4) (hi : i < 8) :
    (Spec.cvBytes v)[4 * i + k] = v[i].extractLsb' (8 * k) 8 := by
  have := wordBytes_getElem v.toList i k hk (by simpa using hi) (by rw [Spec.length_wordBytes, Vector.length_toList]; omega)
  rw [Vector.getElem_toList] at this
  exact this

theorem blockWords_parent (l r : Vector Word 8) : blockWords (Spec.cvBytes l ++ Spec.cvBytes r) = l ++ r := by
  apply Vector.ext
  intro i hi
  rw [blockWords, Vector.getElem_ofFn, Spec.blockWord]
  by_cases h : i < 8
  · rw [Vector.getElem_append_left h, Vector.getElem_append_left (by dsimp only; omega),
      Vector.getElem_append_left (by dsimp only; omega), Vector.getElem_append_left (by dsimp only; omega),
      Vector.getElem_append_left (by dsimp only; omega), cvBytes_getElem l i 3 (by decide) h,
      cvBytes_getElem l i 2 (by decide) h, cvBytes_getElem l i 1 (by decide) h]
    have := cvBytes_getElem l i 0 (by decide) h
    simp only [Nat.add_zero] at this
    rw [this]
    exact word_of_bytes _
  · have hi' : i - 8 < 8 := by omega
    have h0 := cvBytes_getElem r (i - 8) 0 (by decide) hi'
    have h1 := cvBytes_getElem r (i - 8) 1 (by decide) hi'
    have h2 := cvBytes_getElem r (i - 8) 2 (by decide) hi'
    have h3 := cvBytes_getElem r (i - 8) 3 (by decide) hi'
    dsimp only
    rw [Vector.getElem_append_right (by omega) (by omega), Vector.getElem_append_right (by omega) (by omega),
      Vector.getElem_append_right (by omega) (by omega), Vector.getElem_append_right (by omega) (by omega),
      Vector.getElem_append_right (by omega) (by omega)]
    simp only [show 4 * i + 3 - 32 = 4 * (i - 8) + 3 by omega, show 4 * i + 2 - 32 = 4 * (i - 8) + 2 by omega,
      show 4 * i + 1 - 32 = 4 * (i - 8) + 1 by omega, show 4 * i - 32 = 4 * (i - 8) + 0 by omega, h0, h1, h2, h3]
    exact word_of_bytes _

theorem words_from_getElem (bytes : Bytes) (words : List Word) (i : Nat) (h : 4 * i + 3 < bytes.length)
    (hi : i < (Ref.words_from_litte_endian_bytes bytes words).length) :
    (Ref.words_from_litte_endian_bytes bytes words)[i] =
      leWord bytes[4 * i] bytes[4 * i + 1] bytes[4 * i + 2] bytes[4 * i + 3] := by
  induction bytes, words using Ref.words_from_litte_endian_bytes.induct generalizing i with
  | case1 b0 b1 b2 b3 bytes w words ih =>
    simp only [Ref.words_from_litte_endian_bytes] at hi ⊢
    cases i with
    | zero => rfl
    | succ i =>
      have := ih i (by simp only [List.length_cons] at h; omega) (by simpa using hi)
      rw [List.getElem_cons_succ, this]
      simp only [show 4 * (i + 1) = 4 * i + 1 + 1 + 1 + 1 by omega, List.getElem_cons_succ,
        show 4 * i + 1 + 1 + 1 + 1 + 1 = 4 * i + 1 + 1 + 1 + 1 + 1 by omega]
  | case2 bytes words hno =>
    exfalso
    match bytes, words, h, hno, hi with
    | b0 :: b1 :: b2 :: b3 :: bytes, w :: words, _, hno, _ => exact hno _ _ _ _ _ _ _ rfl rfl
    | b0 :: b1 :: b2 :: b3 :: bytes, [], _, hno, hi =>
      rw [Ref.length_words_from] at hi; simp at hi
    | [], _, h, _, _ => simp at h
    | [_], _, h, _, _ => simp at h
    | [_, _], _, h, _, _ => simp only [List.length_cons, List.length_nil] at h; omega
    | [_, _, _], _, h, _, _ => simp only [List.length_cons, List.length_nil] at h; omega

theorem wordsArray_block (b : Vector Byte 64) : Ref.wordsArray 16 b.toList = blockWords b := by
  apply Vector.ext
  intro i hi
  rw [blockWords, Vector.getElem_ofFn]
  have := words_from_getElem b.toList (List.replicate 16 0) i (by rw [Vector.length_toList]; omega)
    (by rw [Ref.length_words_from]; simpa using hi)
  simp only [Vector.getElem_toList] at this
  exact this

theorem wordsArray_key (k : Vector Byte 32) : Ref.wordsArray 8 k.toList = Vector.ofFn fun i : Fin 8 =>
      k[4 * i.val + 3] ++ k[4 * i.val + 2] ++ k[4 * i.val + 1] ++ k[4 * i.val] := by
  apply Vector.ext
  intro i hi
  rw [Vector.getElem_ofFn]
  have := words_from_getElem k.toList (List.replicate 8 0) i (by rw [Vector.length_toList]; omega)
    (by rw [Ref.length_words_from]; simpa using hi)
  simp only [Vector.getElem_toList] at this
  exact this

/-! ## Compression -/

theorem ref_schedule_eq (r : Fin 7) : Ref.MSG_SCHEDULE[r] = Spec.sigma r := by
  revert r; decide

theorem ref_g_eq : Ref.g = Portable.g := rfl

theorem ref_round_roundP (v m : Vector Word 16) (p : Vector (Fin 16) 16) : Ref.round v m p = roundP v m p := by
  rw [Ref.round, roundP]
  simp only [ref_g_eq]

theorem ref_round_eq (v m : Vector Word 16) (p : Vector (Fin 16) 16) :
    toMatrix (Ref.round v m p) = Spec.round p (fun i => m[i]) (toMatrix v) := by
  rw [← roundP_eq, ref_round_roundP]

theorem feed_0 (a0 a1 a2 a3 a4 a5 a6 a7 a8 a9 a10 a11 a12 a13 a14 a15 c0 c1 c2 c3 c4 c5 c6 c7 : Word) :
    Ref.feed #v[c0, c1, c2, c3, c4, c5, c6, c7] #v[a0, a1, a2, a3, a4, a5, a6, a7, a8, a9, a10, a11, a12, a13, a14, a15] 0 =
      #v[a0 ^^^ a8, a1, a2, a3, a4, a5, a6, a7, a8 ^^^ c0, a9, a10, a11, a12, a13, a14, a15] := rfl

theorem feed_1 (a0 a1 a2 a3 a4 a5 a6 a7 a8 a9 a10 a11 a12 a13 a14 a15 c0 c1 c2 c3 c4 c5 c6 c7 : Word) :
    Ref.feed #v[c0, c1, c2, c3, c4, c5, c6, c7] #v[a0, a1, a2, a3, a4, a5, a6, a7, a8, a9, a10, a11, a12, a13, a14, a15] 1 =
      #v[a0, a1 ^^^ a9, a2, a3, a4, a5, a6, a7, a8, a9 ^^^ c1, a10, a11, a12, a13, a14, a15] := rfl

theorem feed_2 (a0 a1 a2 a3 a4 a5 a6 a7 a8 a9 a10 a11 a12 a13 a14 a15 c0 c1 c2 c3 c4 c5 c6 c7 : Word) :
    Ref.feed #v[c0, c1, c2, c3, c4, c5, c6, c7] #v[a0, a1, a2, a3, a4, a5, a6, a7, a8, a9, a10, a11, a12, a13, a14, a15] 2 =
      #v[a0, a1, a2 ^^^ a10, a3, a4, a5, a6, a7, a8, a9, a10 ^^^ c2, a11, a12, a13, a14, a15] := rfl

theorem feed_3 (a0 a1 a2 a3 a4 a5 a6 a7 a8 a9 a10 a11 a12 a13 a14 a15 c0 c1 c2 c3 c4 c5 c6 c7 : Word) :
    Ref.feed #v[c0, c1, c2, c3, c4, c5, c6, c7] #v[a0, a1, a2, a3, a4, a5, a6, a7, a8, a9, a10, a11, a12, a13, a14, a15] 3 =
      #v[a0, a1, a2, a3 ^^^ a11, a4, a5, a6, a7, a8, a9, a10, a11 ^^^ c3, a12, a13, a14, a15] := rfl

theorem feed_4 (a0 a1 a2 a3 a4 a5 a6 a7 a8 a9 a10 a11 a12 a13 a14 a15 c0 c1 c2 c3 c4 c5 c6 c7 : Word) :
    Ref.feed #v[c0, c1, c2, c3, c4, c5, c6, c7] #v[a0, a1, a2, a3, a4, a5, a6, a7, a8, a9, a10, a11, a12, a13, a14, a15] 4 =
      #v[a0, a1, a2, a3, a4 ^^^ a12, a5, a6, a7, a8, a9, a10, a11, a12 ^^^ c4, a13, a14, a15] := rfl

theorem feed_5 (a0 a1 a2 a3 a4 a5 a6 a7 a8 a9 a10 a11 a12 a13 a14 a15 c0 c1 c2 c3 c4 c5 c6 c7 : Word) :
    Ref.feed #v[c0, c1, c2, c3, c4, c5, c6, c7] #v[a0, a1, a2, a3, a4, a5, a6, a7, a8, a9, a10, a11, a12, a13, a14, a15] 5 =
      #v[a0, a1, a2, a3, a4, a5 ^^^ a13, a6, a7, a8, a9, a10, a11, a12, a13 ^^^ c5, a14, a15] := rfl

theorem feed_6 (a0 a1 a2 a3 a4 a5 a6 a7 a8 a9 a10 a11 a12 a13 a14 a15 c0 c1 c2 c3 c4 c5 c6 c7 : Word) :
    Ref.feed #v[c0, c1, c2, c3, c4, c5, c6, c7] #v[a0, a1, a2, a3, a4, a5, a6, a7, a8, a9, a10, a11, a12, a13, a14, a15] 6 =
      #v[a0, a1, a2, a3, a4, a5, a6 ^^^ a14, a7, a8, a9, a10, a11, a12, a13, a14 ^^^ c6, a15] := rfl

theorem feed_7 (a0 a1 a2 a3 a4 a5 a6 a7 a8 a9 a10 a11 a12 a13 a14 a15 c0 c1 c2 c3 c4 c5 c6 c7 : Word) :
    Ref.feed #v[c0, c1, c2, c3, c4, c5, c6, c7] #v[a0, a1, a2, a3, a4, a5, a6, a7, a8, a9, a10, a11, a12, a13, a14, a15] 7 =
      #v[a0, a1, a2, a3, a4, a5, a6, a7 ^^^ a15, a8, a9, a10, a11, a12, a13, a14, a15 ^^^ c7] := rfl

theorem ref_feed_eq (cv : Vector Word 8) (v : Vector Word 16) :
    (List.finRange 8).foldl (Ref.feed cv) v =
      (Vector.ofFn fun i : Fin 8 => v[i.val] ^^^ v[i.val + 8]) ++ (Vector.ofFn fun i : Fin 8 => v[i.val + 8] ^^^ cv[i]) := by
  have hfin : List.finRange 8 = [0, 1, 2, 3, 4, 5, 6, 7] := by decide
  obtain ⟨a0, a1, a2, a3, a4, a5, a6, a7, a8, a9, a10, a11, a12, a13, a14, a15, rfl⟩ := vec16_ex v
  obtain ⟨c0, c1, c2, c3, c4, c5, c6, c7, rfl⟩ := vec8_ex cv
  rw [hfin]
  simp only [List.foldl_cons, List.foldl_nil, feed_0, feed_1, feed_2, feed_3, feed_4, feed_5, feed_6, feed_7]
  rfl

/-- the outcome of a compression as sixteen words -/
def outWords (n : Spec.Input) : Vector Word 16 := Spec.outLow n ++ Spec.outHigh n

theorem ref_compress_eq (n : Spec.Input) :
    Ref.compress n.cv (blockWords n.block) n.offset (n.blockLen.setWidth 32) (n.flags.setWidth 32) = outWords n := by
  have hfin : List.finRange 7 = [0, 1, 2, 3, 4, 5, 6] := by decide
  have hmsg : (fun i : Fin 16 => (blockWords n.block)[i]) = Spec.blockWord n.block := by
    funext i; simp [blockWords]
  unfold Ref.compress
  simp only [Ref.ROUNDS]
  generalize hv : List.foldl _ _ (List.finRange 7) = v
  have hm : toMatrix v = Spec.permuted n := by
    rw [← hv]
    unfold Spec.permuted
    simp only [hfin, List.foldl_cons, List.foldl_nil, ref_round_eq, hmsg, ref_schedule_eq]
    congr 7
    apply matrix_ext <;> intro i <;> match i with
      | 0 | 1 | 2 | 3 => first | rfl | exact offset_low_eq n.offset | exact offset_high_eq n.offset
  rw [ref_feed_eq, outWords, Spec.outLow, Spec.outHigh, ← hm]
  congr 1

theorem outWords_first (n : Spec.Input) : Ref.first_8_words (outWords n) = Spec.compress n := by
  apply Vector.ext
  intro i hi
  rw [Ref.first_8_words, Vector.getElem_ofFn]
  show (Spec.outLow n ++ Spec.outHigh n)[i]'_ = (Spec.outLow n)[i]
  rw [Vector.getElem_append_left]

theorem outWords_bytes (n : Spec.Input) : Spec.wordBytes (outWords n).toList = (Spec.outBytes n).toList := by
  rw [outWords, Vector.toList_append]
  rfl

attribute [local irreducible] Spec.compress Spec.outBytes Spec.cvBytes Spec.pad outWords blockWords

/-! ## Output -/

/-- The `Output` of reference_impl.rs that stands for a compression input. -/
structure RefOut (o : Ref.Output) (n : Spec.Input) : Prop where
  cv : o.input_chaining_value = n.cv
  words : o.block_words = blockWords n.block
  offset : o.offset = n.offset
  len : o.block_len = n.blockLen.setWidth 32
  flags : o.flags = n.flags.setWidth 32

theorem RefOut.chaining_value {o : Ref.Output} {n : Spec.Input} (h : RefOut o n) :
    o.chaining_value = Spec.compress n := by
  rw [Ref.Output.chaining_value, h.cv, h.words, h.offset, h.len, h.flags, ref_compress_eq, outWords_first]

theorem write_words_eq (ws : List Word) : ∀ out : Bytes, out.length ≤ 4 * ws.length →
    Ref.write_words ws out = (Spec.wordBytes ws).take out.length := by
  induction ws with
  | nil => intro out h; rw [Ref.write_words]; simp at h; subst h; rfl
  | cons w ws ih =>
    intro out h
    rw [Ref.write_words]
    split
    next h0 => subst h0; rfl
    next h0 =>
      have e : Spec.wordBytes (w :: ws) = leBytes w ++ Spec.wordBytes ws := by
        simp only [Spec.wordBytes, List.flatMap_cons]; rfl
      have hl : (leBytes w).length = 4 := rfl
      rw [e, ih _ (by rw [List.length_drop]; rw [List.length_cons] at h; omega), List.take_append, hl,
        List.length_drop]
      congr 1
      rw [List.take_eq_take_iff]; omega

/-- the words of output block `k` -/
theorem RefOut.block {o : Ref.Output} {m : Spec.Mode} {input : Bytes} {n : Spec.Input}
    (h : RefOut o n) (hn : asRoot n = Spec.root m input) (k : Nat) :
    Spec.wordBytes (Ref.compress o.input_chaining_value o.block_words (BitVec.ofNat 64 (64 * k)) o.block_len
      (o.flags ||| Ref.ROOT)).toList = (Spec.streamBlock m input k).toList := by
  have e := ref_compress_eq { asRoot n with offset := BitVec.ofNat 64 (64 * k) }
  have hf : (asRoot n).flags.setWidth 32 = n.flags.setWidth 32 ||| Ref.ROOT := by
    simp only [asRoot, Flags.ROOT, BitVec.setWidth_or]
    rfl
  rw [h.cv, h.words, h.len, h.flags, ← hf]
  simp only at e
  show Spec.wordBytes (Ref.compress (asRoot n).cv (blockWords (asRoot n).block) _ ((asRoot n).blockLen.setWidth 32) _).toList = _
  rw [e, outWords_bytes, hn, Spec.streamBlock]

theorem root_output_loop_eq {o : Ref.Output} {m : Spec.Mode} {input : Bytes} {n : Spec.Input}
    (h : RefOut o n) (hn : asRoot n = Spec.root m input) (out : Bytes) : ∀ (k : Nat),
    64 * k + out.length ≤ 2 ^ 64 - 64 →
    o.root_output_loop (BitVec.ofNat 64 (64 * k)) out = .ok (slice m input (64 * k) out.length) := by
  induction hl : out.length using Nat.strongRecOn generalizing out with
  | ind l ih =>
  intro k hk
  rw [Ref.Output.root_output_loop]
  by_cases h0 : out = []
  · subst h0; rw [dif_pos rfl, ← hl]; rfl
  · have hpos : 0 < out.length := List.length_pos_iff.2 h0
    rw [dif_neg h0]
    simp only [Ref.OUT_LEN, show 2 * 32 = 64 from rfl]
    rw [addU64_ofNat _ _ (by omega), bind_ok, ← Nat.mul_succ,
      ih (out.length - 64) (by omega) (out.drop 64) (by simp) (k + 1) (by omega), bind_ok, pure_eq,
      write_words_eq _ _ (by rw [List.length_take, Vector.length_toList]; omega), h.block hn]
    rw [List.length_take, ← slice_block m input k _ (by omega)]
    refine congrArg Except.ok ?_
    by_cases h64 : 64 ≤ l
    · have := slice_append m input (64 * k) 64 (l - 64)
      rw [show min 64 out.length = 64 by omega, hl, ← show 64 + (l - 64) = l by omega]
      rw [this, show 64 * k + 64 = 64 * (k + 1) by omega, show 64 + (l - 64) - 64 = l - 64 by omega]
    · rw [show min 64 out.length = l by omega, show out.length - 64 = 0 by omega]
      simp [slice]

/-! ## Chunks -/

/-- The chunk state that has received `c`. -/
structure RefChunk (key : Vector Word 8) (flags : Byte) (off : Nat) (c : Bytes) (s : Ref.ChunkState) : Prop where
  hflags : s.flags = flags.setWidth 32
  hoff : s.offset = BitVec.ofNat 64 off
  split : ∃ pre b, c = pre ++ b ∧ pre.length = 64 * s.blocks_compressed ∧ b.length = s.block_len ∧
    b.length ≤ 64 ∧ (pre = [] ∨ b ≠ []) ∧ s.block = Spec.pad b ∧ Absorbed key flags off s.chaining_value pre

theorem RefChunk.new (key : Vector Word 8) (flags : Byte) (off : Nat) :
    RefChunk key flags off [] (Ref.ChunkState.new key (BitVec.ofNat 64 off) (flags.setWidth 32)) :=
  ⟨rfl, rfl, [], [], rfl, rfl, rfl, by simp, Or.inl rfl, replicate_pad, Absorbed.nil _ _ _⟩

theorem RefChunk.len {key flags off c s} (h : RefChunk key flags off c s) : s.len = c.length := by
  obtain ⟨pre, b, rfl, h1, h2, -⟩ := h.split
  rw [Ref.ChunkState.len, List.length_append, h1, h2]

theorem start_flag_eq {s : Ref.ChunkState} {pre : Bytes} (h : pre.length = 64 * s.blocks_compressed) :
    s.start_flag = (if pre.length = 0 then Spec.chunkStart else 0).setWidth 32 := by
  rw [Ref.ChunkState.start_flag]
  by_cases h0 : s.blocks_compressed = 0
  · rw [if_pos h0, if_pos (by omega)]; rfl
  · rw [if_neg h0, if_neg (by omega)]; rfl

theorem RefChunk.compress_full {key flags off c s} (h : RefChunk key flags off c s) (hc : c.length < 2048) :
    ∃ s' pre b, s.compress_full = .ok s' ∧ s'.flags = flags.setWidth 32 ∧ s'.offset = BitVec.ofNat 64 off ∧
      c = pre ++ b ∧ pre.length = 64 * s'.blocks_compressed ∧ b.length = s'.block_len ∧ b.length < 64 ∧
      s'.block = Spec.pad b ∧ Absorbed key flags off s'.chaining_value pre := by
  obtain ⟨pre, b, rfl, hpre, hb, hb64, hne, hblk, ha⟩ := h.split
  rw [List.length_append] at hc
  rw [Ref.ChunkState.compress_full]
  simp only [Ref.BLOCK_LEN]
  by_cases h64 : s.block_len = 64
  · rw [if_pos h64, addN, if_pos (by omega), bind_ok]
    refine ⟨_, pre ++ b, [], rfl, h.hflags, h.hoff, by simp, ?_, rfl, by simp, replicate_pad, ?_⟩
    · rw [List.length_append]; dsimp only; omega
    · have := ha.step b (by omega)
      have e := ref_compress_eq
        { cv := s.chaining_value, block := Spec.pad b, blockLen := 64, offset := BitVec.ofNat 64 off,
          flags := flags ||| if pre.length = 0 then Spec.chunkStart else 0 }
      rw [← outWords_first, ← e] at this
      dsimp only at this ⊢
      rw [wordsArray_block, h.hflags, h.hoff, start_flag_eq hpre, ← BitVec.setWidth_or, hblk]
      exact this
  · rw [if_neg h64]
    exact ⟨s, pre, b, rfl, h.hflags, h.hoff, rfl, hpre, hb, by omega, hblk, ha⟩

theorem arrayRef64 (b : Bytes) (h : b.length ≤ 64) :
    arrayRef (b ++ List.replicate (64 - b.length) 0) 0 64 = .ok (Spec.pad b) := arrayRef_pad b h

theorem RefChunk.update_loop {key flags off} (n : Nat) : ∀ {c : Bytes} {s : Ref.ChunkState},
    RefChunk key flags off c s → ∀ (input : Bytes), input.length ≤ n → c.length + input.length ≤ 2048 →
    ∃ s', Ref.ChunkState.update_loop n s input = .ok s' ∧ RefChunk key flags off (c ++ input) s' := by
  induction n with
  | zero =>
    intro c s h input hn _
    have : input = [] := List.length_eq_zero_iff.1 (by omega)
    subst this
    exact ⟨s, rfl, by rwa [List.append_nil]⟩
  | succ n ih =>
    intro c s h input hn hc
    rw [Ref.ChunkState.update_loop]
    by_cases h0 : input = []
    · subst h0
      exact ⟨s, rfl, by rwa [List.append_nil]⟩
    · have hpos : 0 < input.length := List.length_pos_iff.2 h0
      obtain ⟨s1, pre, b, e1, hf, ho, rfl, hpre, hb, hb64, hblk, ha⟩ := h.compress_full (by omega)
      rw [if_neg h0, e1, bind_ok]
      rw [List.length_append] at hc
      have ht : input.take (min (64 - b.length) input.length) = input.take (64 - b.length) := by
        rw [List.take_eq_take_iff]; omega
      have htl : (input.take (64 - b.length)).length = min (64 - b.length) input.length := List.length_take
      have hd : input.drop (min (64 - b.length) input.length) = input.drop (64 - b.length) := by
        by_cases h : 64 - b.length ≤ input.length
        · rw [Nat.min_eq_left h]
        · rw [Nat.min_eq_right (by omega), List.drop_of_length_le (by omega), List.drop_of_length_le (by omega)]
      have e2 : s1.fill input = .ok
          ({ s1 with block := Spec.pad (b ++ input.take (64 - b.length)), block_len := b.length + min (64 - b.length) input.length },
            min (64 - b.length) input.length) := by
        rw [Ref.ChunkState.fill]
        simp only [Ref.BLOCK_LEN]
        rw [← hb, subN, if_pos (by omega), bind_ok, hblk, ht, pad_toList b (by omega),
          writeAt_append _ _ _ _ rfl (by simp; omega), bind_ok, List.drop_replicate,
          show 64 - b.length - (input.take (64 - b.length)).length = 64 - (b ++ input.take (64 - b.length)).length by
            rw [List.length_append]; omega,
          arrayRef_pad _ (by simp; omega), bind_ok, addN, if_pos (by omega), bind_ok]
        rfl
      rw [e2, bind_ok]
      dsimp only
      rw [hd]
      have hs2 : RefChunk key flags off (pre ++ (b ++ input.take (64 - b.length)))
          { s1 with block := Spec.pad (b ++ input.take (64 - b.length)), block_len := b.length + min (64 - b.length) input.length } := by
        refine ⟨hf, ho, pre, b ++ input.take (64 - b.length), rfl, hpre, ?_, ?_, Or.inr ?_, rfl, ha⟩
        · rw [List.length_append, htl]
        · rw [List.length_append, htl]; omega
        · intro h; have := congrArg List.length h; rw [List.length_append, List.length_nil, htl] at this; omega
      obtain ⟨s', e', h'⟩ := ih hs2 (input.drop (64 - b.length)) (by rw [List.length_drop]; omega)
        (by rw [List.length_append, List.length_append, htl, List.length_drop]; omega)
      refine ⟨s', e', ?_⟩
      rw [List.append_assoc, List.append_assoc, List.take_append_drop, ← List.append_assoc] at h'
      exact h'

theorem RefChunk.update {key flags off c s} (h : RefChunk key flags off c s) (input : Bytes)
    (hl : c.length + input.length ≤ 2048) :
    ∃ s', s.update input = .ok s' ∧ RefChunk key flags off (c ++ input) s' :=
  RefChunk.update_loop _ h input (Nat.le_refl _) hl

theorem RefChunk.output {key flags off c s} (h : RefChunk key flags off c s) :
    RefOut s.output (Spec.chunk key flags off c) := by
  obtain ⟨pre, b, rfl, hpre, hb, hb64, hne, hblk, ha⟩ := h.split
  rw [ha.2 b hne, Spec.chunkFrom, dif_pos hb64]
  refine ⟨rfl, ?_, h.hoff, ?_, ?_⟩
  · show Ref.wordsArray 16 s.block.toList = _
    rw [wordsArray_block, hblk]
  · show BitVec.ofNat 32 s.block_len = _
    dsimp only
    apply BitVec.eq_of_toNat_eq
    simp only [BitVec.toNat_ofNat, BitVec.toNat_setWidth]
    rw [← hb]
    omega
  · show s.flags ||| s.start_flag ||| Ref.CHUNK_END = _
    rw [h.hflags, start_flag_eq hpre]
    simp only [BitVec.setWidth_or]
    rfl

/-! ## Hasher -/

section
variable (key : Vector Word 8) (flags : Byte)

theorem parent_output_eq (l r : Tree Spec.Input) :
    RefOut (Ref.parent_output (cvOf key flags l) (cvOf key flags r) key (flags.setWidth 32))
      (inp key flags (.node l r)) := by
  refine ⟨rfl, (blockWords_parent _ _).symm, rfl, rfl, ?_⟩
  show Ref.PARENT ||| flags.setWidth 32 = (flags ||| Spec.parentFlag).setWidth 32
  rw [BitVec.setWidth_or, BitVec.or_comm]
  rfl

/-- The stack holds the canonical subtrees over `L`. -/
structure RefStack (L : List (Tree Spec.Input)) (h : Ref.Hasher) : Prop where
  hkey : h.key = key
  hflags : h.chunk_state.flags = flags.setWidth 32
  stack : h.subtree_stack = (canon L).map (cvOf key flags)

/-- The merge loop turns the stack `T` below the entry `x` into the one with `n` entries (counting `x`). -/
theorem ref_merge_loop_eq (n : Nat) (hn : 1 ≤ n) : ∀ (T : List (Tree Spec.Input)) (x : Tree Spec.Input) (h : Ref.Hasher),
    h.key = key → h.chunk_state.flags = flags.setWidth 32 → h.subtree_stack = T.map (cvOf key flags) →
    ∃ h' T' x', h.merge_loop (cvOf key flags x) n = .ok (h', cvOf key flags x') ∧
      h' = { h with subtree_stack := T'.map (cvOf key flags) } ∧ mergeN (T.length + 1 - n) (x :: T) = x' :: T' := by
  intro T
  induction T with
  | nil =>
    intro x h hk hf hs
    rw [Ref.Hasher.merge_loop, if_neg (by rw [hs]; simp; omega)]
    refine ⟨h, [], x, rfl, ?_, ?_⟩
    · cases h; simp only at hs; rw [hs]
    · rw [show ([] : List (Tree Spec.Input)).length + 1 - n = 0 by simp; omega]; rfl
  | cons t T ih =>
    intro x h hk hf hs
    rw [Ref.Hasher.merge_loop]
    have hl : h.subtree_stack.length = T.length + 1 := by rw [hs]; simp
    by_cases hle : n ≤ T.length + 1
    · rw [if_pos (by omega)]
      have ep : h.pop_stack = .ok (cvOf key flags t, { h with subtree_stack := T.map (cvOf key flags) }) := by
        rw [Ref.Hasher.pop_stack, hs]; rfl
      split
      next e he => rw [ep] at he; cases he
      next left h' he =>
        rw [ep] at he
        cases he
        dsimp only
        rw [hk, hf, (parent_output_eq key flags t x).chaining_value]
        obtain ⟨h', T', x', e, e', em⟩ := ih (.node t x)
          { chunk_state := h.chunk_state, key := key, subtree_stack := T.map (cvOf key flags) } rfl hf rfl
        have hh : (⟨h.chunk_state, h.key, T.map (cvOf key flags)⟩ : Ref.Hasher) =
          ⟨h.chunk_state, key, T.map (cvOf key flags)⟩ := by rw [hk]
        refine ⟨h', T', x', e, ?_, ?_⟩
        · rw [e']
        · rw [List.length_cons, show T.length + 1 + 1 - n = T.length + 1 - n + 1 by omega, mergeN, merge1, em]
    · rw [if_neg (by omega)]
      refine ⟨h, t :: T, x, rfl, ?_, ?_⟩
      · cases h; simp only at hs; rw [hs]
      · rw [List.length_cons, show T.length + 1 + 1 - n = 0 by omega, mergeN]

theorem popcount_mul_two (n : Nat) : popcount (2 * n) = popcount n := by
  by_cases h : n = 0
  · subst h; rfl
  · rw [popcount, if_neg (by omega), show 2 * n % 2 = 0 by omega, show 2 * n / 2 = n by omega, Nat.zero_add]

theorem popcount_2048 (n : Nat) : popcount (2048 * n) = popcount n := by
  rw [show 2048 * n = 2 * (2 * (2 * (2 * (2 * (2 * (2 * (2 * (2 * (2 * (2 * n)))))))))) by omega]
  simp only [popcount_mul_two]

theorem RefStack.push {L : List (Tree Spec.Input)} {h : Ref.Hasher} (hs : RefStack key flags L h) (x : Tree Spec.Input)
    (hL : 2048 * (L.length + 1) < 2 ^ 64) :
    ∃ h', h.push_chunk_chaining_value (cvOf key flags x) (BitVec.ofNat 64 (2048 * (L.length + 1))) = .ok h' ∧
      RefStack key flags (L ++ [x]) h' ∧ h'.chunk_state = h.chunk_state := by
  have ht : (BitVec.ofNat 64 (2048 * (L.length + 1))).toNat = 2048 * (L.length + 1) := by
    rw [BitVec.toNat_ofNat, Nat.mod_eq_of_lt hL]
  have hpc := popcount_pos (n := L.length + 1) (by omega)
  obtain ⟨h', T', x', e, e', em⟩ := ref_merge_loop_eq key flags (popcount (L.length + 1)) hpc (canon L) x h
    hs.hkey hs.hflags hs.stack
  obtain ⟨c1, c2⟩ := canon_push L x
  rw [em] at c2
  have hlen := congrArg List.length c2
  rw [length_canon, List.length_append, List.length_singleton, List.length_cons] at hlen
  have h53 := (popcount_le (n := L.length + 1) (k := 53) (by omega)).1
  rw [Ref.Hasher.push_chunk_chaining_value, ht, popcount_2048, e, bind_ok]
  dsimp only
  subst e'
  rw [Ref.Hasher.push_stack, if_pos (by simp only [List.length_map]; omega)]
  refine ⟨_, rfl, ⟨hs.hkey, hs.hflags, ?_⟩, rfl⟩
  rw [← c2]
  rfl

/-- The hasher has received `bytes`. -/
def RefOk (bytes : Bytes) (h : Ref.Hasher) : Prop :=
  ∃ cks tail, bytes = cks.flatten ++ tail ∧ (∀ c ∈ cks, c.length = 2048) ∧ tail.length ≤ 2048 ∧ (cks = [] ∨ tail ≠ []) ∧
    RefChunk key flags (2048 * cks.length) tail h.chunk_state ∧ RefStack key flags (chunkLeaves key flags 0 cks) h

theorem RefOk.new : RefOk key flags [] (Ref.Hasher.new_internal key (flags.setWidth 32)) := by
  refine ⟨[], [], rfl, by simp, by simp, Or.inl rfl, RefChunk.new key flags 0, rfl, rfl, ?_⟩
  simp [chunkLeaves, canon_nil, Ref.Hasher.new_internal]

theorem RefOk.finish_chunk {bytes : Bytes} {h : Ref.Hasher} (hh : RefOk key flags bytes h) (hlt : bytes.length < 2 ^ 64) :
    ∃ h1 cks1 tail1, h.finish_chunk = .ok h1 ∧ bytes = cks1.flatten ++ tail1 ∧
      (∀ c ∈ cks1, c.length = 2048) ∧ tail1.length < 2048 ∧
      RefChunk key flags (2048 * cks1.length) tail1 h1.chunk_state ∧
      RefStack key flags (chunkLeaves key flags 0 cks1) h1 := by
  obtain ⟨cks, tail, rfl, hcks, htail, hne, hch, hst⟩ := hh
  have hfl := length_flatten cks hcks
  rw [List.length_append, hfl] at hlt
  rw [Ref.Hasher.finish_chunk]
  simp only [Ref.CHUNK_LEN]
  rw [hch.len]
  by_cases hfull : tail.length = 2048
  · rw [if_pos hfull, hch.hoff, addU64_ofNat _ _ (by omega), bind_ok, hch.output.chaining_value]
    have hll := length_chunkLeaves key flags 0 cks
    obtain ⟨h1, e1, hs1, hc1⟩ := RefStack.push key flags hst (.leaf (Spec.chunk key flags (2048 * cks.length) tail))
      (by rw [hll]; omega)
    rw [hll, Nat.mul_add] at e1
    have hL : chunkLeaves key flags 0 cks ++ [.leaf (Spec.chunk key flags (2048 * cks.length) tail)] =
        chunkLeaves key flags 0 (cks ++ [tail]) := by
      rw [chunkLeaves_append, Nat.zero_add]; rfl
    rw [hL] at hs1
    change h.push_chunk_chaining_value (Spec.compress (Spec.chunk key flags (2048 * cks.length) tail))
      (BitVec.ofNat 64 (2048 * cks.length + 2048)) = _ at e1
    rw [e1, bind_ok]
    refine ⟨_, cks ++ [tail], [], rfl, ?_, ?_, by simp, ?_, ?_⟩
    · simp
    · intro c hc
      rcases List.mem_append.1 hc with hc | hc
      · exact hcks c hc
      · rw [List.mem_singleton.1 hc]; exact hfull
    · dsimp only
      rw [hs1.hkey, hs1.hflags]
      have := RefChunk.new key flags (2048 * (cks ++ [tail]).length)
      rw [List.length_append, List.length_singleton, Nat.mul_add] at this ⊢
      exact this
    · refine ⟨hs1.hkey, ?_, hs1.stack⟩
      show h1.chunk_state.flags = _
      exact hs1.hflags
  · rw [if_neg hfull]
    exact ⟨h, cks, tail, rfl, rfl, hcks, by omega, hch, hst⟩

/-- One round of the loop in `update` -/
theorem RefOk.step {bytes : Bytes} {h : Ref.Hasher} (hh : RefOk key flags bytes h) (input : Bytes) (h0 : input ≠ [])
    (hlt : bytes.length < 2 ^ 64) :
    ∃ h1 s' l, h.finish_chunk = .ok h1 ∧ h1.chunk_state.len = l ∧ l < 2048 ∧
      h1.chunk_state.update (input.take (min (2048 - l) input.length)) = .ok s' ∧ bytes.length + min (2048 - l) input.length ≤ 2 ^ 64 ∧
      RefOk key flags (bytes ++ input.take (min (2048 - l) input.length)) { h1 with chunk_state := s' } := by
  have hpos : 0 < input.length := List.length_pos_iff.2 h0
  obtain ⟨h1, cks1, tail1, e1, rfl, hcks1, ht1, hch1, hst1⟩ := hh.finish_chunk key flags hlt
  have hfl1 := length_flatten cks1 hcks1
  have htl : (input.take (min (2048 - tail1.length) input.length)).length = min (2048 - tail1.length) input.length := by
    rw [List.length_take]; omega
  obtain ⟨s', e2, hs'⟩ := hch1.update (input.take (min (2048 - tail1.length) input.length)) (by omega)
  rw [List.length_append, hfl1] at hlt ⊢
  refine ⟨h1, s', tail1.length, e1, hch1.len, ht1, e2, by omega, ?_⟩
  rw [List.append_assoc]
  refine ⟨cks1, _, rfl, hcks1, ?_, Or.inr ?_, hs', hst1.hkey, ?_, hst1.stack⟩
  · rw [List.length_append]; omega
  · intro h; have := congrArg List.length h; rw [List.length_append, List.length_nil] at this; omega
  · exact hs'.hflags

/-- After 2^64 bytes the last chunk is full and its successor has no offset. -/
theorem RefOk.full {bytes : Bytes} {h : Ref.Hasher} (hh : RefOk key flags bytes h) (hlt : bytes.length = 2 ^ 64) :
    h.chunk_state.len = 2048 ∧ h.chunk_state.offset = BitVec.ofNat 64 (2 ^ 64 - 2048) := by
  obtain ⟨cks, tail, rfl, hcks, htail, hne, hch, hst⟩ := hh
  have hfl := length_flatten cks hcks
  rw [List.length_append, hfl] at hlt
  have : 0 < tail.length := by
    rcases hne with h | h
    · subst h; simp at hlt; omega
    · exact List.length_pos_iff.2 h
  rw [hch.len, hch.hoff]
  exact ⟨by omega, by congr 1; omega⟩

theorem RefOk.update_loop (n : Nat) : ∀ {bytes : Bytes} {h : Ref.Hasher}, RefOk key flags bytes h →
    ∀ (input : Bytes), input.length ≤ n → bytes.length + input.length ≤ 2 ^ 64 →
    ∃ h', Ref.Hasher.update_loop n h input = .ok h' ∧ RefOk key flags (bytes ++ input) h' := by
  induction n with
  | zero =>
    intro bytes h hh input hn _
    have : input = [] := List.length_eq_zero_iff.1 (by omega)
    subst this
    exact ⟨h, rfl, by rwa [List.append_nil]⟩
  | succ n ih =>
    intro bytes h hh input hn hlt
    rw [Ref.Hasher.update_loop]
    by_cases h0 : input = []
    · subst h0
      exact ⟨h, rfl, by rwa [List.append_nil]⟩
    · have hpos : 0 < input.length := List.length_pos_iff.2 h0
      obtain ⟨h1, s', l, e1, el, hl, e2, -, hok⟩ := hh.step key flags input h0 (by omega)
      rw [if_neg h0, e1, bind_ok]
      simp only [Ref.CHUNK_LEN]
      rw [el, subN, if_pos (by omega), bind_ok, e2, bind_ok]
      obtain ⟨h', e', hok'⟩ := ih hok (input.drop (min (2048 - l) input.length))
        (by rw [List.length_drop]; omega)
        (by rw [List.length_append, List.length_take, List.length_drop]; omega)
      refine ⟨h', e', ?_⟩
      rw [List.append_assoc, List.take_append_drop] at hok'
      exact hok'

/-- Beyond 2^64 bytes the offset of the next chunk overflows. -/
theorem RefOk.update_loop_long (n : Nat) : ∀ {bytes : Bytes} {h : Ref.Hasher}, RefOk key flags bytes h → bytes.length ≤ 2 ^ 64 →
    ∀ (input : Bytes), input.length ≤ n → 2 ^ 64 < bytes.length + input.length →
    Ref.Hasher.update_loop n h input = .error .overflow := by
  induction n with
  | zero => intro bytes h hh hb input hn hlt; omega
  | succ n ih =>
    intro bytes h hh hb input hn hlt
    rw [Ref.Hasher.update_loop]
    have h0 : input ≠ [] := by intro h; rw [h] at hlt; simp at hlt; omega
    have hpos : 0 < input.length := List.length_pos_iff.2 h0
    rw [if_neg h0]
    by_cases hf : bytes.length = 2 ^ 64
    · obtain ⟨f1, f2⟩ := hh.full key flags hf
      have e : addU64 h.chunk_state.offset (BitVec.ofNat 64 Ref.CHUNK_LEN) = .error .overflow := by rw [f2]; rfl
      rw [Ref.Hasher.finish_chunk, if_pos f1, e]; rfl
    · obtain ⟨h1, s', l, e1, el, hl, e2, hle, hok⟩ := hh.step key flags input h0 (by omega)
      rw [e1, bind_ok]
      simp only [Ref.CHUNK_LEN]
      rw [el, subN, if_pos (by omega), bind_ok, e2, bind_ok]
      exact ih hok (by rw [List.length_append, List.length_take]; omega) (input.drop (min (2048 - l) input.length))
        (by rw [List.length_drop]; omega)
        (by rw [List.length_append, List.length_take, List.length_drop]; omega)

theorem ref_finalize_loop_eq (h : Ref.Hasher) (hk : h.key = key) (hf : h.chunk_state.flags = flags.setWidth 32)
    (S : List (Tree Spec.Input)) : ∀ (x : Tree Spec.Input) (o : Ref.Output), RefOut o (inp key flags x) →
    RefOut (h.finalize_loop o (S.map (cvOf key flags))) (inp key flags (foldStack x S)) := by
  induction S with
  | nil => intro x o ho; exact ho
  | cons s S ih =>
    intro x o ho
    rw [List.map_cons, Ref.Hasher.finalize_loop, ho.chaining_value, hk, hf, foldStack]
    exact ih (.node s x) _ (parent_output_eq key flags s x)

theorem RefOk.root {bytes : Bytes} {h : Ref.Hasher} (hok : RefOk key flags bytes h) :
    RefOut (h.finalize_loop h.chunk_state.output h.subtree_stack) (Spec.subtree key flags 0 bytes) := by
  obtain ⟨cks, tail, rfl, hcks, htail, hne, hch, hst⟩ := hok
  have hfl := length_flatten cks hcks
  have := ref_finalize_loop_eq key flags h hst.hkey hst.hflags (canon (chunkLeaves key flags 0 cks))
    (.leaf (Spec.chunk key flags (2048 * cks.length) tail)) _ hch.output
  rw [← hst.stack, fold_canon] at this
  rw [subtree_eq]
  rcases hne with h0 | h0
  · subst h0
    rw [List.flatten_nil, List.nil_append, leaves, dif_pos htail]
    exact this
  · by_cases h1 : cks = []
    · subst h1
      rw [List.flatten_nil, List.nil_append, leaves, dif_pos htail]
      exact this
    · have hpos : 0 < cks.length := List.length_pos_iff.2 h1
      rw [leaves_append key flags 0 cks.flatten tail (cks.length - 1) (by rw [hfl]; congr 1; omega) h0,
        leaves_flatten key flags 0 cks hcks h1, leaves.eq_def _ _ _ tail, dif_pos htail, Nat.zero_add, hfl]
      exact this

end

end Baokeshed.Proofs
