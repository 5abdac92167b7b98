import Verif.Proofs.TraceRef

/-! # reference_impl.rs performs the compressions of the tree, each once -/

set_option linter.unusedVariables false
set_option linter.unusedSimpArgs false

namespace Baokeshed.Proofs.RT
open Baokeshed.Model Baokeshed.Proofs

theorem refCall_eq (n : Spec.Input) :
    Spec.refCall n = ⟨n.cv, blockWords n.block, n.offset, n.blockLen.setWidth 32, n.flags.setWidth 32⟩ := rfl

attribute [local irreducible] Spec.compress Spec.outBytes Spec.cvBytes Spec.pad outWords blockWords

/-! ## Output -/

theorem chaining_value_log {o : Ref.Output} {n : Spec.Input} (h : RefOut o n) :
    RefT.Output.chaining_value o = ⟨.ok (Spec.compress n), [n].map Spec.refCall⟩ := by
  have e := h.chaining_value
  rw [RefT.Output.chaining_value]
  refine rec_bind' (l := [Spec.refCall n]) (l' := []) (a := Ref.compress o.input_chaining_value o.block_words o.offset o.block_len o.flags)
    ?_ ?_
  · rw [RefT.compress, refCall_eq, ← h.cv, ← h.words, ← h.offset, ← h.len, ← h.flags]
  · exact congrArg (fun x => (⟨.ok x, []⟩ : RefT.TR (Vector Word 8))) e

/-- the call for output block `k` -/
theorem root_call {o : Ref.Output} {m : Spec.Mode} {input : Bytes} {n : Spec.Input}
    (h : RefOut o n) (hn : asRoot n = Spec.root m input) (k : Nat) :
    (⟨o.input_chaining_value, o.block_words, BitVec.ofNat 64 (64 * k), o.block_len, o.flags ||| Ref.ROOT⟩ : RefT.Call) =
      Spec.refCall (Spec.outCall m input k) := by
  have hf : (asRoot n).flags.setWidth 32 = n.flags.setWidth 32 ||| Ref.ROOT := by
    simp only [asRoot, Flags.ROOT, BitVec.setWidth_or]
    rfl
  rw [refCall_eq, Spec.outCall, ← hn, h.cv, h.words, h.len, h.flags, ← hf]
  rfl

theorem root_output_loop_log {o : Ref.Output} {m : Spec.Mode} {input : Bytes} {n : Spec.Input}
    (h : RefOut o n) (hn : asRoot n = Spec.root m input) (out : Bytes) : ∀ (k : Nat),
    64 * k + out.length ≤ 2 ^ 64 - 64 →
    RefT.Output.root_output_loop o (BitVec.ofNat 64 (64 * k)) out =
      ⟨.ok (slice m input (64 * k) out.length),
        ((List.range' k ((out.length + 63) / 64)).map (Spec.outCall m input)).map Spec.refCall⟩ := by
  intro k hk
  have er := (Ref.root_output_loop_res o (BitVec.ofNat 64 (64 * k)) out).trans (root_output_loop_eq h hn out k hk)
  suffices hs : (RefT.Output.root_output_loop o (BitVec.ofNat 64 (64 * k)) out).log =
      ((List.range' k ((out.length + 63) / 64)).map (Spec.outCall m input)).map Spec.refCall by
    rw [← er, ← hs]
  clear er
  induction hl : out.length using Nat.strongRecOn generalizing out k with
  | ind l ih =>
  rw [RefT.Output.root_output_loop]
  by_cases h0 : out = []
  · subst h0; rw [dif_pos rfl, ← hl]; rfl
  · have hpos : 0 < out.length := List.length_pos_iff.2 h0
    rw [dif_neg h0]
    simp only [Ref.OUT_LEN, show 2 * 32 = 64 from rfl]
    have hih := ih (out.length - 64) (by omega) (out.drop 64) (k + 1) (by rw [List.length_drop]; omega) (by simp)
    have hr := (Ref.root_output_loop_res o (BitVec.ofNat 64 (64 * (k + 1))) (out.drop 64)).trans
      (root_output_loop_eq h hn (out.drop 64) (k + 1) (by rw [List.length_drop]; omega))
    rw [addU64_ofNat _ _ (by omega), ← Nat.mul_succ]
    have e : RefT.Output.root_output_loop o (BitVec.ofNat 64 (64 * (k + 1))) (out.drop 64) = ⟨_, _⟩ :=
      (show ∀ x : RefT.TR Bytes, x = ⟨x.res, x.log⟩ from fun x => rfl) _
    rw [hr, hih] at e
    rw [rec_bind _ (show RefT.compress _ _ _ _ _ = ⟨.ok _, _⟩ from rfl), lift_ok, Nat.succ_eq_add_one, rec_bind _ e,
      rec_pure]
    dsimp only
    rw [root_call h hn, show (l + 63) / 64 = (out.length - 64 + 63) / 64 + 1 by omega, List.range'_succ, List.map_cons,
      List.map_cons, List.append_nil]
    rfl

/-! ## Chunks -/

variable {key : Vector Word 8} {flags : Byte} {off : Nat}

/-- the chaining value comes from the compressions of the whole blocks -/
def RLog (key : Vector Word 8) (flags : Byte) (off : Nat) (c : Bytes) (s : Ref.ChunkState) : Prop :=
  AbsL key flags off s.chaining_value (c.take (64 * s.blocks_compressed)) (cb key flags off c)

theorem RLog.new : RLog key flags off [] (Ref.ChunkState.new key (BitVec.ofNat 64 off) (flags.setWidth 32)) := by
  rw [RLog, List.take_nil, cb_nil]
  exact AbsL.nil off

theorem compress_full_log {c : Bytes} {s : Ref.ChunkState} (h : RefChunk key flags off c s) (hL : RLog key flags off c s)
    (hc : c.length < 2048) :
    ∃ s' pre b l, RefT.ChunkState.compress_full s = ⟨.ok s', l.map Spec.refCall⟩ ∧ s'.flags = flags.setWidth 32 ∧
      s'.offset = BitVec.ofNat 64 off ∧
      c = pre ++ b ∧ pre.length = 64 * s'.blocks_compressed ∧ b.length = s'.block_len ∧ b.length < 64 ∧
      s'.block = Spec.pad b ∧ Absorbed key flags off s'.chaining_value pre ∧
      AbsL key flags off s'.chaining_value pre (cb key flags off c ++ l) := by
  obtain ⟨pre, b, rfl, hpre, hb, hb64, hne, hblk, ha⟩ := h.split
  rw [RLog, List.take_left' hpre] at hL
  rw [List.length_append] at hc
  rw [RefT.ChunkState.compress_full]
  simp only [Ref.BLOCK_LEN]
  by_cases h64 : s.block_len = 64
  · rw [if_pos h64, addN, if_pos (by omega)]
    have e := ref_compress_eq
      { cv := s.chaining_value, block := Spec.pad b, blockLen := 64, offset := BitVec.ofNat 64 off,
        flags := flags ||| if pre.length = 0 then Spec.chunkStart else 0 }
    have ec : RefT.compress s.chaining_value (Ref.wordsArray 16 s.block.toList) s.offset (BitVec.ofNat 32 64)
        (s.flags ||| s.start_flag) = ⟨.ok (outWords
          { cv := s.chaining_value, block := Spec.pad b, blockLen := 64, offset := BitVec.ofNat 64 off,
            flags := flags ||| if pre.length = 0 then Spec.chunkStart else 0 }), [Spec.refCall
          { cv := s.chaining_value, block := Spec.pad b, blockLen := 64, offset := BitVec.ofNat 64 off,
            flags := flags ||| if pre.length = 0 then Spec.chunkStart else 0 }]⟩ := by
      rw [RefT.compress, refCall_eq, wordsArray_block, h.hflags, h.hoff, start_flag_eq hpre, ← BitVec.setWidth_or, hblk]
      exact congrArg (fun x => (⟨.ok x, _⟩ : RefT.TR (Vector Word 16))) e
    rw [rec_bind _ ec, lift_ok, rec_pure, outWords_first]
    refine ⟨_, pre ++ b, [], [_], rfl, h.hflags, h.hoff, by simp, ?_, rfl, by simp, replicate_pad, ?_, ?_⟩
    · rw [List.length_append]; dsimp only; omega
    · exact ha.step b (by omega)
    · exact hL.step b (by omega) _ rfl
  · rw [if_neg h64]
    exact ⟨s, pre, b, [], rfl, h.hflags, h.hoff, rfl, hpre, hb, by omega, hblk, ha, by rwa [List.append_nil]⟩

theorem chunk_update_loop_log (n : Nat) : ∀ {c : Bytes} {s : Ref.ChunkState},
    RefChunk key flags off c s → RLog key flags off c s → ∀ (input : Bytes), input.length ≤ n →
    c.length + input.length ≤ 2048 →
    ∃ s' l, RefT.ChunkState.update_loop n s input = ⟨.ok s', l.map Spec.refCall⟩ ∧ RefChunk key flags off (c ++ input) s' ∧
      RLog key flags off (c ++ input) s' ∧ cb key flags off (c ++ input) = cb key flags off c ++ l := by
  induction n with
  | zero =>
    intro c s h hL input hn _
    have : input = [] := List.length_eq_zero_iff.1 (by omega)
    subst this
    refine ⟨s, [], rfl, ?_⟩
    rw [List.append_nil, List.append_nil]
    exact ⟨h, hL, rfl⟩
  | succ n ih =>
    intro c s h hL input hn hc
    rw [RefT.ChunkState.update_loop]
    by_cases h0 : input = []
    · subst h0
      refine ⟨s, [], rfl, ?_⟩
      rw [List.append_nil, List.append_nil]
      exact ⟨h, hL, rfl⟩
    · have hpos : 0 < input.length := List.length_pos_iff.2 h0
      obtain ⟨s1, pre, b, l1, e1, hf, ho, rfl, hpre, hb, hb64, hblk, ha, hA⟩ := compress_full_log h hL (by omega)
      rw [if_neg h0]
      rw [List.length_append] at hc
      have ht : input.take (min (64 - b.length) input.length) = input.take (64 - b.length) := by
        rw [List.take_eq_take_iff]; omega
      have htl : (input.take (64 - b.length)).length = min (64 - b.length) input.length := List.length_take
      have hd : input.drop (min (64 - b.length) input.length) = input.drop (64 - b.length) := by
        by_cases h : 64 - b.length ≤ input.length
        · rw [Nat.min_eq_left h]
        · rw [Nat.min_eq_right (by omega), List.drop_of_length_le (by omega), List.drop_of_length_le (by omega)]
      have e2 : s1.fill input = .ok
          ({ s1 with block := Spec.pad (b ++ input.take (64 - b.length)), block_len := b.length + min (64 - b.length) input.length },
            min (64 - b.length) input.length) := by
        rw [Ref.ChunkState.fill]
        simp only [Ref.BLOCK_LEN]
        rw [← hb, subN, if_pos (by omega), bind_ok, hblk, ht, pad_toList b (by omega),
          writeAt_append _ _ _ _ rfl (by simp; omega), bind_ok, List.drop_replicate,
          show 64 - b.length - (input.take (64 - b.length)).length = 64 - (b ++ input.take (64 - b.length)).length by
            rw [List.length_append]; omega,
          arrayRef_pad _ (by simp; omega), bind_ok, addN, if_pos (by omega), bind_ok]
        rfl
      have hne : b ++ input.take (64 - b.length) ≠ [] := by
        intro h; have := congrArg List.length h; rw [List.length_append, List.length_nil, htl] at this; omega
      have hs2 : RefChunk key flags off (pre ++ (b ++ input.take (64 - b.length)))
          { s1 with block := Spec.pad (b ++ input.take (64 - b.length)), block_len := b.length + min (64 - b.length) input.length } := by
        refine ⟨hf, ho, pre, b ++ input.take (64 - b.length), rfl, hpre, ?_, ?_, Or.inr hne, rfl, ha⟩
        · rw [List.length_append, htl]
        · rw [List.length_append, htl]; omega
      have hcb : cb key flags off (pre ++ (b ++ input.take (64 - b.length))) = cb key flags off (pre ++ b) ++ l1 :=
        hA.end (by rw [List.length_append, htl]; omega) (Or.inr hne)
      have hL2 : RLog key flags off (pre ++ (b ++ input.take (64 - b.length)))
          { s1 with block := Spec.pad (b ++ input.take (64 - b.length)), block_len := b.length + min (64 - b.length) input.length } := by
        rw [RLog, List.take_left' hpre, hcb]
        exact hA
      obtain ⟨s', l', e', h', hL', hcb'⟩ := ih hs2 hL2 (input.drop (64 - b.length)) (by rw [List.length_drop]; omega)
        (by rw [List.length_append, List.length_append, htl, List.length_drop]; omega)
      refine ⟨s', l1 ++ l', ?_, ?_⟩
      · rw [List.map_append]
        refine rec_bind' e1 ?_
        rw [e2, lift_ok]
        dsimp only
        rw [hd, e']
      · rw [hcb, List.append_assoc, List.append_assoc, List.take_append_drop, ← List.append_assoc, List.append_assoc (cb _ _ _ _)] at hcb'
        rw [List.append_assoc, List.append_assoc, List.take_append_drop, ← List.append_assoc] at h' hL'
        exact ⟨h', hL', hcb'⟩

/-! ## Merging -/

variable (key : Vector Word 8) (flags : Byte)

theorem merge_loop_log (n : Nat) (hn : 1 ≤ n) : ∀ (T : List (Tree Spec.Input)) (x : Tree Spec.Input) (h : Ref.Hasher),
    h.key = key → h.chunk_state.flags = flags.setWidth 32 → h.subtree_stack = T.map (cvOf key flags) →
    ∃ (h' : Ref.Hasher) (T' : List (Tree Spec.Input)) (x' : Tree Spec.Input) (l : List Spec.Input), RefT.Hasher.merge_loop h (cvOf key flags x) n = ⟨.ok (h', cvOf key flags x'), l.map Spec.refCall⟩ ∧
      h' = { h with subtree_stack := T'.map (cvOf key flags) } ∧ mergeN (T.length + 1 - n) (x :: T) = x' :: T' ∧
      ∀ a, l.count a + cnt key flags (x :: T) a = cnt key flags (x' :: T') a := by
  intro T
  induction T with
  | nil =>
    intro x h hk hf hs
    rw [RefT.Hasher.merge_loop, if_neg (by rw [hs]; simp; omega)]
    refine ⟨h, [], x, [], rfl, ?_, ?_, fun a => by simp⟩
    · cases h; simp only at hs; rw [hs]
    · rw [show ([] : List (Tree Spec.Input)).length + 1 - n = 0 by simp; omega]; rfl
  | cons t T ih =>
    intro x h hk hf hs
    rw [RefT.Hasher.merge_loop]
    have hl : h.subtree_stack.length = T.length + 1 := by rw [hs]; simp
    by_cases hle : n ≤ T.length + 1
    · rw [if_pos (by omega)]
      have ep : h.pop_stack = .ok (cvOf key flags t, { h with subtree_stack := T.map (cvOf key flags) }) := by
        rw [Ref.Hasher.pop_stack, hs]; rfl
      split
      next e he => rw [ep] at he; cases he
      next left h' he =>
        rw [ep] at he
        cases he
        dsimp only
        rw [hk, hf]
        obtain ⟨h', T', x', l, e, e', em, hc⟩ := ih (.node t x)
          { chunk_state := h.chunk_state, key := key, subtree_stack := T.map (cvOf key flags) } rfl hf rfl
        refine ⟨h', T', x', [inp key flags (.node t x)] ++ l, ?_, ?_, ?_, ?_⟩
        · rw [List.map_append]
          exact rec_bind' (chaining_value_log (parent_output_eq key flags t x)) e
        · rw [e']
        · rw [List.length_cons, show T.length + 1 + 1 - n = T.length + 1 - n + 1 by omega, mergeN, merge1, em]
        · intro a
          have := hc a
          rw [cnt_cons, cnt_node] at this
          rw [cnt_cons, cnt_cons, List.count_append]
          omega
    · rw [if_neg (by omega)]
      refine ⟨h, t :: T, x, [], rfl, ?_, ?_, fun a => by simp⟩
      · cases h; simp only at hs; rw [hs]
      · rw [List.length_cons, show T.length + 1 + 1 - n = 0 by omega, mergeN]

theorem push_log {L : List (Tree Spec.Input)} {h : Ref.Hasher} (hs : RefStack key flags L h) (x : Tree Spec.Input)
    (hL : 2048 * (L.length + 1) < 2 ^ 64) :
    ∃ (h' : Ref.Hasher) (l : List Spec.Input), RefT.Hasher.push_chunk_chaining_value h (cvOf key flags x)
        (BitVec.ofNat 64 (2048 * (L.length + 1))) = ⟨.ok h', l.map Spec.refCall⟩ ∧
      RefStack key flags (L ++ [x]) h' ∧ h'.chunk_state = h.chunk_state ∧
      ∀ a, l.count a + (nodes key flags x).count a + cnt key flags (canon L) a = cnt key flags (canon (L ++ [x])) a := by
  have ht : (BitVec.ofNat 64 (2048 * (L.length + 1))).toNat = 2048 * (L.length + 1) := by
    rw [BitVec.toNat_ofNat, Nat.mod_eq_of_lt hL]
  have hpc := popcount_pos (n := L.length + 1) (by omega)
  obtain ⟨h', T', x', l, e, e', em, hcnt⟩ := merge_loop_log key flags (popcount (L.length + 1)) hpc (canon L) x h
    hs.hkey hs.hflags hs.stack
  obtain ⟨c1, c2⟩ := canon_push L x
  rw [em] at c2
  have hlen := congrArg List.length c2
  rw [length_canon, List.length_append, List.length_singleton, List.length_cons] at hlen
  have h53 := (popcount_le (n := L.length + 1) (k := 53) (by omega)).1
  rw [RefT.Hasher.push_chunk_chaining_value, ht, popcount_2048]
  dsimp only
  rw [rec_bind _ e]
  dsimp only
  subst e'
  rw [Ref.Hasher.push_stack, if_pos (by simp only [List.length_map]; omega)]
  refine ⟨_, l, congrArg (Rec.mk _) (List.append_nil _), ⟨hs.hkey, hs.hflags, ?_⟩, rfl, fun a => ?_⟩
  · rw [← c2]
    rfl
  · have := hcnt a
    rw [c2, cnt_cons] at this
    omega

/-- The hasher has received `bytes`, with the compressions `W`. -/
def RefWork (bytes : Bytes) (h : Ref.Hasher) (W : List Spec.Input) : Prop :=
  ∃ cks tail, bytes = cks.flatten ++ tail ∧ (∀ c ∈ cks, c.length = 2048) ∧ tail.length ≤ 2048 ∧ (cks = [] ∨ tail ≠ []) ∧
    RefChunk key flags (2048 * cks.length) tail h.chunk_state ∧ RLog key flags (2048 * cks.length) tail h.chunk_state ∧
    RefStack key flags (chunkLeaves key flags 0 cks) h ∧
    ∀ a, W.count a = (chunkPre key flags 0 cks).count a + (cb key flags (2048 * cks.length) tail).count a +
      cnt key flags (canon (chunkLeaves key flags 0 cks)) a

theorem RefWork.ok {bytes : Bytes} {h : Ref.Hasher} {W : List Spec.Input} (hw : RefWork key flags bytes h W) :
    RefOk key flags bytes h := by
  obtain ⟨cks, tail, e, h1, h2, h3, h4, -, h5, -⟩ := hw
  exact ⟨cks, tail, e, h1, h2, h3, h4, h5⟩

theorem RefWork.new : RefWork key flags [] (Ref.Hasher.new_internal key (flags.setWidth 32)) [] := by
  refine ⟨[], [], rfl, by simp, by simp, Or.inl rfl, RefChunk.new key flags 0, RLog.new, ⟨rfl, rfl, ?_⟩, fun a => ?_⟩
  · simp [chunkLeaves, canon_nil, Ref.Hasher.new_internal]
  · rw [cb_nil, chunkLeaves, canon_nil]; rfl

theorem update_loop_log (n : Nat) : ∀ {bytes : Bytes} {h : Ref.Hasher} {W : List Spec.Input}, RefWork key flags bytes h W →
    ∀ (input : Bytes), input.length ≤ n → bytes.length + input.length < 2 ^ 64 →
    ∃ (h' : Ref.Hasher) (l : List Spec.Input), RefT.Hasher.update_loop n h input = ⟨.ok h', l.map Spec.refCall⟩ ∧
      RefWork key flags (bytes ++ input) h' (W ++ l) := by
  induction n with
  | zero =>
    intro bytes h W hh input hn _
    have : input = [] := List.length_eq_zero_iff.1 (by omega)
    subst this
    exact ⟨h, [], rfl, by rwa [List.append_nil, List.append_nil]⟩
  | succ n ih =>
    intro bytes h W hh input hn hlt
    rw [RefT.Hasher.update_loop]
    by_cases h0 : input = []
    · subst h0
      exact ⟨h, [], rfl, by rwa [List.append_nil, List.append_nil]⟩
    · have hpos : 0 < input.length := List.length_pos_iff.2 h0
      obtain ⟨cks, tail, rfl, hcks, htail, hne, hch, hrl, hst, hW⟩ := hh
      have hfl := length_flatten cks hcks
      rw [List.length_append, hfl] at hlt
      rw [if_neg h0]
      -- after the first half of the loop body the tail is not full
      have key1 : ∃ (h1 : Ref.Hasher) (cks1 : List Bytes) (tail1 : Bytes) (l1 : List Spec.Input),
          RefT.Hasher.finish_chunk h = ⟨.ok h1, l1.map Spec.refCall⟩ ∧ cks.flatten ++ tail = cks1.flatten ++ tail1 ∧
          (∀ c ∈ cks1, c.length = 2048) ∧ tail1.length < 2048 ∧
          RefChunk key flags (2048 * cks1.length) tail1 h1.chunk_state ∧
          RLog key flags (2048 * cks1.length) tail1 h1.chunk_state ∧
          RefStack key flags (chunkLeaves key flags 0 cks1) h1 ∧
          ∀ a, (W ++ l1).count a = (chunkPre key flags 0 cks1).count a + (cb key flags (2048 * cks1.length) tail1).count a +
            cnt key flags (canon (chunkLeaves key flags 0 cks1)) a := by
        rw [RefT.Hasher.finish_chunk]
        simp only [Ref.CHUNK_LEN]
        rw [hch.len]
        by_cases hfull : tail.length = 2048
        · rw [if_pos hfull, hch.hoff, addU64_ofNat _ _ (by omega)]
          have hll := length_chunkLeaves key flags 0 cks
          obtain ⟨h1, l1, e1, hs1, hc1, hcnt⟩ := push_log key flags hst
            (.leaf (Spec.chunk key flags (2048 * cks.length) tail)) (by rw [hll]; omega)
          rw [hll, Nat.mul_add] at e1
          have hL : chunkLeaves key flags 0 cks ++ [.leaf (Spec.chunk key flags (2048 * cks.length) tail)] =
              chunkLeaves key flags 0 (cks ++ [tail]) := by
            rw [chunkLeaves_append, Nat.zero_add]; rfl
          rw [hL] at hs1 hcnt
          change RefT.Hasher.push_chunk_chaining_value h (Spec.compress (Spec.chunk key flags (2048 * cks.length) tail))
            (BitVec.ofNat 64 (2048 * cks.length + 2048)) = _ at e1
          rw [rec_bind _ (chaining_value_log hch.output), lift_ok, rec_bind _ e1, rec_pure, List.append_nil]
          refine ⟨_, cks ++ [tail], [], [Spec.chunk key flags (2048 * cks.length) tail] ++ l1,
            congrArg (Rec.mk _) List.map_append.symm, ?_, ?_, by simp, ?_, ?_, ?_, ?_⟩
          · simp
          · intro c hc
            rcases List.mem_append.1 hc with hc | hc
            · exact hcks c hc
            · rw [List.mem_singleton.1 hc]; exact hfull
          · dsimp only
            rw [hs1.hkey, hs1.hflags]
            have := RefChunk.new key flags (2048 * (cks ++ [tail]).length)
            rw [List.length_append, List.length_singleton, Nat.mul_add] at this ⊢
            exact this
          · dsimp only
            rw [hs1.hkey, hs1.hflags]
            have := RLog.new (key := key) (flags := flags) (off := 2048 * (cks ++ [tail]).length)
            rw [List.length_append, List.length_singleton, Nat.mul_add] at this ⊢
            exact this
          · refine ⟨hs1.hkey, ?_, hs1.stack⟩
            show h1.chunk_state.flags = _
            exact hs1.hflags
          · intro a
            have q1 := hW a
            have q2 := hcnt a
            rw [cb_nil, chunkPre_append, Nat.zero_add, chunkPre, chunkPre, List.append_nil]
            simp only [List.count_append, nodes, under, inp, List.nil_append, List.count_nil] at q1 q2 ⊢
            omega
        · rw [if_neg hfull]
          exact ⟨h, cks, tail, [], rfl, rfl, hcks, by omega, hch, hrl, hst, by rwa [List.append_nil]⟩
      obtain ⟨h1, cks1, tail1, l1, e1, eb, hcks1, ht1, hch1, hrl1, hst1, hW1⟩ := key1
      have hfl1 := length_flatten cks1 hcks1
      have hlb := congrArg List.length eb
      rw [List.length_append, List.length_append, hfl, hfl1] at hlb
      rw [rec_bind _ e1]
      simp only [Ref.CHUNK_LEN]
      rw [hch1.len, subN, if_pos (by omega), lift_ok]
      have htl : (input.take (min (2048 - tail1.length) input.length)).length = min (2048 - tail1.length) input.length := by
        rw [List.length_take]; omega
      obtain ⟨s', l2, e2, hs', hrl2, hcb⟩ := chunk_update_loop_log _ hch1 hrl1
        (input.take (min (2048 - tail1.length) input.length)) (Nat.le_refl _) (by omega)
      rw [eb]
      have hok : RefWork key flags (cks1.flatten ++ (tail1 ++ input.take (min (2048 - tail1.length) input.length)))
          { h1 with chunk_state := s' } (W ++ l1 ++ l2) := by
        refine ⟨cks1, _, rfl, hcks1, ?_, Or.inr ?_, hs', hrl2, ⟨hst1.hkey, ?_, hst1.stack⟩, fun a => ?_⟩
        · rw [List.length_append]; omega
        · intro h; have := congrArg List.length h; rw [List.length_append, List.length_nil] at this; omega
        · exact hs'.hflags
        · have q := hW1 a
          rw [hcb]
          simp only [List.count_append] at q ⊢
          omega
      obtain ⟨h', l3, e', hok'⟩ := ih hok (input.drop (min (2048 - tail1.length) input.length))
        (by rw [List.length_drop]; omega)
        (by rw [List.length_append, List.length_append, List.length_drop, hfl1]; omega)
      refine ⟨h', l1 ++ (l2 ++ l3), ?_, ?_⟩
      · rw [RefT.ChunkState.update, rec_bind _ e2, e', List.map_append, List.map_append]
      · rw [List.append_assoc cks1.flatten, List.append_assoc tail1, List.take_append_drop, ← List.append_assoc cks1.flatten,
          List.append_assoc (W ++ l1), List.append_assoc W] at hok'
        exact hok'

/-! ## finalize -/

theorem finalize_loop_log (h : Ref.Hasher) (hk : h.key = key) (hf : h.chunk_state.flags = flags.setWidth 32)
    (S : List (Tree Spec.Input)) : ∀ (x : Tree Spec.Input) (o : Ref.Output), RefOut o (inp key flags x) →
    ∃ (o' : Ref.Output) (l : List Spec.Input),
      RefT.Hasher.finalize_loop h o (S.map (cvOf key flags)) = ⟨.ok o', l.map Spec.refCall⟩ ∧
      RefOut o' (inp key flags (foldStack x S)) ∧
      ∀ a, l.count a + (under key flags x).count a + cnt key flags S a = (under key flags (foldStack x S)).count a := by
  induction S with
  | nil => intro x o ho; exact ⟨o, [], rfl, ho, fun a => by simp [foldStack, cnt]⟩
  | cons s S ih =>
    intro x o ho
    obtain ⟨o', l, e, ho', c⟩ := ih (.node s x) (Ref.parent_output (cvOf key flags s) (cvOf key flags x) key (flags.setWidth 32))
      (parent_output_eq key flags s x)
    refine ⟨o', [inp key flags x] ++ l, ?_, ho', fun a => ?_⟩
    · rw [List.map_cons, RefT.Hasher.finalize_loop, hk, hf, List.map_append]
      exact rec_bind' (chaining_value_log ho) e
    · have q := c a
      rw [under_node, List.count_append, nodes, nodes, List.count_append, List.count_append] at q
      rw [foldStack, ← q, cnt_cons key flags s, nodes, List.count_append, List.count_append]
      omega

theorem RefWork.finalize_log {bytes : Bytes} {h : Ref.Hasher} {W : List Spec.Input} (hw : RefWork key flags bytes h W) :
    ∃ (o : Ref.Output) (l : List Spec.Input), RefT.Hasher.finalize_loop h h.chunk_state.output h.subtree_stack =
        ⟨.ok o, l.map Spec.refCall⟩ ∧
      RefOut o (Spec.subtree key flags 0 bytes) ∧ (W ++ l).Perm (Spec.below key flags 0 bytes) := by
  have hroot := RefOk.root key flags (hw.ok key flags)
  obtain ⟨cks, tail, rfl, hcks, htail, hne, hch, hrl, hst, hW⟩ := hw
  have hfl := length_flatten cks hcks
  obtain ⟨o, l, e, ho, hc⟩ := finalize_loop_log key flags h hst.hkey hst.hflags (canon (chunkLeaves key flags 0 cks))
    (.leaf (Spec.chunk key flags (2048 * cks.length) tail)) _ hch.output
  rw [← hst.stack] at e
  have eo : h.finalize_loop h.chunk_state.output h.subtree_stack = o := by
    have := Ref.finalize_loop_res h h.subtree_stack h.chunk_state.output
    rw [e] at this
    exact (Except.ok.inj this).symm
  refine ⟨o, l, e, eo ▸ hroot, List.Perm.trans ?_ (below_perm key flags 0 (cks.flatten ++ tail)).symm⟩
  rw [List.perm_iff_count]
  intro a
  have q := hc a
  have qW := hW a
  rw [fold_canon] at q
  simp only [under, List.count_nil] at q
  by_cases h1 : cks = []
  · subst h1
    rw [List.flatten_nil, List.nil_append, leaves, dif_pos htail, pre, dif_pos htail]
    simp only [chunkLeaves, List.nil_append, List.length_nil, Nat.mul_zero, chunkPre, List.count_nil] at q qW ⊢
    rw [List.count_append, List.count_append, qW, cb]
    omega
  · have h0 : tail ≠ [] := by
      rcases hne with h | h
      · exact absurd h h1
      · exact h
    have hpos : 0 < cks.length := List.length_pos_iff.2 h1
    rw [leaves_append key flags 0 cks.flatten tail (cks.length - 1) (by rw [hfl]; congr 1; omega) h0,
      leaves_flatten key flags 0 cks hcks h1, leaves.eq_def _ _ _ tail, dif_pos htail, Nat.zero_add, hfl,
      leaves_pre key flags 0 cks tail hcks htail h0, Nat.zero_add, List.count_append, List.count_append, List.count_append]
    omega

end Baokeshed.Proofs.RT
