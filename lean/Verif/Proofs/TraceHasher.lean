import Verif.Proofs.Trace
import Verif.Proofs.World

/-! # The compressions `Hasher` performs -/

set_option linter.unusedVariables false
set_option linter.unusedSimpArgs false

namespace Baokeshed.Proofs
open Baokeshed.Model Baokeshed.Model.T Baokeshed.Proofs.T

attribute [local irreducible] Spec.compress Spec.outBytes Spec.cvBytes Spec.pad

/-! ## ChunkState -/

section
variable (key : Vector Word 8) (flags : Byte)

/-- the compressions of a chunk before the last one -/
def cb (off : Nat) (c : Bytes) : List Spec.Input := Spec.chunkBefore flags off key (flags ||| Spec.chunkStart) c

/-- absorbing the whole blocks `pre` of a chunk takes the compressions `A` and gives `cv` -/
def AbsL (off : Nat) (cv : Vector Word 8) (pre : Bytes) (A : List Spec.Input) : Prop :=
  ∀ rest, (pre = [] ∨ rest ≠ []) → cb key flags off (pre ++ rest) =
    A ++ Spec.chunkBefore flags off cv (flags ||| if pre.length = 0 then Spec.chunkStart else 0) rest

variable {key flags}

theorem AbsL.nil (off : Nat) : AbsL key flags off key [] [] := by
  intro rest _
  simp [cb]

theorem AbsL.step {off : Nat} {cv : Vector Word 8} {pre : Bytes} {A : List Spec.Input}
    (h : AbsL key flags off cv pre A) (b : Bytes) (hb : b.length = 64) (n : Spec.Input)
    (hn : n = ⟨cv, Spec.pad b, 64, BitVec.ofNat 64 off, flags ||| if pre.length = 0 then Spec.chunkStart else 0⟩) :
    AbsL key flags off (Spec.compress n) (pre ++ b) (A ++ [n]) := by
  intro rest hr
  have hr' : rest ≠ [] := by
    rcases hr with h | h
    · have := congrArg List.length h; rw [List.length_append, List.length_nil] at this; omega
    · exact h
  have hrl : 0 < rest.length := List.length_pos_iff.2 hr'
  rw [List.append_assoc, h (b ++ rest) (Or.inr (by intro h; have := congrArg List.length h; rw [List.length_append, List.length_nil] at this; omega)),
    Spec.chunkBefore, dif_neg (by rw [List.length_append]; omega), List.take_left' hb, List.drop_left' hb,
    if_neg (c := List.length (pre ++ b) = 0) (by rw [List.length_append]; omega), or_zero8, hn,
    List.append_assoc]
  rfl

theorem AbsL.end {off : Nat} {cv : Vector Word 8} {pre b : Bytes} {A : List Spec.Input}
    (h : AbsL key flags off cv pre A) (hb : b.length ≤ 64) (hpb : pre = [] ∨ b ≠ []) :
    cb key flags off (pre ++ b) = A := by
  rw [h b hpb, Spec.chunkBefore, dif_pos hb, List.append_nil]

/-- the chaining value comes from the compressions of the whole blocks -/
def ChunkLog (key : Vector Word 8) (flags : Byte) (off : Nat) (c : Bytes) (s : ChunkState) : Prop :=
  AbsL key flags off s.cv (c.take s.count) (cb key flags off c)

theorem update_blocks_log {p off} (s : ChunkState) (hk : s.key = key) (hf : s.flags = flags)
    (hp : s.platform = p) (ho : s.offset = BitVec.ofNat 64 off) (pre input : Bytes) (hc : pre.length = s.count)
    (hm : pre.length % 64 = 0) (hbl : s.buf_len = 0) (ha : Absorbed key flags off s.cv pre) (A : List Spec.Input)
    (hA : AbsL key flags off s.cv pre A)
    (hlen : pre.length + input.length ≤ 2048) :
    ∃ s' pre' rest l, T.ChunkState.update_blocks s input = ⟨.ok (s', rest), l⟩ ∧ pre' ++ rest = pre ++ input ∧
      pre'.length = s'.count ∧ pre'.length % 64 = 0 ∧ s'.buf_len = 0 ∧ Absorbed key flags off s'.cv pre' ∧
      s'.buf = s.buf ∧ s'.key = key ∧ s'.flags = flags ∧ s'.platform = p ∧ s'.offset = BitVec.ofNat 64 off ∧
      rest.length ≤ 64 ∧ (input ≠ [] → rest ≠ []) ∧ (input = [] → pre' = pre) ∧
      AbsL key flags off s'.cv pre' (A ++ l) := by
  induction hn : input.length using Nat.strongRecOn generalizing s pre input A with
  | ind n ih =>
  rw [T.ChunkState.update_blocks]
  split
  next h =>
    simp only [BLOCK_LEN] at h ⊢
    have hne : input.drop 64 ≠ [] := by intro h; have := congrArg List.length h; simp at this; omega
    obtain ⟨s', pre', rest, l, h1, h2, h3, h4, h5, h6, h7, h8, h9, h10, h11, h12, h13, h14, h15⟩ :=
      ih (input.length - 64) (by omega)
        { s with cv := _, count := s.count + 64 } hk hf hp ho (pre ++ input.take 64) (input.drop 64)
        (by simp; omega) (by simp; omega) hbl (ha.step (input.take 64) (by simp; omega))
        _ (hA.step (input.take 64) (by simp; omega) _ rfl) (by simp; omega) (by simp)
    refine ⟨s', pre', rest, _, ?_, ?_, h3, h4, h5, h6, h7, h8, h9, h10, h11, h12, fun _ => h13 hne, ?_,
      List.append_assoc _ _ _ ▸ h15⟩
    · rw [assertR, if_pos hbl, lift_ok, arrayRef_block _ _ (by omega), lift_ok, tr_bind _ (tr_eq (compress_res ..)),
        List.drop_zero, ← pad_take, compress_eq_absorb hp hf ho pre (input.take 64) hc, addN, if_pos (by omega),
        lift_ok, h1]
      simp only [T.compress, hf, ho, ChunkState.maybe_chunk_start_flag, ← hc]
      rfl
    · rw [h2, List.append_assoc, List.take_append_drop]
    · intro h0; rw [h0] at h; simp at h
  next h =>
    simp only [BLOCK_LEN] at h
    exact ⟨s, pre, input, [], rfl, rfl, hc, hm, hbl, ha, rfl, hk, hf, hp, ho, by omega, id, fun _ => rfl,
      by rwa [List.append_nil]⟩

/-- `ChunkState::update` -/
theorem chunk_update_log {p off c s} (h : ChunkOk key flags p off c s) (hL : ChunkLog key flags off c s) (input : Bytes)
    (hlen : c.length + input.length ≤ 2048) :
    ∃ s' l, T.ChunkState.update s input = ⟨.ok s', l⟩ ∧ ChunkOk key flags p off (c ++ input) s' ∧
      ChunkLog key flags off (c ++ input) s' ∧ cb key flags off (c ++ input) = cb key flags off c ++ l := by
  obtain ⟨pre, b, rfl, hc, hm, hbl, hb64, hpb, hbuf, ha⟩ := h.split
  rw [ChunkLog, List.take_left' hc] at hL
  have hcb := hL.end hb64 hpb
  rw [List.length_append] at hlen
  -- after the last fill
  have fin : ∀ (s1 : ChunkState) (pre b rest : Bytes) (A : List Spec.Input), s1.key = key → s1.flags = flags → s1.platform = p →
      s1.offset = BitVec.ofNat 64 off → pre.length = s1.count → pre.length % 64 = 0 → b.length = s1.buf_len →
      s1.buf = Spec.pad b → Absorbed key flags off s1.cv pre → AbsL key flags off s1.cv pre A → b.length + rest.length ≤ 64 →
      (pre = [] ∨ b ++ rest ≠ []) → pre.length + b.length + rest.length ≤ 2048 →
      ∃ s', (do let (s, input) ← s1.fill_buf rest; assertR (input = []); assertR (s.len ≤ CHUNK_LEN); return s) =
        (⟨Except.ok s', []⟩ : TR ChunkState) ∧ ChunkOk key flags p off (pre ++ (b ++ rest)) s' ∧
        ChunkLog key flags off (pre ++ (b ++ rest)) s' ∧ cb key flags off (pre ++ (b ++ rest)) = A := by
    intro s1 pre b rest A hk hf hp ho hc hm hbl hbuf ha hA hle hne hlen
    have hcb : cb key flags off (pre ++ (b ++ rest)) = A := hA.end (by rw [List.length_append]; omega) hne
    rw [fill_buf_eq s1 b rest hbl (by omega) hbuf, lift_ok]
    dsimp only
    rw [assertR, if_pos (List.drop_of_length_le (by omega)), lift_ok, assertR, if_pos (by
      simp only [ChunkState.len, CHUNK_LEN]; omega), lift_ok]
    refine ⟨_, rfl, ⟨hk, hf, hp, ho, pre, b ++ rest, rfl, hc, hm, ?_, ?_, hne, ?_, ha⟩, ?_, hcb⟩
    · rw [List.length_append]; show _ = b.length + _; omega
    · rw [List.length_append]; omega
    · rw [List.take_of_length_le (by omega)]
    · rw [ChunkLog, List.take_left' hc, hcb]
      exact hA
  rw [T.ChunkState.update, T.ChunkState.update_first]
  by_cases h0 : 0 < s.buf_len
  · rw [if_pos h0, fill_buf_eq s b input hbl hb64 hbuf, lift_ok]
    dsimp only
    by_cases h1 : input.length ≤ 64 - b.length
    · -- everything fits in the buffer
      have hd : input.drop (64 - b.length) = [] := List.drop_of_length_le (by omega)
      have hne : b ++ input ≠ [] := by
        intro h; have := congrArg List.length h; rw [List.length_append, List.length_nil] at this; omega
      rw [hd, if_neg (by simp), tr_bind _ (show pure _ = _ from rfl)]
      dsimp only
      rw [T.ChunkState.update_blocks, dif_neg (by simp [BLOCK_LEN]), tr_bind _ (show pure _ = _ from rfl)]
      dsimp only
      obtain ⟨s', e, hs', hl', hcb'⟩ := fin { s with
        buf := Spec.pad (b ++ input.take (64 - b.length)),
        buf_len := b.length + min (64 - b.length) input.length } pre (b ++ input) [] _ h.hkey h.hflags h.hplat h.hoff hc hm
        (by rw [List.length_append]; show _ = b.length + _; omega)
        (by rw [List.take_of_length_le h1]) ha hL (by simp; omega) (Or.inr (by simpa using hne))
        (by simp; omega)
      rw [List.append_nil, ← List.append_assoc] at hs' hl' hcb'
      refine ⟨s', [], ?_, hs', hl', by rw [hcb', List.append_nil]⟩
      rw [e]; rfl
    · have htl : (input.take (64 - b.length)).length = 64 - b.length := by simp; omega
      have hd : input.drop (64 - b.length) ≠ [] := by
        intro h; have := congrArg List.length h; simp at this; omega
      rw [if_pos (by simpa using hd), assertR, if_pos (by simp only [BLOCK_LEN]; omega), lift_ok]
      simp only [BLOCK_LEN]
      have hab := compress_eq_absorb h.hplat h.hflags h.hoff pre (b ++ input.take (64 - b.length)) hc
      have hms : ChunkState.maybe_chunk_start_flag { s with
        buf := Spec.pad (b ++ input.take (64 - b.length)),
        buf_len := b.length + min (64 - b.length) input.length } = s.maybe_chunk_start_flag := rfl
      obtain ⟨s', pre', rest, l, h1, h2, h3, h4, h5, h6, h7, h8, h9, h10, h11, h12, h13, h14, h15⟩ :=
        update_blocks_log { s with cv := _, count := s.count + 64, buf_len := 0, buf := Vector.replicate 64 0 }
          h.hkey h.hflags h.hplat h.hoff (pre ++ (b ++ input.take (64 - b.length))) (input.drop (64 - b.length))
          (by simp; omega) (by simp; omega) rfl
          (ha.step (b ++ input.take (64 - b.length)) (by rw [List.length_append]; omega)) _
          (hL.step (b ++ input.take (64 - b.length)) (by rw [List.length_append]; omega) _ rfl)
          (by simp; omega)
      have hl := congrArg List.length h2
      simp only [List.length_append, List.length_take, List.length_drop] at hl
      obtain ⟨s'', e, hs', hl', hcb'⟩ := fin s' pre' [] rest _ h8 h9 h10 h11 h3 h4 (by rw [h5]; rfl) (by rw [h7]; exact replicate_pad) h6 h15
        (by simpa using h12) (Or.inr (by simpa using h13 hd)) (by simp; omega)
      rw [List.nil_append, h2, List.append_assoc, List.append_assoc, List.take_append_drop, ← List.append_assoc] at hs' hl' hcb'
      refine ⟨s'', _, ?_, hs', hl', by rw [hcb', List.append_assoc]⟩
      rw [tr_bind _ (tr_eq (compress_res ..)), hms, hab, addN, if_pos (by omega), lift_ok,
        res_pure, log_pure, tr_bind _ (show _ = _ from rfl)]
      dsimp only
      rw [tr_bind _ h1]
      dsimp only
      rw [e]
      simp only [T.compress, h.hflags, h.hoff, ChunkState.maybe_chunk_start_flag, ← hc]
      simp
      rfl
  · have hb0 : b = [] := List.length_eq_zero_iff.1 (by omega)
    subst hb0
    have hpre : pre = [] := by rcases hpb with h | h; exact h; exact absurd rfl h
    subst hpre
    obtain ⟨s', pre', rest, l, h1, h2, h3, h4, h5, h6, h7, h8, h9, h10, h11, h12, h13, h14, h15⟩ :=
      update_blocks_log s h.hkey h.hflags h.hplat h.hoff [] input hc hm (by omega) ha _ hL (by simpa using hlen)
    have hl := congrArg List.length h2
    simp only [List.length_append, List.length_nil] at hl
    simp only [List.length_nil] at hlen
    obtain ⟨s'', e, hs', hl', hcb'⟩ := fin s' pre' [] rest _ h8 h9 h10 h11 h3 h4 (by rw [h5]; rfl) (by rw [h7]; exact hbuf) h6 h15
      (by simpa using h12) (by
        by_cases hi : input = []
        · exact Or.inl (h14 hi)
        · exact Or.inr (by simpa using h13 hi)) (by simp; omega)
    rw [List.nil_append, h2] at hs' hl' hcb'
    refine ⟨s'', l, ?_, hs', hl', hcb'⟩
    rw [if_neg h0, tr_bind _ (show pure _ = _ from rfl)]
    dsimp only
    rw [tr_bind _ h1]
    dsimp only
    rw [e, List.append_nil]
    rfl

end

/-! ## Merging -/

section
variable (key : Vector Word 8) (flags : Byte)

/-- the compressions of the trees of a list -/
def cnt (S : List (Tree Spec.Input)) (a : Spec.Input) : Nat := (S.flatMap (nodes key flags)).count a

theorem cnt_cons (t : Tree Spec.Input) (S : List (Tree Spec.Input)) (a : Spec.Input) :
    cnt key flags (t :: S) a = (nodes key flags t).count a + cnt key flags S a := by
  rw [cnt, List.flatMap_cons, List.count_append]; rfl

theorem cnt_append (S S' : List (Tree Spec.Input)) (a : Spec.Input) :
    cnt key flags (S ++ S') a = cnt key flags S a + cnt key flags S' a := by
  rw [cnt, List.flatMap_append, List.count_append]; rfl

theorem cnt_node (l r : Tree Spec.Input) (a : Spec.Input) :
    (nodes key flags (.node l r)).count a =
      (nodes key flags l).count a + (nodes key flags r).count a + [inp key flags (.node l r)].count a := by
  rw [nodes, under_node, List.count_append, List.count_append]

theorem merge_loop_log (h : Hasher) (off : U64) (S : List (Tree Spec.Input)) (hk : h.chunk.key = key)
    (hf : h.chunk.flags = flags) (hs : h.subtree_hashes = S.map (hashOf key flags))
    (hw : 1 ≤ popcount (off.toNat / 2048) ∨ S = []) (a : Spec.Input) :
    (T.Hasher.merge_loop h off).log.count a + cnt key flags S a =
      cnt key flags (mergeN (S.length - popcount (off.toNat / 2048)) S) a := by
  induction hn : S.length using Nat.strongRecOn generalizing S h with
  | ind n ih =>
  rw [T.Hasher.merge_loop]
  have hl : h.subtree_hashes.length = S.length := by rw [hs, List.length_map]
  by_cases hm : popcount (off.toNat / 2048) < S.length
  · have hw' : 1 ≤ popcount (off.toNat / 2048) := by
      rcases hw with h | h
      · exact h
      · rw [h] at hm; simp at hm
    rw [if_pos (by simp only [Hasher.needs_merge, CHUNK_LEN, decide_eq_true_eq]; omega)]
    match S, hn, hm, hs, hw with
    | [], _, hm, _, _ => simp at hm
    | [_], _, hm, _, _ => simp at hm; omega
    | r :: l :: rest, hn, hm, hs, hw =>
      have e : h.merge_parent = .ok { h with subtree_hashes := (merge1 (r :: l :: rest)).map (hashOf key flags) } := by
        rw [Model.Hasher.merge_parent, hs]
        simp only [List.map_cons, merge1, hk, hf, hash_one_parent_hash]
      have hlog : (T.Hasher.merge_parent h).log = [inp key flags (.node l r)] := by
        rw [T.Hasher.merge_parent, hs]
        simp only [List.map_cons]
        rw [log_bind _ (to_hash_res _), log_pure, List.append_nil, to_hash_log, hk, hf]
        simp only [toInput, hash_one_parent, IsRoot.flag, or_zero8]
        rfl
      have hl1 : (merge1 (r :: l :: rest)).length = (r :: l :: rest).length - 1 := length_merge1 _ (by simp)
      simp only [List.length_cons] at hn hl1 hm
      have hT : n - popcount (off.toNat / 2048) =
          (merge1 (r :: l :: rest)).length - popcount (off.toNat / 2048) + 1 := by omega
      rw [hT, mergeN]
      have e0 := (T.Hasher.merge_parent_res h).trans e
      split
      next e' he => rw [e0] at he; cases he
      next h' he =>
        rw [e0] at he
        cases he
        have q := ih (merge1 (r :: l :: rest)).length (by omega)
          { h with subtree_hashes := (merge1 (r :: l :: rest)).map (hashOf key flags) } (merge1 (r :: l :: rest))
          hk hf rfl (Or.inl hw') rfl
        rw [merge1] at q ⊢
        rw [cnt_cons, cnt_node] at q
        rw [cnt_cons, cnt_cons, hlog, List.count_append]
        omega
  · rw [if_neg (by simp only [Hasher.needs_merge, CHUNK_LEN, decide_eq_true_eq]; omega),
      show n - popcount (off.toNat / 2048) = 0 by omega, mergeN, log_pure, List.count_nil, Nat.zero_add]

/-- the trees in the stack -/
def StackT (L S : List (Tree Spec.Input)) : Prop :=
  S = canon L ∨ ∃ init last, L = init ++ [last] ∧ S = last :: canon init

theorem StackT.ok {L S : List (Tree Spec.Input)} {H : List (Vector Byte 32)} (h : StackT L S)
    (hH : H = S.map (hashOf key flags)) : StackOk key flags L H := by
  rcases h with rfl | ⟨init, last, rfl, rfl⟩
  · exact Or.inl hH
  · exact Or.inr ⟨init, last, rfl, hH⟩

theorem merge_to_canon_log (h : Hasher) (n : Nat) (L S : List (Tree Spec.Input)) (hk : h.chunk.key = key)
    (hf : h.chunk.flags = flags) (hs : StackT L S) (hH : h.subtree_hashes = S.map (hashOf key flags))
    (hL : L.length = n) (hn : 2048 * n < 2 ^ 64) :
    ∃ l, T.Hasher.merge_loop h (BitVec.ofNat 64 (2048 * n)) =
      ⟨.ok { h with subtree_hashes := (canon L).map (hashOf key flags) }, l⟩ ∧
      ∀ a, l.count a + cnt key flags S a = cnt key flags (canon L) a := by
  refine ⟨_, tr_eq ((merge_loop_res ..).trans
    (merge_to_canon key flags h n L hk hf (hs.ok key flags hH) hL hn)), fun a => ?_⟩
  have hd : (BitVec.ofNat 64 (2048 * n)).toNat / 2048 = n := by
    rw [BitVec.toNat_ofNat, Nat.mod_eq_of_lt hn]; omega
  rcases hs with rfl | ⟨init, last, rfl, rfl⟩
  · by_cases h0 : L = []
    · subst h0
      rw [merge_loop_log key flags h _ (canon []) hk hf hH (Or.inr canon_nil), canon_nil]
      simp [mergeN]
    · have : 0 < n := by rw [← hL]; exact List.length_pos_iff.2 h0
      rw [merge_loop_log key flags h _ (canon L) hk hf hH (Or.inl (by rw [hd]; exact popcount_pos this)), hd,
        length_canon, hL, Nat.sub_self, mergeN]
  · have hn1 : init.length + 1 = n := by rw [← hL]; simp
    rw [merge_loop_log key flags h _ (last :: canon init) hk hf hH
      (Or.inl (by rw [hd]; exact popcount_pos (by omega))), hd, ← hn1, List.length_cons, (canon_push init last).2]

theorem push_chunk_hash_log (h : Hasher) (n : Nat) (L S : List (Tree Spec.Input)) (x : Tree Spec.Input)
    (hk : h.chunk.key = key) (hf : h.chunk.flags = flags) (hs : StackT L S)
    (hH : h.subtree_hashes = S.map (hashOf key flags))
    (hL : L.length = n) (hn : 2048 * (n + 1) < 2 ^ 64) :
    ∃ l, T.Hasher.push_chunk_hash h (hashOf key flags x) (BitVec.ofNat 64 (2048 * n)) =
        ⟨.ok { h with subtree_hashes := (x :: canon L).map (hashOf key flags) }, l⟩ ∧
      ∀ a, l.count a + cnt key flags S a = cnt key flags (canon L) a := by
  obtain ⟨l, e, c⟩ := merge_to_canon_log key flags h n L S hk hf hs hH hL (by omega)
  refine ⟨l, ?_, c⟩
  rw [T.Hasher.push_chunk_hash, tr_bind _ e]
  have := popcount_53 (n := n) (by omega)
  rw [if_pos (by simp only [List.length_map, length_canon, hL, MAX_DEPTH]; omega), res_pure, log_pure, List.append_nil]
  rfl

/-! ## The invariant -/

/-- the compressions of whole chunks, except the last of every chunk -/
def chunkPre (off : Nat) : List Bytes → List Spec.Input
  | [] => []
  | c :: cs => cb key flags off c ++ chunkPre (off + 2048) cs

theorem chunkPre_append (off : Nat) (x y : List Bytes) :
    chunkPre key flags off (x ++ y) = chunkPre key flags off x ++ chunkPre key flags (off + 2048 * x.length) y := by
  induction x generalizing off with
  | nil => simp [chunkPre]
  | cons c x ih =>
    simp only [List.cons_append, chunkPre, ih, List.length_cons, List.append_assoc]
    rw [show off + 2048 + 2048 * x.length = off + 2048 * (x.length + 1) by omega]

theorem chunkCalls_count (off : Nat) (cs : List Bytes) (a : Spec.Input) :
    (chunkCalls key flags off cs).count a =
      (chunkPre key flags off cs).count a + cnt key flags (chunkLeaves key flags off cs) a := by
  induction cs generalizing off with
  | nil => rfl
  | cons c cs ih =>
    have := ih (off + 2048)
    simp only [chunkCalls, chunkPre, chunkLeaves, cnt_cons, List.count_append, nodes, under, inp, List.nil_append, cb]
    omega

/-- Between chunks, `S` the trees in the stack and `W` the compressions so far. -/
structure WMid (p : Platform) (cks : List Bytes) (h : Hasher) (S : List (Tree Spec.Input)) (W : List Spec.Input) :
    Prop where
  len : ∀ c ∈ cks, c.length = 2048
  chunk : ChunkOk key flags p (2048 * cks.length) [] h.chunk
  stack : StackT (chunkLeaves key flags 0 cks) S
  hashes : h.subtree_hashes = S.map (hashOf key flags)
  work : ∀ a, W.count a = (chunkPre key flags 0 cks).count a + cnt key flags S a

theorem ChunkLog.empty {p : Platform} {off : Nat} {s : ChunkState} (h : ChunkOk key flags p off [] s) :
    ChunkLog key flags off [] s := by
  obtain ⟨pre, b, e, hc, hm, hbl, hb64, hpb, hbuf, ha⟩ := h.split
  obtain ⟨rfl, rfl⟩ := List.append_eq_nil_iff.1 e.symm
  rw [ChunkLog, ha.1 rfl, List.take_nil, cb, Spec.chunkBefore, dif_pos (by simp)]
  exact AbsL.nil off

/-- After receiving `bytes`, with the compressions `W`. -/
def Work (p : Platform) (bytes : Bytes) (h : Hasher) (W : List Spec.Input) : Prop :=
  ∃ cks tail S, bytes = cks.flatten ++ tail ∧ (∀ c ∈ cks, c.length = 2048) ∧ tail.length ≤ 2048 ∧
    ChunkOk key flags p (2048 * cks.length) tail h.chunk ∧ ChunkLog key flags (2048 * cks.length) tail h.chunk ∧
    h.subtree_hashes = S.map (hashOf key flags) ∧
    (((tail ≠ [] ∨ cks = []) ∧ S = canon (chunkLeaves key flags 0 cks)) ∨
     (tail = [] ∧ 2 ≤ cks.length ∧ ∃ init last, chunkLeaves key flags 0 cks = init ++ [last] ∧ S = last :: canon init)) ∧
    ∀ a, W.count a = (chunkPre key flags 0 cks).count a + (cb key flags (2048 * cks.length) tail).count a +
      cnt key flags S a

theorem cb_nil (off : Nat) : cb key flags off [] = [] := by
  rw [cb, Spec.chunkBefore, dif_pos (by simp)]

theorem Work.new (cfg : Config) : Work key flags (Platform.detect cfg) [] (Hasher.new_internal cfg key flags) [] := by
  have hc := ChunkOk.fresh key flags (Platform.detect cfg) 0
  refine ⟨[], [], [], rfl, by simp, by simp, hc, ChunkLog.empty key flags hc, rfl, Or.inl ⟨Or.inr rfl, ?_⟩, ?_⟩
  · simp [chunkLeaves, canon_nil]
  · intro a; rw [cb_nil]; rfl

/-! ## update -/

theorem push_hashes_log (p : Platform) (new : List Bytes) : ∀ (cks : List Bytes) (h : Hasher)
    (S : List (Tree Spec.Input)) (W : List Spec.Input),
    WMid key flags p cks h S W → (∀ c ∈ new, c.length = 2048) → 2048 * (cks.length + new.length) < 2 ^ 64 →
    ∃ h' S' l, T.Hasher.push_hashes ((chunkLeaves key flags (2048 * cks.length) new).map
        fun t => (hashOf key flags t).toList) h = ⟨.ok h', l⟩ ∧
      (∀ W', (∀ a, W'.count a = W.count a + (chunkCalls key flags (2048 * cks.length) new).count a) →
        WMid key flags p (cks ++ new) h' S' (W' ++ l)) ∧
      (new ≠ [] → ∃ init last, chunkLeaves key flags 0 (cks ++ new) = init ++ [last] ∧ S' = last :: canon init) ∧
      (new = [] → h' = h ∧ S' = S ∧ l = []) := by
  induction new with
  | nil =>
    intro cks h S W hm _ _
    refine ⟨h, S, [], rfl, ?_, fun h => absurd rfl h, fun _ => ⟨rfl, rfl, rfl⟩⟩
    intro W' hW'
    rw [List.append_nil, List.append_nil]
    refine ⟨hm.len, hm.chunk, hm.stack, hm.hashes, fun a => ?_⟩
    rw [hW' a, ← hm.work a]; rfl
  | cons c new ih =>
    intro cks h S W hm hnew hlt
    rw [List.length_cons] at hlt
    obtain ⟨l1, e, c1⟩ := push_chunk_hash_log key flags h cks.length (chunkLeaves key flags 0 cks) S
      (.leaf (Spec.chunk key flags (2048 * cks.length) c)) hm.chunk.hkey hm.chunk.hflags hm.stack hm.hashes
      (length_chunkLeaves ..) (by omega)
    have hL : chunkLeaves key flags 0 cks ++ [.leaf (Spec.chunk key flags (2048 * cks.length) c)] =
        chunkLeaves key flags 0 (cks ++ [c]) := by
      rw [chunkLeaves_append, Nat.zero_add]; rfl
    have hm' : ∀ W', (∀ a, W'.count a = W.count a + l1.count a +
          (chunkCalls key flags (2048 * cks.length) [c]).count a) →
        WMid key flags p (cks ++ [c]) { h with
        subtree_hashes := (.leaf (Spec.chunk key flags (2048 * cks.length) c) ::
          canon (chunkLeaves key flags 0 cks)).map (hashOf key flags),
        chunk := { h.chunk with offset := BitVec.ofNat 64 (2048 * cks.length + 2048) } }
        (.leaf (Spec.chunk key flags (2048 * cks.length) c) :: canon (chunkLeaves key flags 0 cks)) W' := by
      intro W' hW'
      refine ⟨?_, ?_, Or.inr ⟨_, _, hL.symm, rfl⟩, rfl, ?_⟩
      · intro x hx
        rcases List.mem_append.1 hx with hx | hx
        · exact hm.len x hx
        · exact hnew x (by rw [List.mem_singleton.1 hx]; exact List.mem_cons_self ..)
      · have := ChunkOk.offset_change key flags (off' := 2048 * (cks ++ [c]).length) hm.chunk
        rw [List.length_append] at this ⊢
        exact this
      · intro a
        have q1 := c1 a
        have q2 := hm.work a
        rw [hW' a, chunkPre_append, chunkCalls_count, List.count_append, Nat.zero_add, chunkLeaves, chunkLeaves,
          cnt_cons, cnt_cons]
        have : cnt key flags [] a = 0 := rfl
        omega
    obtain ⟨h', S', l', e', hm'', hp, hz⟩ := ih (cks ++ [c]) _ _ (W ++ l1 ++ chunkCalls key flags (2048 * cks.length) [c])
      (hm' _ (fun a => by rw [List.count_append, List.count_append]))
      (fun x hx => hnew x (List.mem_cons_of_mem _ hx))
      (by rw [List.length_append, List.length_singleton]; omega)
    rw [List.append_assoc cks, List.singleton_append] at hm'' hp
    refine ⟨h', S', l1 ++ l', ?_, ?_, fun _ => ?_, fun h => by cases h⟩
    · rw [chunkLeaves, List.map_cons, push_hashes_cons]
      simp only [OUT_LEN]
      have ha : arrayRef (hashOf key flags (.leaf (Spec.chunk key flags (2048 * cks.length) c))).toList 0 32 =
          .ok (hashOf key flags (.leaf (Spec.chunk key flags (2048 * cks.length) c))) := by
        rw [arrayRef, dif_pos (by simp)]
        refine congrArg Except.ok (Vector.toList_inj.1 ?_)
        exact List.take_of_length_le (by simp)
      rw [ha, lift_ok, hm.chunk.hoff, tr_bind _ e]
      simp only [CHUNK_LEN]
      rw [hm.chunk.hoff, addU64_ofNat _ _ (by omega), lift_ok]
      rw [List.length_append, List.length_singleton, Nat.mul_add] at e'
      rw [e']
    · intro W' hW'
      rw [← List.append_assoc]
      refine hm'' (W' ++ l1) fun a => ?_
      rw [List.count_append, List.count_append, List.count_append, hW' a, chunkCalls, chunkCalls, chunkCalls,
        List.count_append, List.append_nil, List.length_append, List.length_singleton, Nat.mul_add, Nat.mul_one]
      omega
    · by_cases hn : new = []
      · obtain ⟨-, hS, -⟩ := hz hn
        subst hn
        exact ⟨_, _, hL.symm, hS⟩
      · exact hp hn

theorem update_loop_log (cfg : Config) (p : Platform) (new : List Bytes) (cks : List Bytes) (out : Bytes) (h : Hasher)
    (S : List (Tree Spec.Input)) (W : List Spec.Input)
    (hm : WMid key flags p cks h S W) (hnew : ∀ c ∈ new, c.length = 2048)
    (hlt : 2048 * (cks.length + new.length) < 2 ^ 64) (hout : out.length = MAX_SIMD_DEGREE cfg * 32) :
    ∃ h' S' l, T.Hasher.update_loop cfg new out h = ⟨.ok h', l⟩ ∧ WMid key flags p (cks ++ new) h' S' (W ++ l) ∧
      (new ≠ [] → ∃ init last, chunkLeaves key flags 0 (cks ++ new) = init ++ [last] ∧ S' = last :: canon init) ∧
      (new = [] → h' = h ∧ S' = S ∧ l = []) := by
  induction hn : new.length using Nat.strongRecOn generalizing new cks out h S W with
  | ind n ih =>
  have hM : 0 < MAX_SIMD_DEGREE cfg := by unfold MAX_SIMD_DEGREE; split <;> decide
  rw [T.Hasher.update_loop]
  by_cases h0 : new = []
  · subst h0
    rw [dif_pos (by simp)]
    exact ⟨h, S, [], rfl, by rwa [List.append_nil, List.append_nil], fun h => absurd rfl h, fun _ => ⟨rfl, rfl, rfl⟩⟩
  · have hpos : 0 < new.length := List.length_pos_iff.2 h0
    have ht : new.take (MAX_SIMD_DEGREE cfg) ≠ [] := by
      intro h; have := congrArg List.length h; rw [List.length_take, List.length_nil] at this; omega
    have htl : (new.take (MAX_SIMD_DEGREE cfg)).length = min (MAX_SIMD_DEGREE cfg) new.length := List.length_take
    rw [dif_neg ht]
    have hnt : ∀ c ∈ new.take (MAX_SIMD_DEGREE cfg), c.length = 2048 := fun c hc => hnew c (List.mem_of_mem_take hc)
    simp only [CHUNK_LEN]
    have hoffn : (BitVec.ofNat 64 (2048 * cks.length)).toNat = 2048 * cks.length := by
      rw [BitVec.toNat_ofNat, Nat.mod_eq_of_lt (by omega)]
    have hlo := lanesOut_chunks key flags (2048 * cks.length) (new.take (MAX_SIMD_DEGREE cfg)) hnt (by omega) 0
    rw [Nat.mul_zero, Nat.add_zero] at hlo
    have hres := plat_hash_many h.chunk.platform 2048 (by decide) (new.take (MAX_SIMD_DEGREE cfg)) key
      (BitVec.ofNat 64 (2048 * cks.length)) (BitVec.ofNat 64 2048) flags Flags.CHUNK_START Flags.CHUNK_END out hnt
      (by omega) (by rw [hoffn, BitVec.toNat_ofNat]; omega)
    have hlog := hash_many_log key h.chunk.platform 2048 (new.take (MAX_SIMD_DEGREE cfg)) (2048 * cks.length) 2048
      flags Flags.CHUNK_START Flags.CHUNK_END out (fun x hx => by rw [hnt x hx]) (by omega) (by omega) (by omega)
    rw [manyCalls_chunks key flags _ _ hnt] at hlog
    rw [hm.chunk.hoff, hm.chunk.hkey, hm.chunk.hflags, tr_bind _ (tr_eq ((hash_many_res ..).trans hres)), hlog, hlo]
    have hlen2 : (new.take (MAX_SIMD_DEGREE cfg)).length =
        (chunkLeaves key flags (2048 * cks.length) (new.take (MAX_SIMD_DEGREE cfg))).length :=
      (length_chunkLeaves ..).symm
    obtain ⟨h1, S1, l1, e1, hm1, hp1, -⟩ := push_hashes_log key flags p (new.take (MAX_SIMD_DEGREE cfg)) cks h S W hm hnt
      (by omega)
    have hm1 := hm1 (W ++ chunkCalls key flags (2048 * cks.length) (new.take (MAX_SIMD_DEGREE cfg)))
      (fun a => List.count_append)
    have hce := chunksExact_bufOf key flags
      (chunkLeaves key flags (2048 * cks.length) (new.take (MAX_SIMD_DEGREE cfg)))
      (out.drop (32 * (new.take (MAX_SIMD_DEGREE cfg)).length))
    rw [← hlen2] at hce
    simp only [OUT_LEN]
    rw [hce, tr_bind _ e1]
    obtain ⟨h2, S2, l2, e2, hm2, hp2, hz2⟩ := ih (new.length - MAX_SIMD_DEGREE cfg) (by omega) (new.drop (MAX_SIMD_DEGREE cfg))
      (cks ++ new.take (MAX_SIMD_DEGREE cfg))
      (bufOf key flags (chunkLeaves key flags (2048 * cks.length) (new.take (MAX_SIMD_DEGREE cfg))) ++
        out.drop (32 * (new.take (MAX_SIMD_DEGREE cfg)).length)) h1 S1 _ hm1
      (fun c hc => hnew c (List.mem_of_mem_drop hc)) (by rw [List.length_append, htl, List.length_drop]; omega)
      (by rw [List.length_append, length_bufOf, ← hlen2, List.length_drop]; omega) List.length_drop
    rw [e2]
    refine ⟨h2, S2, _, rfl, ?_, fun _ => ?_, fun h => absurd h h0⟩
    · rw [List.append_assoc cks, List.take_append_drop, List.append_assoc, List.append_assoc] at hm2
      exact hm2
    · by_cases hd : new.drop (MAX_SIMD_DEGREE cfg) = []
      · obtain ⟨-, h3, -⟩ := hz2 hd
        rw [h3]
        have := hp1 ht
        rwa [show new.take (MAX_SIMD_DEGREE cfg) = new by
          have := List.take_append_drop (MAX_SIMD_DEGREE cfg) new
          rw [hd, List.append_nil] at this; exact this] at this
      · have := hp2 hd
        rwa [List.append_assoc, List.take_append_drop] at this

theorem update_rest_log (cfg : Config) (p : Platform) (cks : List Bytes) (h : Hasher) (input : Bytes)
    (S : List (Tree Spec.Input)) (W : List Spec.Input)
    (hm : WMid key flags p cks h S W) (hin : input ≠ []) (hlt : 2048 * cks.length + input.length < 2 ^ 64)
    (h2 : 1 ≤ cks.length ∨ input.length ≠ 2048) :
    ∃ h' l, T.Hasher.update_rest cfg h input = ⟨.ok h', l⟩ ∧ Work key flags p (cks.flatten ++ input) h' (W ++ l) := by
  have hpos : 0 < input.length := List.length_pos_iff.2 hin
  have hl := length_chunksExact 2048 (by decide) input
  have hmem := mem_chunksExact 2048 (by decide) input
  have hrl : (chunksRemainder 2048 input).length = input.length % 2048 := by
    rw [chunksRemainder, List.length_drop]; omega
  have hsplit : input = (chunksExact 2048 input).flatten ++ chunksRemainder 2048 input := by
    rw [flatten_chunksExact 2048 (by decide), chunksRemainder, List.take_append_drop]
  obtain ⟨h1, S1, l1, e1, hm1, hp1, hz1⟩ := update_loop_log key flags cfg p (chunksExact 2048 input) cks
    (List.replicate (MAX_SIMD_DEGREE cfg * 32) 0) h S W hm hmem (by rw [hl]; omega) List.length_replicate
  rw [T.Hasher.update_rest, assertR, if_pos (by exact hm.chunk.len), lift_ok]
  simp only [OUT_LEN, CHUNK_LEN]
  rw [tr_bind _ e1, assertR, if_pos (by exact hm1.chunk.len), lift_ok, assertR, if_pos (by rw [hrl]; omega), lift_ok]
  have hlen : (cks ++ chunksExact 2048 input).length = cks.length + input.length / 2048 := by
    rw [List.length_append, hl]
  have hfl : cks.flatten ++ input = (cks ++ chunksExact 2048 input).flatten ++ chunksRemainder 2048 input := by
    rw [List.flatten_append, List.append_assoc, ← hsplit]
  by_cases hr : chunksRemainder 2048 input = []
  · have hmod : input.length % 2048 = 0 := by rw [← hrl, hr]; rfl
    rw [if_neg (by simpa using hr)]
    refine ⟨h1, _, rfl, cks ++ chunksExact 2048 input, [], S1, ?_, hm1.len, by simp, hm1.chunk,
      ChunkLog.empty key flags hm1.chunk, hm1.hashes, Or.inr ⟨rfl, by omega, ?_⟩, fun a => ?_⟩
    · rw [hfl, hr]
    · exact hp1 (by intro h; rw [h] at hl; simp at hl; omega)
    · rw [cb_nil, log_pure, List.append_nil, hm1.work a]; rfl
  · obtain ⟨l2, e2, c2⟩ := merge_to_canon_log key flags h1 _ _ S1 hm1.chunk.hkey hm1.chunk.hflags hm1.stack hm1.hashes
      (length_chunkLeaves ..) (by rw [hlen]; omega)
    obtain ⟨s', l3, e, hs', hcl', hcb⟩ := chunk_update_log hm1.chunk (ChunkLog.empty key flags hm1.chunk)
      (chunksRemainder 2048 input) (by simp; omega)
    rw [if_pos (by simpa using hr), hm1.chunk.hoff, tr_bind _ e2]
    dsimp only
    rw [tr_bind _ e]
    rw [List.nil_append] at hs' hcl' hcb
    refine ⟨_, _, rfl, cks ++ chunksExact 2048 input, chunksRemainder 2048 input, _, hfl, hm1.len, by omega, hs',
      hcl', rfl, Or.inl ⟨Or.inl hr, rfl⟩, fun a => ?_⟩
    have q1 := c2 a
    have q2 := hm1.work a
    rw [cb_nil, List.nil_append] at hcb
    rw [hcb]
    simp only [log_pure, List.append_nil, List.count_append] at q1 q2 ⊢
    omega

theorem update_log (cfg : Config) (p : Platform) (bytes input : Bytes) (h : Hasher) (W : List Spec.Input)
    (hok : Work key flags p bytes h W) (hlt : bytes.length + input.length < 2 ^ 64) :
    ∃ h' l, T.Hasher.update cfg h input = ⟨.ok h', l⟩ ∧ Work key flags p (bytes ++ input) h' (W ++ l) := by
  obtain ⟨cks, tail, S, rfl, hcks, htail, hch, hcl0, hH, hst, hW⟩ := hok
  have hfl := length_flatten cks hcks
  rw [List.length_append, hfl] at hlt
  have hcl := hch.len
  have hoff0 : h.chunk.offset = 0 ↔ cks.length = 0 := by
    rw [hch.hoff]
    constructor
    · intro e
      have := congrArg BitVec.toNat e
      rw [BitVec.toNat_ofNat, Nat.mod_eq_of_lt (by omega)] at this
      change _ = 0 at this
      omega
    · intro e; rw [e]; rfl
  rw [T.Hasher.update]
  dsimp only
  by_cases hc : (h.chunk.offset = 0 ∧ input.length = CHUNK_LEN) ∨ 0 < h.chunk.len
  · rw [if_pos hc]
    simp only [CHUNK_LEN] at hc ⊢
    rw [hcl] at hc ⊢
    rw [subN, if_pos htail, lift_ok]
    have ht : input.take (min (2048 - tail.length) input.length) = input.take (2048 - tail.length) := by
      rw [List.take_eq_take_iff]; omega
    have hd : input.drop (min (2048 - tail.length) input.length) = input.drop (2048 - tail.length) := by
      by_cases h : 2048 - tail.length ≤ input.length
      · rw [Nat.min_eq_left h]
      · rw [Nat.min_eq_right (by omega), List.drop_of_length_le (by omega), List.drop_of_length_le (by omega)]
    rw [ht, hd]
    obtain ⟨s', l1, e, hs', hcl1, hcb⟩ := chunk_update_log hch hcl0 (input.take (2048 - tail.length))
      (by rw [List.length_take]; omega)
    rw [tr_bind _ e]
    -- the stack is merged
    have hcanon : S = canon (chunkLeaves key flags 0 cks) := by
      rcases hst with ⟨-, h⟩ | ⟨h1, h2, -⟩
      · exact h
      · exfalso
        rw [h1] at hc
        rcases hc with ⟨h, -⟩ | h
        · have := hoff0.1 h; omega
        · simp at h
    by_cases hi : input.drop (2048 - tail.length) = []
    · rw [if_neg (by simpa using hi)]
      have hti : input.take (2048 - tail.length) = input := by
        have := List.take_append_drop (2048 - tail.length) input
        rw [hi, List.append_nil] at this; exact this
      rw [hti] at hs' hcl1 hcb
      have hil : input.length ≤ 2048 - tail.length := by
        have := congrArg List.length hi; simp at this; omega
      refine ⟨_, _, rfl, cks, tail ++ input, S, by rw [List.append_assoc], hcks, by rw [List.length_append]; omega, hs',
        hcl1, hH, Or.inl ⟨?_, hcanon⟩, fun a => ?_⟩
      · rcases hc with ⟨h, -⟩ | h
        · exact Or.inr (List.length_eq_zero_iff.1 (hoff0.1 h))
        · left; intro h'; have := congrArg List.length h'; rw [List.length_append, List.length_nil] at this; omega
      · have q1 := hW a
        rw [hcb]
        simp only [log_pure, List.append_nil, List.count_append] at q1 ⊢
        omega
    · rw [if_pos (by simpa using hi)]
      have hil : 2048 - tail.length < input.length := by
        rcases Nat.lt_or_ge (2048 - tail.length) input.length with h | h
        · exact h
        · exact absurd (List.drop_of_length_le h) hi
      have htl : (tail ++ input.take (2048 - tail.length)).length = 2048 := by
        rw [List.length_append, List.length_take]; omega
      rw [assertR, if_pos (by rw [hs'.len, htl]), lift_ok]
      obtain ⟨o, eo, hpo, ho⟩ := hs'.finalize .notRoot (by intro h; cases h)
      have hti : toInput o = Spec.chunk key flags (2048 * cks.length)
          (tail ++ input.take (2048 - tail.length)) := by
        rw [ho]
        simp only [IsRoot.flag, or_zero8]
      have hto : o.to_hash = hashOf key flags (.leaf (Spec.chunk key flags (2048 * cks.length)
          (tail ++ input.take (2048 - tail.length)))) := by
        rw [to_hash_eq, hti]
        rfl
      rw [eo, lift_ok, tr_bind _ (tr_eq (to_hash_res o)), to_hash_log, hti, hto, hs'.hoff]
      obtain ⟨l2, e2, c2⟩ := push_chunk_hash_log key flags { h with chunk := s' } cks.length (chunkLeaves key flags 0 cks) S
        (.leaf (Spec.chunk key flags (2048 * cks.length) (tail ++ input.take (2048 - tail.length))))
        hs'.hkey hs'.hflags (Or.inl hcanon) hH (length_chunkLeaves ..) (by omega)
      rw [tr_bind _ e2]
      dsimp only
      rw [hs'.hoff, addU64_ofNat _ _ (by omega), lift_ok, ChunkState.reset, assertR, if_pos (by
        apply BitVec.eq_of_toNat_eq
        have e1 : (BitVec.ofNat 64 (2048 * cks.length + 2048)).toNat = 2048 * cks.length + 2048 := by
          rw [BitVec.toNat_ofNat, Nat.mod_eq_of_lt (by omega)]
        have e2 : (BitVec.ofNat 64 CHUNK_LEN).toNat = 2048 := by decide
        have e3 : (0 : U64).toNat = 0 := by decide
        rw [BitVec.toNat_umod, e1, e2, e3]
        omega), bind_ok, pure_eq, lift_ok]
      have hmid : WMid key flags p (cks ++ [tail ++ input.take (2048 - tail.length)])
          { subtree_hashes := (.leaf (Spec.chunk key flags (2048 * cks.length) (tail ++ input.take (2048 - tail.length))) ::
              canon (chunkLeaves key flags 0 cks)).map (hashOf key flags),
            chunk := { s' with cv := s'.key, offset := BitVec.ofNat 64 (2048 * cks.length + 2048), count := 0,
                               buf := Vector.replicate 64 0, buf_len := 0 } }
          (.leaf (Spec.chunk key flags (2048 * cks.length) (tail ++ input.take (2048 - tail.length))) ::
              canon (chunkLeaves key flags 0 cks))
          (W ++ (l1 ++ ([Spec.chunk key flags (2048 * cks.length) (tail ++ input.take (2048 - tail.length))] ++ l2))) := by
        refine ⟨?_, ?_, Or.inr ⟨chunkLeaves key flags 0 cks, _, ?_, rfl⟩, rfl, fun a => ?_⟩
        · intro x hx
          rcases List.mem_append.1 hx with hx | hx
          · exact hcks x hx
          · rw [List.mem_singleton.1 hx]; exact htl
        · have := ChunkOk.fresh key flags p (2048 * (cks ++ [tail ++ input.take (2048 - tail.length)]).length)
          rw [List.length_append, List.length_singleton, Nat.mul_add] at this ⊢
          rw [hs'.hkey, hs'.hflags, hs'.hplat]
          exact this
        · rw [chunkLeaves_append, Nat.zero_add]; rfl
        · have q1 := hW a
          have q2 := c2 a
          rw [chunkPre_append, Nat.zero_add, chunkPre, chunkPre, List.append_nil, hcb, cnt_cons, nodes, under, inp]
          simp only [List.count_append, List.nil_append] at q1 ⊢
          omega
      obtain ⟨h', l3, e3, hok'⟩ := update_rest_log key flags cfg p _ _ (input.drop (2048 - tail.length)) _ _ hmid hi
        (by rw [List.length_append, List.length_singleton, List.length_drop]; omega)
        (Or.inl (by rw [List.length_append, List.length_singleton]; omega))
      rw [e3]
      refine ⟨h', _, rfl, ?_⟩
      rw [List.flatten_append, List.flatten_cons, List.flatten_nil, List.append_nil, List.append_assoc cks.flatten,
        List.append_assoc tail, List.take_append_drop, ← List.append_assoc cks.flatten] at hok'
      simp only [List.append_assoc] at hok' ⊢
      exact hok'
  · rw [if_neg hc]
    simp only [CHUNK_LEN] at hc
    have htz : tail = [] := List.length_eq_zero_iff.1 (by omega)
    subst htz
    by_cases hin : input = []
    · subst hin
      refine ⟨h, [], ?_, cks, [], S, by simp, hcks, by simp, hch, hcl0, hH, hst, by rwa [List.append_nil]⟩
      rw [T.Hasher.update_rest, assertR, if_pos (by exact hcl), lift_ok]
      simp only [CHUNK_LEN]
      rw [chunksExact_short _ _ (by simp), T.Hasher.update_loop, dif_pos (by simp), tr_bind _ (show pure _ = _ from rfl),
        assertR, if_pos (by exact hcl), lift_ok,
        assertR, if_pos (by simp [chunksRemainder]), lift_ok, if_neg (by simp [chunksRemainder])]
      rfl
    · have hmid : WMid key flags p cks h S W := by
        refine ⟨hcks, hch, ?_, hH, fun a => ?_⟩
        · rcases hst with ⟨-, h⟩ | ⟨-, -, h⟩
          · exact Or.inl h
          · exact Or.inr h
        · rw [hW a, cb_nil]; rfl
      obtain ⟨h', l3, e3, hok'⟩ := update_rest_log key flags cfg p cks h input S W hmid hin (by omega) (by
        by_cases h0 : cks.length = 0
        · right; intro hi; exact hc (Or.inl ⟨hoff0.2 h0, hi⟩)
        · left; omega)
      exact ⟨h', l3, e3, by rwa [List.append_nil]⟩

/-! ## finalize -/

theorem finalize_loop_log (h : Hasher) (hk : h.chunk.key = key) (hf : h.chunk.flags = flags) (S : List (Tree Spec.Input)) :
    ∀ (x : Tree Spec.Input), S ≠ [] →
    ∃ o l, T.Hasher.finalize_loop h (hashOf key flags x) (S.map (hashOf key flags)) = ⟨.ok o, l⟩ ∧
      ∀ a, l.count a + (nodes key flags x).count a + cnt key flags S a = (under key flags (foldStack x S)).count a := by
  induction S with
  | nil => intro x h; exact absurd rfl h
  | cons s S ih =>
    intro x _
    by_cases h0 : S = []
    · subst h0
      refine ⟨_, _, rfl, fun a => ?_⟩
      rw [foldStack, foldStack, under_node, cnt_cons, List.count_append]
      have : cnt key flags [] a = 0 := rfl
      simp only [log_pure, List.count_nil]
      omega
    · obtain ⟨o, l, e, c⟩ := ih (.node s x) h0
      obtain ⟨s2, S2, rfl⟩ := List.exists_cons_of_ne_nil h0
      refine ⟨o, [inp key flags (.node s x)] ++ l, ?_, fun a => ?_⟩
      · rw [List.map_cons, List.map_cons, T.Hasher.finalize_loop, hk, hf, tr_bind _ (tr_eq (to_hash_res _)),
          hash_one_parent_hash, to_hash_log]
        · rw [← List.map_cons, e]
          simp only [toInput, hash_one_parent, IsRoot.flag, or_zero8]
          rfl
        · simp
      · have q := c a
        rw [foldStack, ← q, cnt_cons key flags s, cnt_node, List.count_append]
        omega

theorem leaves_pre (off : Nat) (cks : List Bytes) (tail : Bytes) (h : ∀ c ∈ cks, c.length = 2048) (ht : tail.length ≤ 2048)
    (h0 : tail ≠ []) :
    pre key flags off (cks.flatten ++ tail) =
      chunkPre key flags off cks ++ cb key flags (off + 2048 * cks.length) tail := by
  induction cks generalizing off with
  | nil => rw [List.flatten_nil, List.nil_append, pre, dif_pos ht]; rfl
  | cons c cks ih =>
    have hc := h c (List.mem_cons_self ..)
    have hne : cks.flatten ++ tail ≠ [] := by
      intro h; exact h0 (List.append_eq_nil_iff.1 h).2
    rw [List.flatten_cons, List.append_assoc, pre_append key flags off c _ 0 (by omega) hne,
      ih _ (fun x hx => h x (List.mem_cons_of_mem _ hx)), chunkPre, pre, dif_pos (by omega), hc, List.append_assoc,
      List.length_cons, show off + 2048 + 2048 * cks.length = off + 2048 * (cks.length + 1) by omega]
    rfl

theorem flatten_pre (off : Nat) (cks : List Bytes) (h : ∀ c ∈ cks, c.length = 2048) (h0 : cks ≠ []) :
    pre key flags off cks.flatten = chunkPre key flags off cks := by
  obtain ⟨init, last, rfl⟩ := exists_snoc cks h0
  have hl := h last (by simp)
  rw [List.flatten_append, List.flatten_cons, List.flatten_nil, List.append_nil,
    leaves_pre key flags off init last (fun x hx => h x (by simp [hx])) (by omega)
      (by intro h; rw [h] at hl; simp at hl), chunkPre_append, chunkPre, chunkPre, List.append_nil]

theorem finalize_xof_log (p : Platform) (bytes : Bytes) (h : Hasher) (W : List Spec.Input) (hok : Work key flags p bytes h W)
    (hlt : bytes.length < 2 ^ 64) :
    (W ++ (T.Hasher.finalize_xof h).log).Perm (Spec.below key flags 0 bytes) := by
  refine List.Perm.trans ?_ (below_perm key flags 0 bytes).symm
  rw [List.perm_iff_count]
  intro a
  obtain ⟨cks, tail, S, rfl, hcks, htail, hch, hcl0, hH, hst, hW⟩ := hok
  have hWa := hW a
  have hfl := length_flatten cks hcks
  rw [List.length_append, hfl] at hlt
  have hcl := hch.len
  rw [T.Hasher.finalize_xof]
  have hlen := length_canon (chunkLeaves key flags 0 cks)
  rw [length_chunkLeaves] at hlen
  by_cases h0 : cks = []
  · subst h0
    have hS : S = [] := by
      rcases hst with ⟨-, h⟩ | ⟨-, h2, -⟩
      · rw [h, chunkLeaves, canon_nil]
      · simp at h2
    have hs : h.subtree_hashes = [] := by rw [hH, hS]; rfl
    rw [if_pos hs, leaves, List.flatten_nil, List.nil_append, dif_pos htail, shape_one, under, pre, dif_pos htail,
      List.append_nil, show (liftM (h.chunk.finalize .root) : TR Output).log = [] from rfl, List.append_nil, hWa, hS]
    simp [chunkPre, cnt, cb]
  · have hpos : 0 < cks.length := List.length_pos_iff.2 h0
    have hpc := popcount_pos hpos
    rcases hst with ⟨htne, hs⟩ | ⟨rfl, h2, init, last, hL, hs⟩
    · have htne : tail ≠ [] := by rcases htne with h | h; exact h; exact absurd h h0
      have htpos : 0 < tail.length := List.length_pos_iff.2 htne
      have hsl : h.subtree_hashes.length = popcount cks.length := by rw [hH, List.length_map, hs, hlen]
      rw [if_neg (by intro e; rw [e] at hsl; simp at hsl; omega), if_pos (by omega), assertR, if_pos (by
        rw [Hasher.needs_merge, hch.hoff, BitVec.toNat_ofNat, Nat.mod_eq_of_lt (by omega), decide_eq_false_iff_not]
        simp only [CHUNK_LEN]
        rw [Nat.mul_div_cancel_left _ (by decide)]
        omega), lift_ok]
      obtain ⟨o, e, hp, ho⟩ := hch.finalize .notRoot (by intro h; cases h)
      have hti : toInput o = Spec.chunk key flags (2048 * cks.length) tail := by
        rw [ho]
        simp only [IsRoot.flag, or_zero8]
      have hto : o.to_hash = hashOf key flags (.leaf (Spec.chunk key flags (2048 * cks.length) tail)) := by
        rw [to_hash_eq, hti]
        rfl
      obtain ⟨o', l, e', c⟩ := finalize_loop_log key flags h hch.hkey hch.hflags (canon (chunkLeaves key flags 0 cks))
        (.leaf (Spec.chunk key flags (2048 * cks.length) tail))
        (by intro h; rw [h] at hlen; simp at hlen; omega)
      have q := c a
      rw [e, lift_ok, tr_bind _ (tr_eq (to_hash_res o)), to_hash_log, hti, hto, hH, hs, e',
        leaves_append key flags 0 cks.flatten tail (cks.length - 1) (by rw [hfl]; congr 1; omega) htne,
        leaves_flatten key flags 0 cks hcks h0, leaves, dif_pos htail, Nat.zero_add, hfl,
        leaves_pre key flags 0 cks tail hcks htail htne, Nat.zero_add, ← fold_canon]
      rw [hs] at hWa
      simp only [List.count_append, nodes, under, inp, List.nil_append] at q hWa ⊢
      omega
    · have hil : init.length + 1 = cks.length := by
        have := congrArg List.length hL; rw [length_chunkLeaves, List.length_append] at this; simpa using this.symm
      have hcpos := popcount_pos (n := init.length) (by omega)
      have hcil := length_canon init
      obtain ⟨o', l, e', c⟩ := finalize_loop_log key flags h hch.hkey hch.hflags (canon init) last
        (by intro h; rw [h] at hcil; simp at hcil; omega)
      have q := c a
      have hH' : h.subtree_hashes = hashOf key flags last :: (canon init).map (hashOf key flags) := by
        rw [hH, hs]; rfl
      rw [if_neg (by rw [hH']; simp), if_neg (by rw [hcl]; simp), assertR,
        if_pos (by rw [hH', List.length_cons, List.length_map]; omega), lift_ok, hH']
      dsimp only
      rw [e', List.append_nil, leaves_flatten key flags 0 cks hcks h0, hL, ← fold_canon,
        flatten_pre key flags 0 cks hcks h0]
      rw [hs, cnt_cons, cb_nil] at hWa
      simp only [List.count_append, List.count_nil] at hWa ⊢
      omega

end
end Baokeshed.Proofs
