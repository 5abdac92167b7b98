import Verif.Proofs.C.TraceChunk

/-! # C: the hasher performs the compressions of the tree, each once -/

set_option linter.unusedVariables false
set_option linter.unusedSimpArgs false

namespace Baokeshed.Proofs.CT
open Baokeshed.Model Baokeshed.Model.C Baokeshed.Model.T Baokeshed.Proofs Baokeshed.Proofs.T Baokeshed.Proofs.C

attribute [local irreducible] Spec.compress Spec.cvBytes Spec.outBytes Spec.pad

/-! ## hash_many -/

theorem one_loop_log (f fe : Byte) (off : U64) (n : Nat) (st : Vector Word 8) (x : Bytes) (bf : Byte)
    (hx : 64 * n ≤ x.length) :
    (CT.hash_one_portable_loop f fe off n st x bf).log = loopCalls f fe off st bf (x.take (64 * n)) := by
  induction n generalizing st x bf with
  | zero => rw [loopCalls, dif_neg (by simp)]; rfl
  | succ n ih =>
    have hl : (x.take (64 * (n + 1))).length = 64 * (n + 1) := by rw [List.length_take]; omega
    have hc : (n + 1 = 1) = ((x.take (64 * (n + 1))).length = 64) := by rw [hl]; exact propext (by omega)
    have hpad : Spec.pad (x.take (64 * (n + 1))) = Spec.pad x := by
      rw [← pad_take, List.take_take, Nat.min_eq_left (by omega), pad_take]
    rw [CT.hash_one_portable_loop, loopCalls, dif_pos (by omega), hpad]
    simp only [hc]
    rw [log_bind _ (compress_portable_ok _ _ _ _ _ (by omega)), cAdvance_ok _ _ (by simp only [C.BLOCK_LEN]; omega), lift_ok,
      ih _ _ _ (by rw [List.length_drop]; simp only [C.BLOCK_LEN]; omega)]
    simp only [C.BLOCK_LEN, CT.compress_portable]
    rw [List.drop_take, show 64 * (n + 1) - 64 = 64 * n by omega]
    rfl

theorem many_loop_log (key : Vector Word 8) (flags : Byte) (cs : List Bytes) : ∀ (ptrs : List Bytes) (off : Nat) (out : Bytes),
    (∀ i, i < cs.length → (cs.getD i []).length = 2048 ∧ (ptrs.getD i []).take 2048 = cs.getD i []) →
    32 * cs.length ≤ out.length → 
    (CT.hash_many_portable_loop 32 key CHUNK_OFFSET_DELTAS flags C.CHUNK_START C.CHUNK_END cs.length ptrs
      (BitVec.ofNat 64 off) out).log = chunkCalls key flags off cs := by
  induction cs with
  | nil => intro ptrs off out _ _; rfl
  | cons c cs ih =>
    intro ptrs off out h ho
    rw [List.length_cons] at h ho
    have h0 := h 0 (by omega)
    cases ptrs with
    | nil =>
      have := congrArg List.length h0.2
      rw [h0.1] at this
      cases this
    | cons p ptrs =>
      obtain ⟨hc, hp⟩ := h0
      change c.length = 2048 at hc
      change p.take 2048 = c at hp
      have hpl : 64 * 32 ≤ p.length := by
        have := congrArg List.length hp
        rw [List.length_take] at this; omega
      have e1 := hash_one_portable_eq key flags C.CHUNK_START C.CHUNK_END 32 p (BitVec.ofNat 64 off) out hpl (by omega)
      rw [List.length_cons, CT.hash_many_portable_loop, show cIndex (p :: ptrs) 0 = .ok p from rfl, lift_ok,
        log_bind _ ((hash_one_portable_res ..).trans e1), show cAdvance (p :: ptrs) 1 = .ok ptrs from rfl, lift_ok,
        show cIndex CHUNK_OFFSET_DELTAS 1 = .ok (BitVec.ofNat 64 2048) from rfl, lift_ok,
        cAdvance_ok _ _ (by rw [List.length_append, Vector.length_toList]; simp only [C.OUT_LEN]; omega), lift_ok,
        ← BitVec.ofNat_add]
      have e2 := ih ptrs (off + 2048) (((Spec.cvBytes (Spec.blockChain key (BitVec.ofNat 64 off) flags C.CHUNK_START
          C.CHUNK_END 32 p)).toList ++ out.drop 32).drop C.OUT_LEN) (fun i hi => h (i + 1) (by omega))
        (by rw [List.length_drop, List.length_append, Vector.length_toList, List.length_drop]; simp only [C.OUT_LEN]; omega)
      have e3 := (hash_many_portable_res 32 key CHUNK_OFFSET_DELTAS flags C.CHUNK_START C.CHUNK_END cs.length ptrs
        (BitVec.ofNat 64 (off + 2048)) (((Spec.cvBytes (Spec.blockChain key (BitVec.ofNat 64 off) flags C.CHUNK_START
          C.CHUNK_END 32 p)).toList ++ out.drop 32).drop C.OUT_LEN))
      have e4 : ∀ (x : TR Bytes) (f : Bytes → Bytes), (x >>= fun r => pure (f r)).log = x.log := by
        intro x f
        obtain ⟨r, l⟩ := x
        cases r
        · rfl
        · exact List.append_nil l
      rw [e4, e2, chunkCalls]
      refine congrArg (· ++ _) ?_
      have e5 := one_loop_log flags C.CHUNK_END (BitVec.ofNat 64 off) 32 key p (flags ||| C.CHUNK_START) hpl
      have e6 : (CT.hash_one_portable p 32 key (BitVec.ofNat 64 off) flags C.CHUNK_START C.CHUNK_END out).log =
          (CT.hash_one_portable_loop flags C.CHUNK_END (BitVec.ofNat 64 off) 32 key p (flags ||| C.CHUNK_START)).log := by
        have e7 : ∀ (x : TR (Vector Word 8)) (f : Vector Word 8 → R Bytes),
            (x >>= fun r => (liftM (f r) : TR Bytes)).log = x.log := by
          intro x f
          obtain ⟨r, l⟩ := x
          cases r
          · rfl
          · exact List.append_nil l
        exact e7 _ _
      rw [e6, e5, show 64 * 32 = 2048 from rfl, hp]
      exact loopCalls_chunk flags off key _ c (by omega) (by intro h; rw [h] at hc; cases hc)

/-! ## Merging -/

section
variable {cfg : C.Config} {M : Nat} {h : C.hasher} {g g' : Model.Hasher} {l : List Spec.Input}

theorem merge_parent_sim (h16 : 16 ≤ cfg.bits) (r : HRel M h g) (e : T.Hasher.merge_parent g = ⟨.ok g', l⟩) :
    ∃ h', CT.hasher_merge_parent cfg h = ⟨.ok h', l⟩ ∧ HRel M h' g' := by
  have e0 : g.merge_parent = .ok g' := by rw [← Hasher.merge_parent_res, e]
  obtain ⟨h', f, r'⟩ := C.merge_parent_sim h16 r e0
  refine ⟨h', ?_, r'⟩
  rw [tr_eq ((merge_parent_res cfg h).trans f)]
  refine congrArg _ ?_
  have hp := two_pow_bits h16
  have h256 := r.lt
  obtain ⟨rest, hm⟩ := r.mem
  rw [T.Hasher.merge_parent] at e
  split at e
  next right left S hS =>
    have hl : l = [toInput (Model.hash_one_parent left right g.chunk.key .notRoot g.chunk.flags g.chunk.platform)] := by
      have := congrArg TR.log e
      rw [log_bind _ (to_hash_res _), log_pure, List.append_nil, to_hash_log] at this
      exact this.symm
    have hlen := r.len
    rw [hS, List.length_cons, List.length_cons] at hlen h256
    have hst : mulSz cfg.bits (subSz cfg.bits h.subtree_hashes_len.toNat 2) C.OUT_LEN = (stackBytes S).length := by
      rw [subSz_le (by omega) (by omega), mulSz_lt (by simp only [C.OUT_LEN]; omega), length_stackBytes]
      simp only [C.OUT_LEN]; omega
    rw [hS, stackBytes, stackBytes, List.append_assoc, List.append_assoc] at hm
    have hul := length_uninit cfg C.OUT_LEN
    simp only [C.OUT_LEN] at hul
    rw [CT.hasher_merge_parent, hst, cAdvance_ok _ _ (by rw [hm, List.length_append]; omega), lift_ok, hm, List.drop_left,
      ← List.append_assoc,
      log_bind _ (congrArg TR.res (parent_sim left right rest h.chunk.key .notRoot h.chunk.flags g.chunk.platform false rfl _
        (by exact Nat.le_of_eq hul.symm))),
      parent_sim left right rest h.chunk.key .notRoot h.chunk.flags g.chunk.platform false rfl _
        (by exact Nat.le_of_eq hul.symm), memcpy, cLoad,
      if_pos (by simp), bind_ok, List.drop_zero,
      List.take_of_length_le (by rw [List.length_append, List.length_drop, hul, Vector.length_toList]; exact Nat.le_refl 32),
      List.drop_of_length_le (Nat.le_of_eq hul), List.append_nil,
      cStore_append _ _ _ _ rfl (by simp), lift_ok, log_pure, List.append_nil, hl, r.chunk.key, r.chunk.flags]
  next => cases congrArg TR.res e

theorem merge_loop_sim (h16 : 16 ≤ cfg.bits) (r : HRel M h g) (off : U64) (e : T.Hasher.merge_loop g off = ⟨.ok g', l⟩) :
    ∃ h', CT.merge_loop cfg h off = ⟨.ok h', l⟩ ∧ HRel M h' g' := by
  induction hn : g.subtree_hashes.length using Nat.strongRecOn generalizing h g l with
  | ind n ih =>
  rw [T.Hasher.merge_loop] at e
  rw [CT.merge_loop, needs_merge_sim r]
  split at e
  next hm =>
    rw [dif_pos hm]
    split at e
    next => cases congrArg TR.res e
    next g1 e1 =>
      obtain ⟨h1, f1, r1⟩ := merge_parent_sim h16 r (tr_eq e1)
      have f1' : C.hasher_merge_parent cfg h = .ok h1 := by rw [← merge_parent_res, f1]
      have hr := congrArg TR.res e
      have hl := congrArg TR.log e
      have e1' := e1
      rw [T.Hasher.merge_parent_res] at e1'
      obtain ⟨h2, f2, r2⟩ := ih _ (by have := Model.Hasher.merge_parent_length e1'; omega) r1 (tr_eq hr) rfl
      split
      next e' he => rw [f1'] at he; cases he
      next h' he =>
        rw [f1'] at he; cases he
        refine ⟨h2, ?_, r2⟩
        dsimp only at hl ⊢
        rw [f1, f2, hl]
  next hm =>
    obtain ⟨hl, e⟩ := pure_inv e
    cases e
    rw [dif_neg hm, hl]
    exact ⟨h, rfl, r⟩

theorem push_sim (h16 : 16 ≤ cfg.bits) (r : HRel M h g) (hash : Vector Byte 32) (extra : Bytes) (off : U64)
    (e : T.Hasher.push_chunk_hash g hash off = ⟨.ok g', l⟩) (ha : cfg.asserts = true → g.subtree_hashes.length < 53)
    (hM : 32 * g'.subtree_hashes.length ≤ M) :
    ∃ h', CT.hasher_push_chunk_hash cfg h (hash.toList ++ extra) off = ⟨.ok h', l⟩ ∧ HRel M h' g' := by
  have e0 : g.push_chunk_hash hash off = .ok g' := by rw [← push_chunk_hash_res, e]
  obtain ⟨h', f, r'⟩ := C.push_sim h16 r hash extra off e0 ha hM
  refine ⟨h', ?_, r'⟩
  rw [tr_eq ((push_res cfg h (hash.toList ++ extra) off).trans f)]
  refine congrArg _ ?_
  rw [T.Hasher.push_chunk_hash] at e
  obtain ⟨g1, l1, l2, hl, e1, e⟩ := tr_inv e
  have hl2 : l2 = [] := by
    have := congrArg TR.log e
    split at this
    · exact this.symm
    · exact this.symm
  obtain ⟨h1, f1, r1⟩ := merge_loop_sim h16 r off e1
  rw [CT.hasher_push_chunk_hash, r.len, assertR, if_pos (by exact ha), lift_ok, tr_bind _ f1, hl, hl2]
  refine congrArg (l1 ++ ·) ?_
  have : ∀ (x : R Bytes) (f : Bytes → hasher), ((liftM x : TR Bytes) >>= fun a => pure (f a)).log = [] := by
    intro x f
    cases x <;> rfl
  exact this _ _

end

/-! ## pushing chunks -/

section
variable (key : Vector Word 8) (flags : Byte)

theorem push_chunks_log {cfg : C.Config} (h16 : 16 ≤ cfg.bits) {M : Nat} {p : Platform} (new : List Bytes) :
    ∀ (cks : List Bytes) (h : C.hasher) (g : Model.Hasher) (ts : List (Tree Spec.Input)) (rest : Bytes)
      (S : List (Tree Spec.Input)) (W : List Spec.Input),
    HRel M h g → WMid key flags p cks g S W → (∀ c ∈ new, c.length = 2048) → 2048 * (cks.length + new.length) < 2 ^ 64 →
    (∀ n, cks.length ≤ n → n < cks.length + new.length → PushOk cfg M n) →
    ∃ h' g' S' l, CT.push_chunks cfg h (bufOf key flags (ts ++ chunkLeaves key flags (2048 * cks.length) new) ++ rest) ts.length
        new.length = ⟨.ok h', l⟩ ∧ HRel M h' g' ∧
      (∀ W', (∀ a, W'.count a = W.count a + (chunkCalls key flags (2048 * cks.length) new).count a) →
        WMid key flags p (cks ++ new) g' S' (W' ++ l)) ∧
      (new ≠ [] → ∃ init last, chunkLeaves key flags 0 (cks ++ new) = init ++ [last] ∧ S' = last :: canon init) ∧
      (new = [] → g' = g ∧ S' = S ∧ l = []) := by
  induction new with
  | nil =>
    intro cks h g ts rest S W r hm _ _ _
    refine ⟨h, g, S, [], rfl, r, ?_, fun h => absurd rfl h, fun _ => ⟨rfl, rfl, rfl⟩⟩
    intro W' hW'
    rw [List.append_nil, List.append_nil]
    refine ⟨hm.len, hm.chunk, hm.stack, hm.hashes, fun a => ?_⟩
    rw [hW' a, ← hm.work a]; rfl
  | cons c new ih =>
    intro cks h g ts rest S W r hm hnew hlt hok
    rw [List.length_cons] at hlt hok
    have hpo := hok cks.length (by omega) (by omega)
    have hsl := stack_le key flags (hm.stack.ok key flags hm.hashes)
    rw [length_chunkLeaves] at hsl
    obtain ⟨l1, e, c1⟩ := push_chunk_hash_log key flags g cks.length (chunkLeaves key flags 0 cks) S
      (.leaf (Spec.chunk key flags (2048 * cks.length) c)) hm.chunk.hkey hm.chunk.hflags hm.stack hm.hashes
      (length_chunkLeaves ..) (by omega)
    have hL : chunkLeaves key flags 0 cks ++ [.leaf (Spec.chunk key flags (2048 * cks.length) c)] =
        chunkLeaves key flags 0 (cks ++ [c]) := by
      rw [chunkLeaves_append, Nat.zero_add]; rfl
    obtain ⟨h1, f1, r1⟩ := push_sim h16 r _
      (bufOf key flags (chunkLeaves key flags (2048 * cks.length + 2048) new) ++ rest) _ e
      (fun ha => by have := hpo.1 ha; omega)
      (by
        have := hpo.2
        dsimp only
        rw [List.length_map, List.length_cons, length_canon, length_chunkLeaves]; exact this)
    have hm' : ∀ W', (∀ a, W'.count a = W.count a + l1.count a +
          (chunkCalls key flags (2048 * cks.length) [c]).count a) →
        WMid key flags p (cks ++ [c]) { g with
        subtree_hashes := (.leaf (Spec.chunk key flags (2048 * cks.length) c) ::
          canon (chunkLeaves key flags 0 cks)).map (hashOf key flags),
        chunk := { g.chunk with offset := BitVec.ofNat 64 (2048 * cks.length + 2048) } }
        (.leaf (Spec.chunk key flags (2048 * cks.length) c) :: canon (chunkLeaves key flags 0 cks)) W' := by
      intro W' hW'
      refine ⟨?_, ?_, Or.inr ⟨_, _, hL.symm, rfl⟩, rfl, ?_⟩
      · intro x hx
        rcases List.mem_append.1 hx with hx | hx
        · exact hm.len x hx
        · exact hnew x (by rw [List.mem_singleton.1 hx]; exact List.mem_cons_self ..)
      · have := ChunkOk.offset_change key flags (off' := 2048 * (cks ++ [c]).length) hm.chunk
        rw [List.length_append] at this ⊢
        exact this
      · intro a
        have q1 := c1 a
        have q2 := hm.work a
        rw [hW' a, chunkPre_append, chunkCalls_count, List.count_append, Nat.zero_add, chunkLeaves, chunkLeaves,
          cnt_cons, cnt_cons]
        have : cnt key flags [] a = 0 := rfl
        omega
    have r1' : HRel M { h1 with chunk := { h1.chunk with offset := h1.chunk.offset + BitVec.ofNat 64 C.CHUNK_LEN } } { g with
        subtree_hashes := (.leaf (Spec.chunk key flags (2048 * cks.length) c) ::
          canon (chunkLeaves key flags 0 cks)).map (hashOf key flags),
        chunk := { g.chunk with offset := BitVec.ofNat 64 (2048 * cks.length + 2048) } } := by
      refine ⟨⟨r1.chunk.state, r1.chunk.key, ?_, r1.chunk.count, r1.chunk.buf, r1.chunk.buf_len, r1.chunk.flags⟩, r1.len,
        r1.mem, r1.room⟩
      show h1.chunk.offset + _ = _
      rw [r1.chunk.offset]
      dsimp only
      rw [hm.chunk.hoff, BitVec.ofNat_add]
    obtain ⟨h', g', S', l', e', r', hm'', hp, hz⟩ := ih (cks ++ [c]) _ _
      (ts ++ [.leaf (Spec.chunk key flags (2048 * cks.length) c)]) rest _
      (W ++ l1 ++ chunkCalls key flags (2048 * cks.length) [c]) r1'
      (hm' _ (fun a => by rw [List.count_append, List.count_append]))
      (fun x hx => hnew x (List.mem_cons_of_mem _ hx))
      (by rw [List.length_append, List.length_singleton]; omega)
      (fun n h1 h2 => hok n (by rw [List.length_append] at h1; omega)
        (by rw [List.length_append, List.length_singleton] at h2; omega))
    rw [List.append_assoc cks, List.singleton_append] at hm'' hp
    refine ⟨h', g', S', l1 ++ l', ?_, r', ?_, fun _ => ?_, fun h => by cases h⟩
    · rw [chunkLeaves, List.length_cons, CT.push_chunks, advance_bufOf key flags ts _ _ _ rfl, lift_ok, r.chunk.offset,
        hm.chunk.hoff]
      refine tr_bind' f1 ?_
      rw [List.append_assoc, List.singleton_append, List.length_append, List.length_singleton, List.length_append,
        List.length_singleton, Nat.mul_add] at e'
      exact e'
    · intro W' hW'
      rw [← List.append_assoc]
      refine hm'' (W' ++ l1) fun a => ?_
      rw [List.count_append, List.count_append, List.count_append, hW' a, chunkCalls, chunkCalls, chunkCalls,
        List.count_append, List.append_nil, List.length_append, List.length_singleton, Nat.mul_add, Nat.mul_one]
      omega
    · by_cases hn : new = []
      · obtain ⟨-, hS, -⟩ := hz hn
        subst hn
        exact ⟨_, _, hL.symm, hS⟩
      · exact hp hn

/-! ## the main loop -/

/-- one batch: `collect_chunks` and `hash_many` -/
theorem batch_log (cfg : C.Config) (hn : cfg.neon = true → cfg.order = .little) (new : List Bytes) (hnew : ∀ c ∈ new, c.length = 2048) (tail extra : Bytes)
    (ht : tail.length < 2048) (chunks : List Bytes) (hc : chunks.length = 16) (out : Bytes) (ho : out.length = 512) (off : Nat) :
    ∃ chunks', collect_chunks chunks (new.flatten ++ tail ++ extra) (2048 * new.length + tail.length) 0 =
        .ok (chunks', (new.drop 16).flatten ++ tail ++ extra, 2048 * (new.drop 16).length + tail.length,
          (new.take 16).length) ∧
      chunks'.length = 16 ∧
      CT.hash_many cfg chunks' (new.take 16).length (C.CHUNK_LEN / C.BLOCK_LEN) key (BitVec.ofNat 64 off)
        CHUNK_OFFSET_DELTAS flags C.CHUNK_START C.CHUNK_END out =
        ⟨.ok (bufOf key flags (chunkLeaves key flags off (new.take 16)) ++ out.drop (32 * (new.take 16).length)),
          chunkCalls key flags off (new.take 16)⟩ := by
  obtain ⟨chunks', e, hl, hr⟩ := batch_eq key flags cfg hn new hnew tail extra ht chunks hc out ho off
  obtain ⟨chunks2, e', -, -, hi⟩ := collect_eq new hnew tail extra ht 0 chunks hc (by omega)
  simp only [Nat.sub_zero, Nat.zero_add] at e' hi
  rw [e] at e'
  cases e'
  refine ⟨chunks', e, hl, ?_⟩
  rw [CT.hash_many, hr]
  refine congrArg _ (many_loop_log key flags (new.take 16) chunks' off out ?_ (by rw [List.length_take]; omega))
  intro i h
  have hmem : (new.take 16).getD i [] ∈ new := by
    rw [List.getD_eq_getElem?_getD, List.getElem?_eq_getElem h]
    exact List.mem_of_mem_take (List.getElem_mem h)
  refine ⟨hnew _ hmem, ?_⟩
  rw [List.length_take] at h
  rw [hi i (by rw [List.length_take]; omega), List.getD_eq_getElem?_getD, List.getD_eq_getElem?_getD, List.getElem?_take,
    if_pos (by omega)]

theorem update_loop_log {cfg : C.Config} (h16 : 16 ≤ cfg.bits) {M : Nat} {p : Platform} (new : List Bytes)
    (hnew : ∀ c ∈ new, c.length = 2048) (tail extra : Bytes) (ht : tail.length < 2048) (cks : List Bytes) (h : C.hasher)
    (g : Model.Hasher) (out : Bytes) (ho : out.length = 512) (chunks : List Bytes) (hc : chunks.length = 16)
    (S : List (Tree Spec.Input)) (W : List Spec.Input)
    (r : HRel M h g) (hm : WMid key flags p cks g S W) (hlt : 2048 * (cks.length + new.length) < 2 ^ 64)
    (hok : ∀ n, cks.length ≤ n → n < cks.length + new.length → PushOk cfg M n)
    (hn : (cfg.neon = true → cfg.order = .little) ∨ new = []) :
    ∃ h' g' S' l, CT.update_loop cfg h out chunks (new.flatten ++ tail ++ extra) (2048 * new.length + tail.length) =
        ⟨.ok (h', tail ++ extra, tail.length), l⟩ ∧ HRel M h' g' ∧ WMid key flags p (cks ++ new) g' S' (W ++ l) ∧
      (new ≠ [] → ∃ init last, chunkLeaves key flags 0 (cks ++ new) = init ++ [last] ∧ S' = last :: canon init) ∧
      (new = [] → g' = g ∧ S' = S ∧ l = []) := by
  induction hl0 : new.length using Nat.strongRecOn generalizing new cks h g out chunks S W with
  | ind k ih =>
  rw [CT.update_loop]
  by_cases h0 : new = []
  · subst h0
    have hk : k = 0 := hl0.symm
    subst hk
    rw [dif_neg (by simp only [C.CHUNK_LEN]; omega)]
    refine ⟨h, g, S, [], ?_, r, by rwa [List.append_nil, List.append_nil], fun h => absurd rfl h, fun _ => ⟨rfl, rfl, rfl⟩⟩
    simp
    rfl
  · have hn' : cfg.neon = true → cfg.order = .little := hn.resolve_right h0
    have hpos : 0 < new.length := List.length_pos_iff.2 h0
    have htne : new.take 16 ≠ [] := by
      intro h; have := congrArg List.length h; rw [List.length_take, List.length_nil] at this; omega
    rw [dif_pos (by simp only [C.CHUNK_LEN]; omega)]
    obtain ⟨chunks', e1, hl', e2⟩ := batch_log key flags cfg hn' new hnew tail extra ht chunks hc out ho (2048 * cks.length)
    have htl : (new.take 16).length = min 16 new.length := List.length_take
    obtain ⟨h1, g1, S1, l1, f1, r1, hm1, hp1, -⟩ := push_chunks_log key flags h16 (new.take 16) cks h g []
      (out.drop (32 * (new.take 16).length)) S W r hm (fun c h => hnew c (List.mem_of_mem_take h)) (by omega)
      (fun n a b => hok n a (by omega))
    have hm1 := hm1 (W ++ chunkCalls key flags (2048 * cks.length) (new.take 16)) (fun a => List.count_append)
    rw [List.nil_append, List.length_nil] at f1
    rw [← hl0]
    split
    next e he => rw [e1] at he; cases he
    next c' b' l' n' he =>
      rw [e1] at he
      cases he
      have hdl : (new.drop 16).length = new.length - 16 := List.length_drop
      obtain ⟨h2, g2, S2, l2, f2, r2, hm2, hp2, hz2⟩ := ih (new.drop 16).length (by omega) (new.drop 16)
        (fun c h => hnew c (List.mem_of_mem_drop h)) (cks ++ new.take 16) h1 g1
        (bufOf key flags (chunkLeaves key flags (2048 * cks.length) (new.take 16)) ++ out.drop (32 * (new.take 16).length))
        (by rw [List.length_append, length_bufOf, length_chunkLeaves, List.length_drop]; omega) _ hl' S1 _ r1 hm1
        (by rw [List.length_append]; omega) (fun n a b => hok n (by rw [List.length_append] at a; omega)
          (by rw [List.length_append] at b; omega)) (Or.inl hn') rfl
      rw [List.append_assoc cks, List.take_append_drop] at hm2 hp2
      refine ⟨h2, g2, S2, chunkCalls key flags (2048 * cks.length) (new.take 16) ++ (l1 ++ l2), ?_, r2, ?_, fun _ => ?_,
        fun h => absurd h h0⟩
      · rw [r.chunk.key, r.chunk.flags, r.chunk.offset, hm.chunk.hkey, hm.chunk.hflags, hm.chunk.hoff]
        exact tr_bind' e2 (tr_bind' f1 f2)
      · rw [List.append_assoc, List.append_assoc] at hm2
        exact hm2
      · by_cases hd : new.drop 16 = []
        · obtain ⟨-, h3, -⟩ := hz2 hd
          rw [h3]
          have := hp1 htne
          rwa [show new.take 16 = new by
            have := List.take_append_drop 16 new
            rw [hd, List.append_nil] at this; exact this] at this
        · exact hp2 hd

/-! ## update -/

/-- The C object represents a hasher that has received `bytes`, with the compressions `W`. -/
def CWork (M : Nat) (p : Platform) (bytes : Bytes) (h : C.hasher) (W : List Spec.Input) : Prop :=
  ∃ g, HRel M h g ∧ Work key flags p bytes g W

theorem update_rest_log {cfg : C.Config} (h16 : 16 ≤ cfg.bits) {M : Nat} {p : Platform} (cks : List Bytes) (h : C.hasher)
    (g : Model.Hasher) (input extra : Bytes) (S : List (Tree Spec.Input)) (W : List Spec.Input) (r : HRel M h g)
    (hm : WMid key flags p cks g S W) (hin : input ≠ [])
    (hlt : 2048 * cks.length + input.length < 2 ^ 64) (h2 : 1 ≤ cks.length ∨ input.length ≠ 2048)
    (hok : ∀ n, cks.length ≤ n → n < cks.length + input.length / 2048 → PushOk cfg M n)
    (hn : (cfg.neon = true → cfg.order = .little) ∨ input.length < 2048) :
    ∃ h' l, CT.hasher_update_rest cfg h (input ++ extra) input.length = ⟨.ok h', l⟩ ∧
      CWork key flags M p (cks.flatten ++ input) h' (W ++ l) := by
  obtain ⟨new, tail, rfl, hnew, ht, hnl, hil⟩ := split_chunks input
  have hpos : 0 < (new.flatten ++ tail).length := List.length_pos_iff.2 hin
  rw [← hnl] at hok
  rw [hil] at hlt h2 hpos hn ⊢
  obtain ⟨h1, g1, S1, l1, f1, r1, hm1, hp1, hz1⟩ := update_loop_log key flags h16 new hnew tail extra ht cks h g
    (cfg.uninit (C.OUT_LEN * C.MAX_SIMD_DEGREE)) (length_uninit ..) (List.replicate C.MAX_SIMD_DEGREE []) rfl S W r hm
    (by omega) hok (hn.imp_right fun h => List.length_eq_zero_iff.1 (by omega))
  rw [CT.hasher_update_rest, tr_bind _ f1]
  dsimp only
  by_cases hr : tail = []
  · subst hr
    rw [if_neg (by simp)]
    rw [List.length_nil] at h2 hpos
    refine ⟨h1, _, rfl, g1, r1, cks ++ new, [], S1, by simp, hm1.len, by simp, hm1.chunk,
      ChunkLog.empty key flags hm1.chunk, hm1.hashes,
      Or.inr ⟨rfl, by rw [List.length_append]; omega, hp1 (by intro h; rw [h, List.length_nil] at hpos; omega)⟩, fun a => ?_⟩
    rw [cb_nil, log_pure, List.append_nil, hm1.work a]; rfl
  · have htp : 0 < tail.length := List.length_pos_iff.2 hr
    have hcl : (cks ++ new).length = cks.length + new.length := List.length_append
    obtain ⟨l2, em, c2⟩ := merge_to_canon_log key flags g1 _ _ S1 hm1.chunk.hkey hm1.chunk.hflags hm1.stack hm1.hashes
      (length_chunkLeaves ..) (by rw [hcl]; omega)
    obtain ⟨h2', f2, r2⟩ := merge_loop_sim h16 r1 _ em
    obtain ⟨s', l3, e, hs', hcl', hcb⟩ := chunk_update_log hm1.chunk (ChunkLog.empty key flags hm1.chunk) tail (by simp; omega)
    obtain ⟨c3, f3, r3⟩ := chunk_update_sim h16 extra r2.chunk e
    rw [if_pos htp, r1.chunk.offset, hm1.chunk.hoff, tr_bind' f2 (tr_bind' f3 rfl)]
    rw [List.nil_append] at hs' hcl' hcb
    rw [cb_nil, List.nil_append] at hcb
    refine ⟨_, _, rfl, { subtree_hashes := (canon (chunkLeaves key flags 0 (cks ++ new))).map (hashOf key flags), chunk := s' },
      ⟨r3, r2.len, r2.mem, r2.room⟩, cks ++ new, tail, _, ?_, hm1.len, by omega, hs', hcl', rfl, Or.inl ⟨Or.inl hr, rfl⟩,
      fun a => ?_⟩
    · rw [List.flatten_append, List.append_assoc]
    · have q1 := c2 a
      have q2 := hm1.work a
      rw [hcb]
      simp only [List.append_nil, List.count_append] at q1 q2 ⊢
      omega

theorem update_log {cfg : C.Config} (h16 : 16 ≤ cfg.bits) {M : Nat} {p : Platform} (bytes input extra : Bytes) (h : C.hasher)
    (W : List Spec.Input)
    (hok : CWork key flags M p bytes h W) (hlt : bytes.length + input.length < 2 ^ 64)
    (hroom : ∀ n, 2048 * (n + 1) ≤ bytes.length + input.length → 32 * (popcount n + 1) ≤ M)
    (ha : cfg.asserts = true → (∀ n, 2048 * (n + 1) ≤ bytes.length + input.length → popcount (n - 1) + 1 < 53) ∨
      input.length < 2048)
    (hn : (cfg.neon = true → cfg.order = .little) ∨ input.length < 2048) :
    ∃ h' l, CT.hasher_update cfg h (input ++ extra) input.length = ⟨.ok h', l⟩ ∧
      CWork key flags M p (bytes ++ input) h' (W ++ l) := by
  obtain ⟨g, r, cks, tail, S, rfl, hcks, htail, hch, hcl0, hH, hst, hW⟩ := hok
  have hfl := length_flatten cks hcks
  rw [List.length_append, hfl] at hlt hroom ha
  have hp := two_pow_bits h16
  have hcl := hch.len
  have hlen := r.chunk.len h16 (by rw [hcl]; omega)
  rw [hcl] at hlen
  have hoff0 := offset_zero_iff key flags hch (by omega)
  rw [← r.chunk.offset] at hoff0
  have hpok : ∀ (k : Nat) (l : Nat), 2048 * k + l = 2048 * cks.length + tail.length + input.length → l ≤ input.length →
      ∀ n, k ≤ n → n < k + l / 2048 → PushOk cfg M n := by
    intro k l e1 e2 n h1 h2
    refine ⟨fun hA => ?_, hroom n (by omega)⟩
    rcases ha hA with h | h
    · exact h n (by omega)
    · omega
  rw [CT.hasher_update]
  dsimp only
  by_cases hc : (h.chunk.offset = 0 ∧ input.length = C.CHUNK_LEN) ∨ chunk_state_len cfg h.chunk > 0
  · have hcanon : S = canon (chunkLeaves key flags 0 cks) := by
      rcases hst with ⟨-, h⟩ | ⟨h1, h2, -⟩
      · exact h
      · exfalso
        rw [hlen, h1] at hc
        rcases hc with ⟨h, -⟩ | h
        · have := hoff0.1 h; omega
        · simp at h
    rw [if_pos hc, hlen]
    have htk : (if subSz cfg.bits C.CHUNK_LEN tail.length > input.length then input.length
        else subSz cfg.bits C.CHUNK_LEN tail.length) = min (2048 - tail.length) input.length := by
      rw [show C.CHUNK_LEN = 2048 from rfl, subSz_le htail (by omega)]
      split <;> omega
    rw [htk]
    have hd : input.drop (min (2048 - tail.length) input.length) = input.drop (2048 - tail.length) := by
      by_cases h : 2048 - tail.length ≤ input.length
      · rw [Nat.min_eq_left h]
      · rw [Nat.min_eq_right (by omega), List.drop_of_length_le (by omega), List.drop_of_length_le (by omega)]
    have htl : (input.take (2048 - tail.length)).length = min (2048 - tail.length) input.length := List.length_take
    obtain ⟨s', l1, e, hs', hcl1, hcb⟩ := chunk_update_log hch hcl0 (input.take (2048 - tail.length)) (by omega)
    obtain ⟨c1, f1, r1⟩ := chunk_update_sim h16 (input.drop (2048 - tail.length) ++ extra) r.chunk e
    rw [← List.append_assoc, List.take_append_drop, htl] at f1
    rw [tr_bind _ f1, cAdvance_ok _ _ (by rw [List.length_append]; omega), lift_ok,
      drop_app (Nat.min_le_right _ _), hd]
    have hdl : (input.drop (2048 - tail.length)).length = input.length - min (2048 - tail.length) input.length := by
      rw [List.length_drop]; omega
    by_cases hi : input.length ≤ 2048 - tail.length
    · rw [if_neg (by omega)]
      rw [List.take_of_length_le hi] at hs' hcl1 hcb
      refine ⟨_, _, rfl, { g with chunk := s' }, ⟨r1, r.len, r.mem, r.room⟩, cks, tail ++ input, S,
        by rw [List.append_assoc], hcks, by rw [List.length_append]; omega, hs', hcl1, hH, Or.inl ⟨?_, hcanon⟩, fun a => ?_⟩
      · rcases hc with ⟨h, -⟩ | h
        · exact Or.inr (List.length_eq_zero_iff.1 (hoff0.1 h))
        · left
          intro h'; have := congrArg List.length h'
          rw [List.length_append, List.length_nil] at this; omega
      · have q1 := hW a
        rw [hcb]
        simp only [log_pure, List.append_nil, List.count_append] at q1 ⊢
        omega
    · rw [if_pos (by omega), ← hdl]
      have hft : (tail ++ input.take (2048 - tail.length)).length = 2048 := by rw [List.length_append]; omega
      obtain ⟨o, eo, hpo, ho⟩ := hs'.finalize .notRoot (by intro h; cases h)
      have hti : toInput o = Spec.chunk key flags (2048 * cks.length)
          (tail ++ input.take (2048 - tail.length)) := by
        rw [ho]
        simp only [IsRoot.flag, or_zero8]
      have hto : o.to_hash = hashOf key flags (.leaf (Spec.chunk key flags (2048 * cks.length)
          (tail ++ input.take (2048 - tail.length)))) := by
        rw [to_hash_eq, hti]
        rfl
      have hul := length_uninit cfg 32
      have f2 := chunk_finalize_sim (cfg := cfg) r1 false rfl eo (cfg.uninit C.OUT_LEN) (Nat.le_of_eq hul.symm)
      rw [hto, hti] at f2
      obtain ⟨l2, e2, c2⟩ := push_chunk_hash_log key flags { g with chunk := s' } cks.length (chunkLeaves key flags 0 cks) S
        (.leaf (Spec.chunk key flags (2048 * cks.length) (tail ++ input.take (2048 - tail.length))))
        hs'.hkey hs'.hflags (Or.inl hcanon) hH (length_chunkLeaves ..) (by omega)
      have hgl : g.subtree_hashes.length = popcount cks.length := by
        rw [hH, hcanon, List.length_map, length_canon, length_chunkLeaves]
      have h53 : popcount cks.length < 53 := by
        have h3 := popcount_53 (n := cks.length) (by omega)
        omega
      have r1' : HRel M { h with chunk := c1 } { g with chunk := s' } := ⟨r1, r.len, r.mem, r.room⟩
      obtain ⟨h3, f3, r3⟩ := push_sim h16 r1' _ ((cfg.uninit C.OUT_LEN).drop 32) _ e2 (fun _ => by dsimp only; omega)
        (by
          have := hroom cks.length (by omega)
          dsimp only
          rw [List.length_map, List.length_cons, length_canon, length_chunkLeaves]; exact this)
      have hmid : WMid key flags p (cks ++ [tail ++ input.take (2048 - tail.length)])
          { subtree_hashes := (.leaf (Spec.chunk key flags (2048 * cks.length) (tail ++ input.take (2048 - tail.length))) ::
              canon (chunkLeaves key flags 0 cks)).map (hashOf key flags),
            chunk := { s' with cv := s'.key, offset := BitVec.ofNat 64 (2048 * cks.length + 2048), count := 0,
                               buf := Vector.replicate 64 0, buf_len := 0 } }
          (.leaf (Spec.chunk key flags (2048 * cks.length) (tail ++ input.take (2048 - tail.length))) ::
              canon (chunkLeaves key flags 0 cks))
          (W ++ (l1 ++ ([Spec.chunk key flags (2048 * cks.length) (tail ++ input.take (2048 - tail.length))] ++ l2))) := by
        refine ⟨?_, ?_, Or.inr ⟨chunkLeaves key flags 0 cks, _, ?_, rfl⟩, rfl, fun a => ?_⟩
        · intro x hx
          rcases List.mem_append.1 hx with hx | hx
          · exact hcks x hx
          · rw [List.mem_singleton.1 hx]; exact hft
        · have := ChunkOk.fresh key flags p (2048 * (cks ++ [tail ++ input.take (2048 - tail.length)]).length)
          rw [List.length_append, List.length_singleton, Nat.mul_add] at this ⊢
          rw [hs'.hkey, hs'.hflags, hs'.hplat]
          exact this
        · rw [chunkLeaves_append, Nat.zero_add]; rfl
        · have q1 := hW a
          have q2 := c2 a
          rw [chunkPre_append, Nat.zero_add, chunkPre, chunkPre, List.append_nil, hcb, cnt_cons, nodes, under, inp]
          simp only [List.count_append, List.nil_append] at q1 ⊢
          omega
      have r4 : HRel M { h3 with chunk := chunk_state_reset h3.chunk (h3.chunk.offset + BitVec.ofNat 64 C.CHUNK_LEN) }
          { subtree_hashes := (.leaf (Spec.chunk key flags (2048 * cks.length) (tail ++ input.take (2048 - tail.length))) ::
              canon (chunkLeaves key flags 0 cks)).map (hashOf key flags),
            chunk := { s' with cv := s'.key, offset := BitVec.ofNat 64 (2048 * cks.length + 2048), count := 0,
                               buf := Vector.replicate 64 0, buf_len := 0 } } := by
        refine ⟨⟨r3.chunk.key, r3.chunk.key, ?_, rfl, replicate_toList, rfl, r3.chunk.flags⟩, r3.len, r3.mem, r3.room⟩
        show h3.chunk.offset + _ = _
        rw [r3.chunk.offset]
        show s'.offset + _ = _
        rw [hs'.hoff, BitVec.ofNat_add]
      have hcl1' : (cks ++ [tail ++ input.take (2048 - tail.length)]).length = cks.length + 1 := by simp
      obtain ⟨h', l3, e3, hok'⟩ := update_rest_log key flags h16 _ _ _ (input.drop (2048 - tail.length)) extra _ _ r4 hmid
        (by intro h; have := congrArg List.length h; rw [List.length_nil] at this; omega) (by omega) (Or.inl (by omega))
        (hpok _ _ (by omega) (by omega)) (hn.imp_right fun h => by omega)
      rw [r1.offset, hs'.hoff, tr_bind' f2 (tr_bind' f3 e3)]
      refine ⟨h', _, rfl, ?_⟩
      rw [List.flatten_append, List.flatten_cons, List.flatten_nil, List.append_nil, List.append_assoc cks.flatten,
        List.append_assoc tail, List.take_append_drop, ← List.append_assoc cks.flatten] at hok'
      simp only [List.append_assoc] at hok' ⊢
      exact hok'
  · rw [if_neg hc]
    have htz : tail = [] := by
      rw [hlen] at hc
      exact List.length_eq_zero_iff.1 (by omega)
    subst htz
    rw [List.length_nil] at hlt hpok
    by_cases hin : input = []
    · subst hin
      refine ⟨h, [], ?_, g, r, cks, [], S, by simp, hcks, by simp, hch, hcl0, hH, hst, by rwa [List.append_nil]⟩
      rw [CT.hasher_update_rest, CT.update_loop, dif_neg (by simp)]
      rfl
    · have hmid : WMid key flags p cks g S W := by
        refine ⟨hcks, hch, ?_, hH, fun a => ?_⟩
        · rcases hst with ⟨-, h⟩ | ⟨-, -, h⟩
          · exact Or.inl h
          · exact Or.inr h
        · rw [hW a, cb_nil]; rfl
      obtain ⟨h', l3, e3, hok'⟩ := update_rest_log key flags h16 cks h g input extra S W r hmid hin (by omega) (by
        by_cases h0 : cks.length = 0
        · right; intro hi; exact hc (Or.inl ⟨hoff0.2 h0, hi⟩)
        · left; omega) (hpok _ _ (by omega) (by omega)) hn
      exact ⟨h', l3, e3, by rwa [List.append_nil]⟩

/-! ## finalize -/

theorem Work.ok {p : Platform} {bytes : Bytes} {g : Model.Hasher} {W : List Spec.Input} (h : Work key flags p bytes g W) :
    HasherOk key flags p bytes g := by
  obtain ⟨cks, tail, S, h1, h2, h3, h4, -, hH, hst, -⟩ := h
  refine ⟨cks, tail, h1, h2, h3, h4, ?_⟩
  rcases hst with ⟨a, b⟩ | ⟨a, b, init, last, c, d⟩
  · exact Or.inl ⟨a, by rw [hH, b]⟩
  · exact Or.inr ⟨a, b, init, last, c, by rw [hH, d, List.map_cons]⟩

theorem CWork.ok {M : Nat} {p : Platform} {bytes : Bytes} {h : C.hasher} {W : List Spec.Input}
    (hw : CWork key flags M p bytes h W) : COk key flags M p bytes h := by
  obtain ⟨g, r, hg⟩ := hw
  exact ⟨g, r, Work.ok key flags hg⟩

theorem finalize_loop_log {cfg : C.Config} (h16 : 16 ≤ cfg.bits) {h : C.hasher} {g : Model.Hasher} (rc : CRel h.chunk g.chunk)
    (out : Bytes) (ho : 32 ≤ out.length) (S : List (Vector Byte 32)) :
    ∀ (rest : Bytes) (wh : Vector Byte 32) (fuel : Nat) (o : Output) (l : List Spec.Input), h.subtree_hashes = stackBytes S ++ rest →
    T.Hasher.finalize_loop g wh S = ⟨.ok o, l⟩ → S.length ≤ fuel → S.length < 256 →
    CT.finalize_loop cfg h out fuel wh.toList (32 * (S.length - 1)) =
      ⟨.ok (o.to_hash.toList ++ out.drop 32), l ++ [toInput o]⟩ := by
  have hp := two_pow_bits h16
  induction S with
  | nil => intro rest wh fuel o l _ e; cases congrArg TR.res e
  | cons s S ih =>
    intro rest wh fuel o l hmem e hfuel h256
    rw [List.length_cons] at hfuel h256
    obtain ⟨fuel, rfl⟩ : ∃ f, fuel = f + 1 := ⟨fuel - 1, by omega⟩
    rw [List.length_cons, Nat.add_sub_cancel, CT.finalize_loop]
    have hsl := length_stackBytes S
    have hul := length_uninit cfg C.BLOCK_LEN
    rw [stackBytes, List.append_assoc] at hmem
    have b1 : memcpy (cfg.uninit C.BLOCK_LEN) 0 (s.toList ++ rest) C.OUT_LEN =
        .ok (s.toList ++ (cfg.uninit C.BLOCK_LEN).drop 32) := by
      rw [memcpy, cLoad, if_pos (by simp), bind_ok, List.drop_zero, List.take_left' (by simp), cStore_zero _ _ (by simp [hul, C.BLOCK_LEN]),
        Vector.length_toList]
    have b2 : memcpy (s.toList ++ (cfg.uninit C.BLOCK_LEN).drop 32) C.OUT_LEN wh.toList C.OUT_LEN =
        .ok (s.toList ++ wh.toList ++ []) := by
      rw [memcpy, cLoad, if_pos (by simp), bind_ok, List.drop_zero, List.take_of_length_le (by simp),
        cStore_append _ _ _ _ (by simp) (by simp [hul, C.BLOCK_LEN]), Vector.length_toList, List.drop_drop,
        List.drop_of_length_le (by rw [hul]; decide)]
    have hd : (stackBytes S ++ (s.toList ++ rest)).drop (32 * S.length) = s.toList ++ rest := List.drop_left' hsl
    rw [hmem, cAdvance_ok _ _ (by rw [List.length_append]; omega), lift_ok, hd, b1, lift_ok, b2, lift_ok]
    by_cases h0 : S = []
    · subst h0
      obtain ⟨hl, e'⟩ := pure_inv e
      rw [tr_bind _ (parent_sim s wh [] h.chunk.key .root h.chunk.flags g.chunk.platform _ (by simp) _ (by simp)),
        if_pos (by simp), rc.key, rc.flags, e', memcpy, cLoad, if_pos (by simp), bind_ok, List.drop_zero,
        List.take_left' (by simp), cStore_zero _ _ (by simp; omega), Vector.length_toList, hl]
      rfl
    · have hne : ¬ (32 * S.length = 0) := by
        have := List.length_pos_iff.2 h0; omega
      rw [tr_bind _ (parent_sim s wh [] h.chunk.key .notRoot h.chunk.flags g.chunk.platform _ (by simpa using hne) _ (by simp)),
        if_neg (by simpa using hne), rc.key, rc.flags]
      obtain ⟨s2, S2, rfl⟩ := List.exists_cons_of_ne_nil h0
      rw [T.Hasher.finalize_loop] at e
      · obtain ⟨wh', l1, l2, hl, e1, e⟩ := tr_inv e
        have hw : wh' = (Model.hash_one_parent s wh g.chunk.key .notRoot g.chunk.flags g.chunk.platform).to_hash :=
          (Except.ok.inj (congrArg TR.res e1)).symm
        have hl1 : l1 = [toInput (Model.hash_one_parent s wh g.chunk.key .notRoot g.chunk.flags g.chunk.platform)] :=
          (congrArg TR.log e1).symm.trans (to_hash_log _)
        subst hw hl1
        rw [List.drop_of_length_le (by simp), List.append_nil, subSz_le (by simp only [C.OUT_LEN]; omega) (by omega)]
        have := ih (s.toList ++ rest) _ fuel o l2 hmem e (by omega) (by omega)
        rw [show 32 * ((s2 :: S2).length - 1) = 32 * (s2 :: S2).length - C.OUT_LEN by
          simp only [C.OUT_LEN, List.length_cons]; omega] at this
        rw [this, hl, List.append_assoc]
      · simp

theorem finalize_log {cfg : C.Config} (h16 : 16 ≤ cfg.bits) {M : Nat} {p : Platform} (bytes : Bytes) (h : C.hasher)
    (W : List Spec.Input)
    (hok : CWork key flags M p bytes h W) (hlt : bytes.length < 2 ^ 64) (out : Bytes) (ho : 32 ≤ out.length) :
    ∃ l, CT.hasher_finalize cfg h out =
      ⟨.ok ((Spec.cvBytes (Spec.compress (asRoot (Spec.subtree key flags 0 bytes)))).toList ++ out.drop 32),
        l ++ [asRoot (Spec.subtree key flags 0 bytes)]⟩ ∧ (W ++ l).Perm (Spec.below key flags 0 bytes) := by
  have hp := two_pow_bits h16
  obtain ⟨g, r, hg⟩ := hok
  have hgo := Work.ok key flags hg
  obtain ⟨o, e, -, eo⟩ := finalize_xof_eq key flags p bytes g hgo hlt
  have hperm := finalize_xof_log key flags p bytes g W hg hlt
  refine ⟨_, ?_, hperm⟩
  rw [← eo, ← to_hash_eq]
  have e := tr_eq ((finalize_xof_res g).trans e)
  generalize (T.Hasher.finalize_xof g).log = l at e
  have hgl : g.chunk.len < 65536 := by
    obtain ⟨cks, tail, -, -, htail, hch, -⟩ := hgo.ex
    rw [hch.len]; omega
  have h256 := r.lt
  obtain ⟨rest, hmem⟩ := r.mem
  rw [T.Hasher.finalize_xof] at e
  have hz : (h.subtree_hashes_len = 0) = (g.subtree_hashes = []) := propext (by
    rw [← List.length_eq_zero_iff, ← r.len]
    constructor
    · intro e; rw [e]; rfl
    · intro e; exact BitVec.eq_of_toNat_eq e)
  have hul := length_uninit cfg C.OUT_LEN
  rw [CT.hasher_finalize, r.chunk.len h16 hgl]
  simp only [hz]
  split at e
  next h0 =>
    have hl : l = [] := (congrArg TR.log e).symm
    have e' : g.chunk.finalize .root = .ok o := congrArg TR.res e
    rw [if_pos h0, hl]
    exact chunk_finalize_sim r.chunk true rfl e' out ho
  next h0 =>
    have hpos : 0 < g.subtree_hashes.length := List.length_pos_iff.2 h0
    have hidx : intSz cfg.bits (((h.subtree_hashes_len.toNat : Int) - 1) * C.OUT_LEN) = 32 * (g.subtree_hashes.length - 1) := by
      rw [r.len, show ((g.subtree_hashes.length : Int) - 1) * (C.OUT_LEN : Nat) = ((32 * (g.subtree_hashes.length - 1) : Nat) : Int) by
        simp only [C.OUT_LEN]; omega, intSz_nat (by omega)]
    rw [if_neg h0]
    split at e
    next hl =>
      obtain ⟨-, -, e⟩ := lift_inv e
      obtain ⟨o1, e1, e⟩ := lift_inv e
      obtain ⟨wh', l1, l2, hl', e2, e⟩ := tr_inv e
      have hw : wh' = o1.to_hash := (Except.ok.inj (congrArg TR.res e2)).symm
      have hl1 : l1 = [toInput o1] := (congrArg TR.log e2).symm.trans (to_hash_log _)
      subst hw hl1
      rw [if_pos hl, tr_bind _ (chunk_finalize_sim r.chunk false rfl e1 _ (Nat.le_of_eq hul.symm)),
        List.drop_of_length_le (Nat.le_of_eq hul), List.append_nil, hidx,
        finalize_loop_log h16 r.chunk out ho _ rest _ 256 o l2 hmem e (by omega) h256, hl', List.append_assoc]
    next hl =>
      obtain ⟨u, e1, e⟩ := lift_inv e
      have h2 := assertR_inv e1
      rw [if_neg hl, hidx]
      split at e
      next last S hS =>
        rw [hS] at hmem h2 h256
        rw [List.length_cons] at h2 h256
        rw [stackBytes, List.append_assoc] at hmem
        have hidx2 : intSz cfg.bits (((h.subtree_hashes_len.toNat : Int) - 2) * C.OUT_LEN) = 32 * (S.length - 1) := by
          rw [r.len, hS, List.length_cons, show (((S.length + 1 : Nat) : Int) - 2) * (C.OUT_LEN : Nat) =
            ((32 * (S.length - 1) : Nat) : Int) by simp only [C.OUT_LEN]; omega, intSz_nat (by omega)]
        have hsl := length_stackBytes S
        rw [hS, List.length_cons, Nat.add_sub_cancel, hmem, cAdvance_ok _ _ (by rw [List.length_append]; omega), lift_ok,
          List.drop_left' hsl, memcpy, cLoad, if_pos (by simp), bind_ok, List.drop_zero, List.take_left' (by simp),
          cStore_zero _ _ (by simp [hul]), lift_ok, Vector.length_toList, List.drop_of_length_le (Nat.le_of_eq hul), List.append_nil, hidx2]
        exact finalize_loop_log h16 r.chunk out ho S (last.toList ++ rest) last 256 o l hmem e (by omega) (by omega)
      next => cases congrArg TR.res e

end

end Baokeshed.Proofs.CT
