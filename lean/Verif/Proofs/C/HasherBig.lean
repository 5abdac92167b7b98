import Verif.Proofs.C.Hasher

/-! # C: the hasher for inputs of any length -/

set_option linter.unusedVariables false
set_option linter.unusedSimpArgs false

namespace Baokeshed.Proofs.C
open Baokeshed.Model Baokeshed.Model.C
attribute [local irreducible] Spec.compress Spec.cvBytes

section
variable (key : Vector Word 8) (flags : Byte)

/-- How a hasher can fail that has room for `M` bytes of hashes. -/
def Bad (cfg : C.Config) (M : Nat) (err : Panic) : Prop :=
  (err = .assert ∧ cfg.asserts = true) ∨ (err = .ub ∧ (cfg.asserts = true → M < 1696))

theorem push_any {cfg : C.Config} (h16 : 16 ≤ cfg.bits) {M : Nat} (hM : M ≤ 1696) {h : C.hasher} {g : Model.Hasher}
    (r : HRel M h g) (hk : g.chunk.key = key) (hf : g.chunk.flags = flags) (n : Nat) (L : List (Tree Spec.Input))
    (hs : StackOk key flags L g.subtree_hashes) (hL : L.length = n) (hn : n < 2 ^ 53) (t : Tree Spec.Input) (extra : Bytes) :
    (∃ h1 S, hasher_push_chunk_hash cfg h ((hashOf key flags t).toList ++ extra) (BitVec.ofNat 64 (2048 * n)) = .ok h1 ∧
      HRel M h1 { g with subtree_hashes := S } ∧ Pushed key flags (L ++ [t]) S ∧ n + 1 < 2 ^ 53) ∨
    ∃ err, hasher_push_chunk_hash cfg h ((hashOf key flags t).toList ++ extra) (BitVec.ofNat 64 (2048 * n)) = .error err ∧
      Bad cfg M err := by
  by_cases ha : cfg.asserts = true ∧ 53 ≤ g.subtree_hashes.length
  · exact Or.inr ⟨.assert, push_assert r _ _ ha.1 ha.2, Or.inl ⟨rfl, ha.1⟩⟩
  have ha' : cfg.asserts = true → g.subtree_hashes.length < 53 := fun h => by
    rcases Nat.lt_or_ge g.subtree_hashes.length 53 with h1 | h1
    · exact h1
    · exact absurd ⟨h, h1⟩ ha
  by_cases hn1 : n + 1 < 2 ^ 53
  · obtain ⟨S, e, hS⟩ := push_chunk_hash_eq key flags g n L t hk hf hs hL (by omega)
    have hSl := hS.length
    rw [List.length_append, List.length_singleton, Nat.add_sub_cancel, hL] at hSl
    by_cases hr : 32 * (popcount n + 1) ≤ M
    · obtain ⟨h1, f1, r1⟩ := push_sim h16 r _ extra _ e ha' (by dsimp only; omega)
      exact Or.inl ⟨h1, S, f1, r1, hS, hn1⟩
    · refine Or.inr ⟨.ub, push_ub h16 r _ extra _ e ha' (by dsimp only; omega), Or.inr ⟨rfl, fun _ => ?_⟩⟩
      have := popcount_lt (n := n) (k := 53) (by omega)
      omega
  · have hn2 : n = 2 ^ 53 - 1 := by omega
    have em := merge_to_canon key flags g n L hk hf hs hL (by omega)
    obtain ⟨h1, f1, r1⟩ := merge_loop_sim h16 r _ em
    have hl1 := r1.len
    dsimp only at hl1
    rw [List.length_map, length_canon, hL, hn2, popcount_ones 53] at hl1
    have hr := r1.room
    refine Or.inr ⟨.ub, ?_, Or.inr ⟨rfl, fun hA => ?_⟩⟩
    · rw [hasher_push_chunk_hash, r.len, assertR, if_pos (by exact ha'), bind_ok, f1, bind_ok, memcpy, cLoad,
        if_pos (by simp), bind_ok, List.drop_zero, List.take_append_of_le_length (by simp),
        List.take_of_length_le (by simp), cStore, if_neg (by
          rw [hr, hl1, Vector.length_toList]; simp only [C.OUT_LEN]; omega)]
      rfl
    · exfalso
      have := ha' hA
      rcases hs with hs | hs
      · rw [hs, List.length_map, length_canon, hL, hn2, popcount_ones 53] at this
        omega
      · have hp : Pushed key flags L g.subtree_hashes := hs
        have hl := hp.length
        have hp2 : popcount (2 ^ 53 - 1 - 1) = 52 := by
          have h1 := popcount_ones 52
          rw [popcount, if_neg (by decide), show (2 ^ 53 - 1 - 1) % 2 = 0 by decide, show (2 ^ 53 - 1 - 1) / 2 = 2 ^ 52 - 1 by decide, h1]
        rw [hL, hn2, hp2] at hl
        omega

theorem push_chunks_any {cfg : C.Config} (h16 : 16 ≤ cfg.bits) {M : Nat} (hM : M ≤ 1696) {p : Platform} (new : List Bytes) :
    ∀ (cks : List Bytes) (h : C.hasher) (g : Model.Hasher) (ts : List (Tree Spec.Input)) (rest : Bytes),
    HRel M h g → Mid key flags p cks g → (∀ c ∈ new, c.length = 2048) → cks.length < 2 ^ 53 →
    (∃ h' g', push_chunks cfg h (bufOf key flags (ts ++ chunkLeaves key flags (2048 * cks.length) new) ++ rest) ts.length
        new.length = .ok h' ∧ HRel M h' g' ∧ Mid key flags p (cks ++ new) g' ∧
      (new ≠ [] → Pushed key flags (chunkLeaves key flags 0 (cks ++ new)) g'.subtree_hashes) ∧ (new = [] → g' = g) ∧
      cks.length + new.length < 2 ^ 53) ∨
    ∃ err, push_chunks cfg h (bufOf key flags (ts ++ chunkLeaves key flags (2048 * cks.length) new) ++ rest) ts.length
        new.length = .error err ∧ Bad cfg M err := by
  induction new with
  | nil =>
    intro cks h g ts rest r hm _ hlt
    exact Or.inl ⟨h, g, rfl, r, by rwa [List.append_nil], fun h => absurd rfl h, fun _ => rfl, hlt⟩
  | cons c new ih =>
    intro cks h g ts rest r hm hnew hlt
    have hadv := advance_bufOf key flags ts ts.length (.leaf (Spec.chunk key flags (2048 * cks.length) c))
      (chunkLeaves key flags (2048 * cks.length + 2048) new) rfl rest
    have hoff : h.chunk.offset = BitVec.ofNat 64 (2048 * cks.length) := r.chunk.offset.trans hm.chunk.hoff
    rcases push_any key flags h16 hM r hm.chunk.hkey hm.chunk.hflags cks.length (chunkLeaves key flags 0 cks) hm.stack
      (length_chunkLeaves ..) hlt (.leaf (Spec.chunk key flags (2048 * cks.length) c))
      (bufOf key flags (chunkLeaves key flags (2048 * cks.length + 2048) new) ++ rest) with ⟨h1, S, f1, r1, hS, hlt1⟩ | ⟨err, f1, hb⟩
    · have hL : chunkLeaves key flags 0 cks ++ [.leaf (Spec.chunk key flags (2048 * cks.length) c)] =
          chunkLeaves key flags 0 (cks ++ [c]) := by
        rw [chunkLeaves_append, Nat.zero_add]; rfl
      rw [hL] at hS
      have hc := hnew c (List.mem_cons_self ..)
      have r1' : HRel M { h1 with chunk := { h1.chunk with offset := h1.chunk.offset + BitVec.ofNat 64 C.CHUNK_LEN } }
          { subtree_hashes := S, chunk := { g.chunk with offset := BitVec.ofNat 64 (2048 * (cks ++ [c]).length) } } := by
        refine ⟨⟨r1.chunk.state, r1.chunk.key, ?_, r1.chunk.count, r1.chunk.buf, r1.chunk.buf_len, r1.chunk.flags⟩, r1.len, r1.mem, r1.room⟩
        show h1.chunk.offset + _ = _
        rw [r1.chunk.offset, show ({ g with subtree_hashes := S } : Model.Hasher).chunk.offset = _ from hm.chunk.hoff,
          List.length_append, List.length_singleton, Nat.mul_add, BitVec.ofNat_add]
      have hm1 : Mid key flags p (cks ++ [c])
          { subtree_hashes := S, chunk := { g.chunk with offset := BitVec.ofNat 64 (2048 * (cks ++ [c]).length) } } := by
        refine ⟨?_, ChunkOk.offset_change key flags hm.chunk, Or.inr hS⟩
        intro x hx
        rcases List.mem_append.1 hx with hx | hx
        · exact hm.len x hx
        · rw [List.mem_singleton.1 hx]; exact hc
      have ihh := ih (cks ++ [c]) _ _ (ts ++ [.leaf (Spec.chunk key flags (2048 * cks.length) c)])
        rest r1' hm1 (fun x hx => hnew x (List.mem_cons_of_mem _ hx))
        (by rw [List.length_append, List.length_singleton]; omega)
      have hstep : push_chunks cfg h (bufOf key flags (ts ++ chunkLeaves key flags (2048 * cks.length) (c :: new)) ++ rest) ts.length
          (c :: new).length = push_chunks cfg { h1 with chunk := { h1.chunk with offset := h1.chunk.offset + BitVec.ofNat 64 C.CHUNK_LEN } }
            (bufOf key flags (ts ++ [.leaf (Spec.chunk key flags (2048 * cks.length) c)] ++ chunkLeaves key flags (2048 * (cks ++ [c]).length) new) ++ rest)
            (ts ++ [Tree.leaf (Spec.chunk key flags (2048 * cks.length) c)]).length new.length := by
        rw [chunkLeaves, List.length_cons, push_chunks, hadv, bind_ok, hoff, f1, bind_ok]
        rw [List.append_assoc, List.singleton_append, List.length_append, List.length_singleton, List.length_append,
          List.length_singleton, Nat.mul_add]
      rw [hstep]
      rcases ihh with ⟨h2, g2, f2, r2, hm2, hp2, hz2, hlt2⟩ | ⟨err, f2, hb⟩
      · rw [List.append_assoc, List.singleton_append] at hm2 hp2
        rw [List.length_append, List.length_singleton] at hlt2
        refine Or.inl ⟨h2, g2, f2, r2, hm2, fun _ => ?_, (fun h => by cases h), by rw [List.length_cons]; omega⟩
        by_cases hn : new = []
        · rw [hz2 hn]; subst hn; exact hS
        · exact hp2 hn
      · exact Or.inr ⟨err, f2, hb⟩
    · refine Or.inr ⟨err, ?_, hb⟩
      rw [chunkLeaves, List.length_cons, push_chunks, hadv, bind_ok, hoff, f1]
      rfl

theorem update_loop_any {cfg : C.Config} (h16 : 16 ≤ cfg.bits) {M : Nat} (hM : M ≤ 1696) {p : Platform} (new : List Bytes)
    (hnew : ∀ c ∈ new, c.length = 2048) (tail extra : Bytes) (ht : tail.length < 2048) (cks : List Bytes) (h : C.hasher)
    (g : Model.Hasher) (out : Bytes) (ho : out.length = 512) (chunks : List Bytes) (hc : chunks.length = 16)
    (r : HRel M h g) (hm : Mid key flags p cks g) (hlt : cks.length < 2 ^ 53)
    (hn : (cfg.neon = true → cfg.order = .little) ∨ new = []) :
    (∃ h' g', C.update_loop cfg h out chunks (new.flatten ++ tail ++ extra) (2048 * new.length + tail.length) =
        .ok (h', tail ++ extra, tail.length) ∧ HRel M h' g' ∧ Mid key flags p (cks ++ new) g' ∧
      (new ≠ [] → Pushed key flags (chunkLeaves key flags 0 (cks ++ new)) g'.subtree_hashes) ∧ (new = [] → g' = g) ∧
      cks.length + new.length < 2 ^ 53) ∨
    ∃ err, C.update_loop cfg h out chunks (new.flatten ++ tail ++ extra) (2048 * new.length + tail.length) = .error err ∧
      Bad cfg M err := by
  induction hl0 : new.length using Nat.strongRecOn generalizing new cks h g out chunks with
  | ind k ih =>
  rw [C.update_loop]
  by_cases h0 : new = []
  · subst h0
    have hk : k = 0 := hl0.symm
    subst hk
    rw [dif_neg (by simp only [C.CHUNK_LEN]; omega)]
    refine Or.inl ⟨h, g, ?_, r, by rwa [List.append_nil], fun h => absurd rfl h, fun _ => rfl, hlt⟩
    simp
  · have hn' : cfg.neon = true → cfg.order = .little := hn.resolve_right h0
    have hpos : 0 < new.length := List.length_pos_iff.2 h0
    have htne : new.take 16 ≠ [] := by
      intro h; have := congrArg List.length h; rw [List.length_take, List.length_nil] at this; omega
    rw [dif_pos (by simp only [C.CHUNK_LEN]; omega)]
    obtain ⟨chunks', e1, hl', e2⟩ := batch_eq key flags cfg hn' new hnew tail extra ht chunks hc out ho (2048 * cks.length)
    have htl : (new.take 16).length = min 16 new.length := List.length_take
    have hpc := push_chunks_any key flags h16 hM (new.take 16) cks h g []
      (out.drop (32 * (new.take 16).length)) r hm (fun c h => hnew c (List.mem_of_mem_take h)) hlt
    rw [List.nil_append, List.length_nil] at hpc
    rw [← hl0]
    split
    next e he => rw [e1] at he; cases he
    next c' b' l' n' he =>
      rw [e1] at he
      cases he
      rw [r.chunk.key, r.chunk.flags, r.chunk.offset, hm.chunk.hkey, hm.chunk.hflags, hm.chunk.hoff, e2, bind_ok]
      rcases hpc with ⟨h1, g1, f1, r1, hm1, hp1, -, hlt1⟩ | ⟨err, f1, hb⟩
      · rw [f1, bind_ok]
        have hdl : (new.drop 16).length = new.length - 16 := List.length_drop
        rcases ih (new.drop 16).length (by omega) (new.drop 16)
          (fun c h => hnew c (List.mem_of_mem_drop h)) (cks ++ new.take 16) h1 g1
          (bufOf key flags (chunkLeaves key flags (2048 * cks.length) (new.take 16)) ++ out.drop (32 * (new.take 16).length))
          (by rw [List.length_append, length_bufOf, length_chunkLeaves, List.length_drop]; omega) _ hl' r1 hm1
          (by rw [List.length_append]; omega) (Or.inl hn') rfl with ⟨h2, g2, f2, r2, hm2, hp2, hz2, hlt2⟩ | ⟨err, f2, hb⟩
        · rw [List.append_assoc, List.take_append_drop] at hm2 hp2
          rw [List.length_append] at hlt2
          refine Or.inl ⟨h2, g2, f2, r2, hm2, fun _ => ?_, fun h => absurd h h0, by omega⟩
          by_cases hd : new.drop 16 = []
          · rw [hz2 hd]
            have := hp1 htne
            rwa [show new.take 16 = new by
              have := List.take_append_drop 16 new
              rw [hd, List.append_nil] at this; exact this] at this
          · exact hp2 hd
        · exact Or.inr ⟨err, f2, hb⟩
      · exact Or.inr ⟨err, by rw [f1]; rfl, hb⟩

/-- The C object represents a hasher that has received `bytes`, with less than 2^53 chunks pushed. -/
def COkR (M : Nat) (p : Platform) (bytes : Bytes) (h : C.hasher) : Prop :=
  ∃ g, HRel M h g ∧ HasherOkR key flags p bytes g

theorem update_rest_any {cfg : C.Config} (h16 : 16 ≤ cfg.bits) {M : Nat} (hM : M ≤ 1696) {p : Platform} (cks : List Bytes) (h : C.hasher)
    (g : Model.Hasher) (input extra : Bytes) (r : HRel M h g) (hm : Mid key flags p cks g) (hin : input ≠ [])
    (hlt : cks.length < 2 ^ 53) (h2 : 1 ≤ cks.length ∨ input.length ≠ 2048)
    (hn : (cfg.neon = true → cfg.order = .little) ∨ input.length < 2048) :
    (∃ h', hasher_update_rest cfg h (input ++ extra) input.length = .ok h' ∧
      COkR key flags M p (cks.flatten ++ input) h' ∧ 2048 * cks.length + input.length < 2 ^ 64) ∨
    ∃ err, hasher_update_rest cfg h (input ++ extra) input.length = .error err ∧ Bad cfg M err := by
  obtain ⟨new, tail, rfl, hnew, ht, hnl, hil⟩ := split_chunks input
  have hpos : 0 < (new.flatten ++ tail).length := List.length_pos_iff.2 hin
  rw [hil] at h2 hpos hn ⊢
  rcases update_loop_any key flags h16 hM new hnew tail extra ht cks h g
    (cfg.uninit (C.OUT_LEN * C.MAX_SIMD_DEGREE)) (length_uninit ..) (List.replicate C.MAX_SIMD_DEGREE []) rfl r hm
    hlt (hn.imp_right fun h => List.length_eq_zero_iff.1 (by omega)) with ⟨h1, g1, f1, r1, hm1, hp1, hz1, hlt1⟩ | ⟨err, f1, hb⟩
  · left
    rw [hasher_update_rest, f1, bind_ok]
    dsimp only
    by_cases hr : tail = []
    · subst hr
      rw [if_neg (by simp)]
      rw [List.length_nil] at h2 hpos
      refine ⟨h1, rfl, ⟨g1, r1, cks ++ new, [], by simp, hm1.len, by simp, hm1.chunk,
        Or.inr ⟨rfl, by rw [List.length_append]; omega, hp1 (by intro h; rw [h, List.length_nil] at hpos; omega)⟩,
        by rw [List.length_append]; exact hlt1⟩, by rw [List.length_nil]; omega⟩
    · have htp : 0 < tail.length := List.length_pos_iff.2 hr
      have hcl : (cks ++ new).length = cks.length + new.length := List.length_append
      have em := merge_to_canon key flags g1 _ _ hm1.chunk.hkey hm1.chunk.hflags hm1.stack (length_chunkLeaves ..)
        (by rw [hcl]; omega)
      obtain ⟨h2', f2, r2⟩ := merge_loop_sim h16 r1 _ em
      obtain ⟨s', e, hs'⟩ := hm1.chunk.update tail (by simp; omega)
      obtain ⟨c3, f3, r3⟩ := chunk_update_sim h16 extra r2.chunk e
      rw [if_pos htp, r1.chunk.offset, hm1.chunk.hoff, f2, bind_ok, f3, bind_ok]
      rw [List.nil_append] at hs'
      refine ⟨_, rfl, ⟨{ subtree_hashes := (canon (chunkLeaves key flags 0 (cks ++ new))).map (hashOf key flags), chunk := s' },
        ⟨r3, r2.len, r2.mem, r2.room⟩, cks ++ new, tail, ?_, hm1.len, by omega, hs', Or.inl ⟨Or.inl hr, rfl⟩, by rw [hcl]; exact hlt1⟩, by omega⟩
      rw [List.flatten_append, List.append_assoc]
  · exact Or.inr ⟨err, by rw [hasher_update_rest, f1]; rfl, hb⟩

theorem update_head_any {cfg : C.Config} (h16 : 16 ≤ cfg.bits) {M : Nat} (hM : M ≤ 1696) {p : Platform} (cks : List Bytes) (tail : Bytes) (h : C.hasher)
    (g : Model.Hasher) (input extra : Bytes) (r : HRel M h g) (hcks : ∀ c ∈ cks, c.length = 2048) (htail : tail.length ≤ 2048)
    (hch : ChunkOk key flags p (2048 * cks.length) tail g.chunk)
    (hst : g.subtree_hashes = (canon (chunkLeaves key flags 0 cks)).map (hashOf key flags))
    (hlt : cks.length < 2 ^ 53)
    (hc : (h.chunk.offset = 0 ∧ input.length = C.CHUNK_LEN) ∨ chunk_state_len cfg h.chunk > 0) :
    (∃ h1 g1, input.length ≤ 2048 - tail.length ∧ hasher_update cfg h (input ++ extra) input.length = .ok h1 ∧
      HRel M h1 g1 ∧ ChunkOk key flags p (2048 * cks.length) (tail ++ input) g1.chunk ∧
      g1.subtree_hashes = g.subtree_hashes) ∨
    (2048 - tail.length < input.length ∧ cks.length + 1 < 2 ^ 53 ∧
      ∃ h1 g1, hasher_update cfg h (input ++ extra) input.length =
        hasher_update_rest cfg h1 (input.drop (2048 - tail.length) ++ extra) (input.drop (2048 - tail.length)).length ∧
      HRel M h1 g1 ∧ Mid key flags p (cks ++ [tail ++ input.take (2048 - tail.length)]) g1 ∧
      Pushed key flags (chunkLeaves key flags 0 (cks ++ [tail ++ input.take (2048 - tail.length)])) g1.subtree_hashes) ∨
    (2048 - tail.length < input.length ∧
      ∃ err, hasher_update cfg h (input ++ extra) input.length = .error err ∧ Bad cfg M err) := by
  have hp := two_pow_bits h16
  have hcl := hch.len
  have hlen := r.chunk.len h16 (by rw [hcl]; omega)
  rw [hcl] at hlen
  rw [hasher_update]
  dsimp only
  rw [if_pos hc, hlen]
  have htk : (if subSz cfg.bits C.CHUNK_LEN tail.length > input.length then input.length
      else subSz cfg.bits C.CHUNK_LEN tail.length) = min (2048 - tail.length) input.length := by
    rw [show C.CHUNK_LEN = 2048 from rfl, subSz_le htail (by omega)]
    split <;> omega
  rw [htk]
  have ht : input.take (min (2048 - tail.length) input.length) = input.take (2048 - tail.length) := by
    rw [List.take_eq_take_iff]; omega
  have hd : input.drop (min (2048 - tail.length) input.length) = input.drop (2048 - tail.length) := by
    by_cases h : 2048 - tail.length ≤ input.length
    · rw [Nat.min_eq_left h]
    · rw [Nat.min_eq_right (by omega), List.drop_of_length_le (by omega), List.drop_of_length_le (by omega)]
  have htl : (input.take (2048 - tail.length)).length = min (2048 - tail.length) input.length := List.length_take
  obtain ⟨s', e, hs'⟩ := hch.update (input.take (2048 - tail.length)) (by omega)
  obtain ⟨c1, f1, r1⟩ := chunk_update_sim h16 (input.drop (2048 - tail.length) ++ extra) r.chunk e
  rw [← List.append_assoc, List.take_append_drop, htl] at f1
  rw [f1, bind_ok, cAdvance_ok _ _ (by rw [List.length_append]; omega), bind_ok,
    drop_app (Nat.min_le_right _ _), hd]
  have hdl : (input.drop (2048 - tail.length)).length = input.length - min (2048 - tail.length) input.length := by
    rw [List.length_drop]; omega
  by_cases hi : input.length ≤ 2048 - tail.length
  · left
    rw [if_neg (by omega)]
    rw [List.take_of_length_le hi] at hs'
    exact ⟨_, { g with chunk := s' }, hi, rfl, ⟨r1, r.len, r.mem, r.room⟩, hs', rfl⟩
  · right
    rw [if_pos (by omega), ← hdl]
    have hft : (tail ++ input.take (2048 - tail.length)).length = 2048 := by rw [List.length_append]; omega
    obtain ⟨o, eo, hpo, ho⟩ := hs'.finalize .notRoot (by intro h; cases h)
    have hto : o.to_hash = hashOf key flags (.leaf (Spec.chunk key flags (2048 * cks.length)
        (tail ++ input.take (2048 - tail.length)))) := by
      rw [to_hash_eq, ho]
      simp only [IsRoot.flag, or_zero8]
      rfl
    have hul := length_uninit cfg 32
    have f2 := chunk_finalize_sim (cfg := cfg) r1 false rfl eo (cfg.uninit C.OUT_LEN) (Nat.le_of_eq hul.symm)
    rw [hto] at f2
    have r1' : HRel M { h with chunk := c1 } { g with chunk := s' } := ⟨r1, r.len, r.mem, r.room⟩
    rw [f2, bind_ok, r1.offset, hs'.hoff]
    rcases push_any key flags h16 hM r1' hs'.hkey hs'.hflags cks.length (chunkLeaves key flags 0 cks) (Or.inl hst)
      (length_chunkLeaves ..) hlt (.leaf (Spec.chunk key flags (2048 * cks.length) (tail ++ input.take (2048 - tail.length))))
      ((cfg.uninit C.OUT_LEN).drop 32) with ⟨h3, S, f3, r3, hS, hlt3⟩ | ⟨err, f3, hb⟩
    · left
      refine ⟨by omega, hlt3, ?_⟩
      rw [f3, bind_ok]
      refine ⟨_, { subtree_hashes := S,
                   chunk := { s' with cv := s'.key, offset := BitVec.ofNat 64 (2048 * cks.length + 2048), count := 0,
                                      buf := Vector.replicate 64 0, buf_len := 0 } }, rfl,
        ⟨⟨r3.chunk.key, r3.chunk.key, ?_, rfl, replicate_toList, rfl, r3.chunk.flags⟩, r3.len, r3.mem, r3.room⟩,
        ⟨?_, ?_, Or.inr ?_⟩, ?_⟩
      · show h3.chunk.offset + _ = _
        rw [r3.chunk.offset]
        show s'.offset + _ = _
        rw [hs'.hoff, BitVec.ofNat_add]
      · intro x hx
        rcases List.mem_append.1 hx with hx | hx
        · exact hcks x hx
        · rw [List.mem_singleton.1 hx]; exact hft
      · have := ChunkOk.fresh key flags p (2048 * (cks ++ [tail ++ input.take (2048 - tail.length)]).length)
        rw [List.length_append, List.length_singleton, Nat.mul_add] at this ⊢
        rw [hs'.hkey, hs'.hflags, hs'.hplat]
        exact this
      · rw [chunkLeaves_append, Nat.zero_add]; exact hS
      · rw [chunkLeaves_append, Nat.zero_add]; exact hS
    · exact Or.inr ⟨by omega, err, by rw [f3]; rfl, hb⟩

/-- An update of a hasher with any number of bytes. -/
theorem update_any {cfg : C.Config} (h16 : 16 ≤ cfg.bits) {M : Nat} (hM : M ≤ 1696) {p : Platform} (bytes input extra : Bytes) (h : C.hasher)
    (hok : COkR key flags M p bytes h) (hn : (cfg.neon = true → cfg.order = .little) ∨ input.length < 2048) :
    (∃ h', hasher_update cfg h (input ++ extra) input.length = .ok h' ∧ COkR key flags M p (bytes ++ input) h' ∧
      (2048 ≤ input.length → bytes.length + input.length < 2 ^ 64)) ∨
    ∃ err, hasher_update cfg h (input ++ extra) input.length = .error err ∧ Bad cfg M err := by
  obtain ⟨g, r, hg⟩ := hok
  obtain ⟨cks, tail, rfl, hcks, htail, hch, hst, hlt⟩ := hg.ex
  have hfl := length_flatten cks hcks
  have hcl := hch.len
  have hlen := r.chunk.len h16 (by rw [hcl]; omega)
  rw [hcl] at hlen
  have hoff0 := offset_zero_iff key flags hch (by omega)
  rw [← r.chunk.offset] at hoff0
  by_cases hc : (h.chunk.offset = 0 ∧ input.length = C.CHUNK_LEN) ∨ chunk_state_len cfg h.chunk > 0
  · have hcanon : g.subtree_hashes = (canon (chunkLeaves key flags 0 cks)).map (hashOf key flags) := by
      rcases hst with ⟨-, h⟩ | ⟨h1, h2, -⟩
      · exact h
      · exfalso
        rw [hlen, h1] at hc
        rcases hc with ⟨h, -⟩ | h
        · have := hoff0.1 h; omega
        · simp at h
    rcases update_head_any key flags h16 hM cks tail h g input extra r hcks htail hch hcanon hlt hc with
      ⟨h1, g1, hil, e, r1, hch1, hs1⟩ | ⟨hil, hlt1, h1, g1, e, r1, hm1, hp1⟩ | ⟨-, err, e, hb⟩
    · refine Or.inl ⟨h1, e, ⟨g1, r1, cks, tail ++ input, by rw [List.append_assoc], hcks, by rw [List.length_append]; omega, hch1,
        Or.inl ⟨?_, hs1.trans hcanon⟩, hlt⟩, fun h2 => ?_⟩
      · rcases hc with ⟨h, -⟩ | h
        · exact Or.inr (List.length_eq_zero_iff.1 (hoff0.1 h))
        · left
          intro h'; have := congrArg List.length h'
          rw [List.length_append, List.length_nil] at this; omega
      · rw [List.length_append, hfl]
        rcases hc with ⟨h, -⟩ | h
        · have := hoff0.1 h; omega
        · omega
    · have hdl : (input.drop (2048 - tail.length)).length = input.length - (2048 - tail.length) := List.length_drop
      have hcl1 : (cks ++ [tail ++ input.take (2048 - tail.length)]).length = cks.length + 1 := by simp
      rw [e]
      rcases update_rest_any key flags h16 hM _ h1 g1 (input.drop (2048 - tail.length)) extra r1 hm1
        (by intro h; have := congrArg List.length h; rw [List.length_nil] at this; omega) (by omega) (Or.inl (by omega))
        (hn.imp_right fun h => by omega) with ⟨h2, e2, hok2, hl2⟩ | ⟨err, e2, hb⟩
      · refine Or.inl ⟨h2, e2, ?_, fun _ => by rw [List.length_append, hfl]; omega⟩
        rw [List.flatten_append, List.flatten_cons, List.flatten_nil, List.append_nil, List.append_assoc,
          List.append_assoc, List.take_append_drop, ← List.append_assoc] at hok2
        exact hok2
      · exact Or.inr ⟨err, e2, hb⟩
    · exact Or.inr ⟨err, e, hb⟩
  · have htz : tail = [] := by
      rw [hlen] at hc
      exact List.length_eq_zero_iff.1 (by omega)
    subst htz
    rw [hasher_update]
    dsimp only
    rw [if_neg hc]
    by_cases hin : input = []
    · subst hin
      refine Or.inl ⟨h, ?_, ⟨g, r, cks, [], by simp, hcks, by simp, hch, hst, hlt⟩, by simp⟩
      rw [hasher_update_rest, C.update_loop, dif_neg (by simp), bind_ok]
      rfl
    · have hmid : Mid key flags p cks g := by
        refine ⟨hcks, hch, ?_⟩
        rcases hst with ⟨-, h⟩ | ⟨-, -, h⟩
        · exact Or.inl h
        · exact Or.inr h
      rcases update_rest_any key flags h16 hM cks h g input extra r hmid hin hlt (by
        by_cases h0 : cks.length = 0
        · right; intro hi; exact hc (Or.inl ⟨hoff0.2 h0, hi⟩)
        · left; omega) hn with ⟨h2, e2, hok2, hl2⟩ | ⟨err, e2, hb⟩
      · exact Or.inl ⟨h2, e2, by rwa [List.append_nil], fun _ => by rw [List.append_nil, hfl]; omega⟩
      · exact Or.inr ⟨err, e2, hb⟩

theorem COkR.of {M : Nat} {p : Platform} {bytes : Bytes} {h : C.hasher} (ho : COk key flags M p bytes h) (hlt : bytes.length < 2 ^ 64) :
    COkR key flags M p bytes h := by
  obtain ⟨g, r, hg⟩ := ho
  exact ⟨g, r, HasherOkR.of key flags hg hlt⟩

theorem COkR.length {M : Nat} {p : Platform} {bytes : Bytes} {h : C.hasher} (ho : COkR key flags M p bytes h) :
    bytes.length ≤ 2 ^ 64 := by
  obtain ⟨g, r, hg⟩ := ho
  exact hg.length key flags

/-- An update by less than a chunk that completes the last chunk below 2^64 bytes. -/
theorem update_last {cfg : C.Config} (h16 : 16 ≤ cfg.bits) {M : Nat} (hM : M ≤ 1696) {p : Platform} (bytes input extra : Bytes) (h : C.hasher)
    (hok : COkR key flags M p bytes h) (h1 : input.length < 2048) (h0 : 0 < input.length) (htot : bytes.length + input.length = 2 ^ 64) :
    ∃ h', hasher_update cfg h (input ++ extra) input.length = .ok h' ∧ COkR key flags M p (bytes ++ input) h' := by
  obtain ⟨g, r, hg⟩ := hok
  obtain ⟨cks, tail, rfl, hcks, htail, hch, hst, hlt⟩ := hg.ex
  have hfl := length_flatten cks hcks
  rw [List.length_append, hfl] at htot
  have hcl := hch.len
  have hlen := r.chunk.len h16 (by rw [hcl]; omega)
  rw [hcl] at hlen
  have htp : 0 < tail.length := by omega
  have hcanon : g.subtree_hashes = (canon (chunkLeaves key flags 0 cks)).map (hashOf key flags) := by
    rcases hst with ⟨-, h⟩ | ⟨h1, h2, -⟩
    · exact h
    · rw [h1, List.length_nil] at htp; omega
  rcases update_head_any key flags h16 hM cks tail h g input extra r hcks htail hch hcanon hlt (Or.inr (by omega)) with
    ⟨h1, g1, hil, e, r1, hch1, hs1⟩ | ⟨hil, -⟩ | ⟨hil, -⟩
  · exact ⟨h1, e, g1, r1, cks, tail ++ input, by rw [List.append_assoc], hcks, by rw [List.length_append]; omega, hch1,
      Or.inl ⟨Or.inl (by intro h'; have := congrArg List.length h'; rw [List.length_append, List.length_nil] at this; omega),
        hs1.trans hcanon⟩, hlt⟩
  · omega
  · omega

end

end Baokeshed.Proofs.C
