import Verif.Proofs.C.HasherBig

/-! # C: exactly when the hasher fails -/

set_option linter.unusedVariables false
set_option linter.unusedSimpArgs false

namespace Baokeshed.Proofs.C
open Baokeshed.Model Baokeshed.Model.C
attribute [local irreducible] Spec.compress Spec.cvBytes

/-- There is room for the stack after chunk number `n` has been pushed. -/
def Room (M n : Nat) : Prop := 32 * (popcount n + 1) ≤ M

/-- a failure with no entry left, or with too little room -/
def Cause (cfg : C.Config) (M l : Nat) (err : Panic) : Prop :=
  (err = .assert ∧ cfg.asserts = true ∧ 53 ≤ l) ∨ (err = .ub ∧ (cfg.asserts = true → M < 1696))

section
variable (key : Vector Word 8) (flags : Byte)

theorem push_exact {cfg : C.Config} (h16 : 16 ≤ cfg.bits) {M : Nat} (hM : M ≤ 1696) {h : C.hasher} {g : Model.Hasher}
    (r : HRel M h g) (hk : g.chunk.key = key) (hf : g.chunk.flags = flags) (n : Nat) (L : List (Tree Spec.Input))
    (hs : StackOk key flags L g.subtree_hashes) (hL : L.length = n) (hn : n < 2 ^ 53) (t : Tree Spec.Input) (extra : Bytes) :
    (((cfg.asserts = true → g.subtree_hashes.length < 53) ∧ Room M n) ∧
      ∃ h1 S, hasher_push_chunk_hash cfg h ((hashOf key flags t).toList ++ extra) (BitVec.ofNat 64 (2048 * n)) = .ok h1 ∧
      HRel M h1 { g with subtree_hashes := S } ∧ Pushed key flags (L ++ [t]) S ∧ n + 1 < 2 ^ 53) ∨
    (¬ ((cfg.asserts = true → g.subtree_hashes.length < 53) ∧ Room M n) ∧
      ∃ err, hasher_push_chunk_hash cfg h ((hashOf key flags t).toList ++ extra) (BitVec.ofNat 64 (2048 * n)) = .error err ∧
      Cause cfg M g.subtree_hashes.length err) := by
  by_cases ha : cfg.asserts = true ∧ 53 ≤ g.subtree_hashes.length
  · refine Or.inr ⟨fun h => ?_, .assert, push_assert r _ _ ha.1 ha.2, Or.inl ⟨rfl, ha.1, ha.2⟩⟩
    have := h.1 ha.1
    omega
  have ha' : cfg.asserts = true → g.subtree_hashes.length < 53 := fun h => by
    rcases Nat.lt_or_ge g.subtree_hashes.length 53 with h1 | h1
    · exact h1
    · exact absurd ⟨h, h1⟩ ha
  by_cases hr : Room M n
  · rcases push_any key flags h16 hM r hk hf n L hs hL hn t extra with h | ⟨err, e, hb⟩
    · exact Or.inl ⟨⟨ha', hr⟩, h⟩
    · exfalso
      have hn1 : n + 1 < 2 ^ 53 := by
        rcases Nat.lt_or_ge (n + 1) (2 ^ 53) with h1 | h1
        · exact h1
        · have hn2 : n = 2 ^ 53 - 1 := by omega
          unfold Room at hr
          rw [hn2, popcount_ones 53] at hr
          omega
      obtain ⟨S, e', hS⟩ := push_chunk_hash_eq key flags g n L t hk hf hs hL (by omega)
      have hSl := hS.length
      rw [List.length_append, List.length_singleton, Nat.add_sub_cancel, hL] at hSl
      unfold Room at hr
      obtain ⟨h1, f1, -⟩ := push_sim h16 r _ extra _ e' ha' (by dsimp only; omega)
      rw [f1] at e
      cases e
  · rcases push_any key flags h16 hM r hk hf n L hs hL hn t extra with ⟨h1, S, e, r1, hS, -⟩ | ⟨err, e, hb⟩
    · exfalso
      have hSl := hS.length
      rw [List.length_append, List.length_singleton, Nat.add_sub_cancel, hL] at hSl
      obtain ⟨rest, hm⟩ := r1.mem
      have hroom := r1.room
      rw [hm, List.length_append, length_stackBytes] at hroom
      dsimp only at hroom
      rw [hSl] at hroom
      exact hr (by unfold Room; omega)
    · refine Or.inr ⟨fun h => hr h.2, err, e, ?_⟩
      rcases hb with ⟨h1, h2⟩ | h
      · exfalso
        subst h1
        by_cases hn1 : n + 1 < 2 ^ 53
        · obtain ⟨S, e', hS⟩ := push_chunk_hash_eq key flags g n L t hk hf hs hL (by omega)
          have hSl := hS.length
          rw [List.length_append, List.length_singleton, Nat.add_sub_cancel, hL] at hSl
          have e2 := push_ub h16 r _ extra _ e' ha' (by dsimp only; unfold Room at hr; omega)
          rw [e2] at e
          cases e
        · have := stack_le key flags hs
          have hn2 : n = 2 ^ 53 - 1 := by omega
          have hp2 : popcount (2 ^ 53 - 1 - 1) = 52 := by
            have h1 := popcount_ones 52
            rw [popcount, if_neg (by decide), show (2 ^ 53 - 1 - 1) % 2 = 0 by decide, show (2 ^ 53 - 1 - 1) / 2 = 2 ^ 52 - 1 by decide, h1]
          have em := merge_to_canon key flags g n L hk hf hs hL (by omega)
          obtain ⟨h1, f1, r1⟩ := merge_loop_sim h16 r _ em
          have hl1 := r1.len
          dsimp only at hl1
          rw [List.length_map, length_canon, hL, hn2, popcount_ones 53] at hl1
          have hr := r1.room
          have e2 : hasher_push_chunk_hash cfg h ((hashOf key flags t).toList ++ extra) (BitVec.ofNat 64 (2048 * n)) = .error .ub := by
            rw [hasher_push_chunk_hash, r.len, assertR, if_pos (by exact ha'), bind_ok, f1, bind_ok, memcpy, cLoad,
              if_pos (by simp), bind_ok, List.drop_zero, List.take_append_of_le_length (by simp),
              List.take_of_length_le (by simp), cStore, if_neg (by
                rw [hr, hl1, Vector.length_toList]; simp only [C.OUT_LEN]; omega)]
            rfl
          rw [e2] at e
          cases e
      · exact Or.inr h

/-- the stack before the main loop pushes a chunk -/
def Before (L : List (Tree Spec.Input)) (S : List (Vector Byte 32)) : Prop := (L = [] ∧ S = []) ∨ Pushed key flags L S

theorem before_length {cfg : C.Config} {M : Nat} {L : List (Tree Spec.Input)} {S : List (Vector Byte 32)} (h : Before key flags L S) :
    ((cfg.asserts = true → S.length < 53) ∧ Room M L.length) ↔ PushOk cfg M L.length := by
  unfold PushOk
  rcases h with ⟨rfl, rfl⟩ | h
  · simp only [List.length_nil, Nat.zero_sub, popcount_zero, Room]
    refine and_congr_left fun _ => ?_
    exact ⟨fun _ _ => by omega, fun _ _ => by omega⟩
  · rw [h.length, Room]

/-- What the main loop does with chunks number `lo` to `hi - 1`: where it fails. -/
def LoopErr (cfg : C.Config) (M lo hi : Nat) (err : Panic) : Prop :=
  ∃ n, lo ≤ n ∧ n < hi ∧ (∀ k, lo ≤ k → k < n → PushOk cfg M k) ∧ ¬ PushOk cfg M n ∧ Cause cfg M (popcount (n - 1) + 1) err

theorem push_chunks_exact {cfg : C.Config} (h16 : 16 ≤ cfg.bits) {M : Nat} (hM : M ≤ 1696) {p : Platform} (new : List Bytes) :
    ∀ (cks : List Bytes) (h : C.hasher) (g : Model.Hasher) (ts : List (Tree Spec.Input)) (rest : Bytes),
    HRel M h g → Mid key flags p cks g → Before key flags (chunkLeaves key flags 0 cks) g.subtree_hashes →
    (∀ c ∈ new, c.length = 2048) → cks.length < 2 ^ 53 →
    ((∀ k, cks.length ≤ k → k < cks.length + new.length → PushOk cfg M k) ∧
      ∃ h' g', push_chunks cfg h (bufOf key flags (ts ++ chunkLeaves key flags (2048 * cks.length) new) ++ rest) ts.length
        new.length = .ok h' ∧ HRel M h' g' ∧ Mid key flags p (cks ++ new) g' ∧
      (new ≠ [] → Pushed key flags (chunkLeaves key flags 0 (cks ++ new)) g'.subtree_hashes) ∧ (new = [] → g' = g) ∧
      cks.length + new.length < 2 ^ 53) ∨
    ∃ err, push_chunks cfg h (bufOf key flags (ts ++ chunkLeaves key flags (2048 * cks.length) new) ++ rest) ts.length
        new.length = .error err ∧ LoopErr cfg M cks.length (cks.length + new.length) err := by
  induction new with
  | nil =>
    intro cks h g ts rest r hm _ _ hlt
    exact Or.inl ⟨fun k h1 h2 => by rw [List.length_nil] at h2; omega, h, g, rfl, r, by rwa [List.append_nil], fun h => absurd rfl h, fun _ => rfl, hlt⟩
  | cons c new ih =>
    intro cks h g ts rest r hm hbf hnew hlt
    have hadv := advance_bufOf key flags ts ts.length (.leaf (Spec.chunk key flags (2048 * cks.length) c))
      (chunkLeaves key flags (2048 * cks.length + 2048) new) rfl rest
    have hoff : h.chunk.offset = BitVec.ofNat 64 (2048 * cks.length) := r.chunk.offset.trans hm.chunk.hoff
    have hbl := before_length key flags (cfg := cfg) (M := M) hbf
    rw [length_chunkLeaves] at hbl
    rcases push_exact key flags h16 hM r hm.chunk.hkey hm.chunk.hflags cks.length (chunkLeaves key flags 0 cks) hm.stack
      (length_chunkLeaves ..) hlt (.leaf (Spec.chunk key flags (2048 * cks.length) c))
      (bufOf key flags (chunkLeaves key flags (2048 * cks.length + 2048) new) ++ rest) with
      ⟨hP, h1, S, f1, r1, hS, hlt1⟩ | ⟨hP, err, f1, hb⟩
    · have hL : chunkLeaves key flags 0 cks ++ [.leaf (Spec.chunk key flags (2048 * cks.length) c)] =
          chunkLeaves key flags 0 (cks ++ [c]) := by
        rw [chunkLeaves_append, Nat.zero_add]; rfl
      rw [hL] at hS
      have hc := hnew c (List.mem_cons_self ..)
      have r1' : HRel M { h1 with chunk := { h1.chunk with offset := h1.chunk.offset + BitVec.ofNat 64 C.CHUNK_LEN } }
          { subtree_hashes := S, chunk := { g.chunk with offset := BitVec.ofNat 64 (2048 * (cks ++ [c]).length) } } := by
        refine ⟨⟨r1.chunk.state, r1.chunk.key, ?_, r1.chunk.count, r1.chunk.buf, r1.chunk.buf_len, r1.chunk.flags⟩, r1.len, r1.mem, r1.room⟩
        show h1.chunk.offset + _ = _
        rw [r1.chunk.offset, show ({ g with subtree_hashes := S } : Model.Hasher).chunk.offset = _ from hm.chunk.hoff,
          List.length_append, List.length_singleton, Nat.mul_add, BitVec.ofNat_add]
      have hm1 : Mid key flags p (cks ++ [c])
          { subtree_hashes := S, chunk := { g.chunk with offset := BitVec.ofNat 64 (2048 * (cks ++ [c]).length) } } := by
        refine ⟨?_, ChunkOk.offset_change key flags hm.chunk, Or.inr hS⟩
        intro x hx
        rcases List.mem_append.1 hx with hx | hx
        · exact hm.len x hx
        · rw [List.mem_singleton.1 hx]; exact hc
      have ihh := ih (cks ++ [c]) _ _ (ts ++ [.leaf (Spec.chunk key flags (2048 * cks.length) c)])
        rest r1' hm1 (Or.inr hS) (fun x hx => hnew x (List.mem_cons_of_mem _ hx))
        (by rw [List.length_append, List.length_singleton]; omega)
      have hstep : push_chunks cfg h (bufOf key flags (ts ++ chunkLeaves key flags (2048 * cks.length) (c :: new)) ++ rest) ts.length
          (c :: new).length = push_chunks cfg { h1 with chunk := { h1.chunk with offset := h1.chunk.offset + BitVec.ofNat 64 C.CHUNK_LEN } }
            (bufOf key flags (ts ++ [.leaf (Spec.chunk key flags (2048 * cks.length) c)] ++ chunkLeaves key flags (2048 * (cks ++ [c]).length) new) ++ rest)
            (ts ++ [Tree.leaf (Spec.chunk key flags (2048 * cks.length) c)]).length new.length := by
        rw [chunkLeaves, List.length_cons, push_chunks, hadv, bind_ok, hoff, f1, bind_ok]
        rw [List.append_assoc, List.singleton_append, List.length_append, List.length_singleton, List.length_append,
          List.length_singleton, Nat.mul_add]
      rw [hstep]
      have hP' := hbl.1 hP
      rcases ihh with ⟨hall, h2, g2, f2, r2, hm2, hp2, hz2, hlt2⟩ | ⟨err, f2, n, hn1, hn2, hn3, hn4, hn5⟩
      · rw [List.append_assoc, List.singleton_append] at hm2 hp2
        rw [List.length_append, List.length_singleton] at hlt2 hall
        refine Or.inl ⟨fun k h1 h2 => ?_, h2, g2, f2, r2, hm2, fun _ => ?_, (fun h => by cases h), by rw [List.length_cons]; omega⟩
        · by_cases hk : k = cks.length
          · rw [hk]; exact hP'
          · exact hall k (by omega) (by rw [List.length_cons] at h2; omega)
        by_cases hn : new = []
        · rw [hz2 hn]; subst hn; exact hS
        · exact hp2 hn
      · rw [List.length_append, List.length_singleton] at hn1 hn2 hn3
        refine Or.inr ⟨err, f2, n, by omega, by rw [List.length_cons]; omega, fun k h1 h2 => ?_, hn4, hn5⟩
        by_cases hk : k = cks.length
        · rw [hk]; exact hP'
        · exact hn3 k (by omega) h2
    · refine Or.inr ⟨err, ?_, cks.length, Nat.le_refl _, by rw [List.length_cons]; omega, fun k h1 h2 => by omega,
        fun h => hP (hbl.2 h), ?_⟩
      · rw [chunkLeaves, List.length_cons, push_chunks, hadv, bind_ok, hoff, f1]
        rfl
      · rcases hb with ⟨h1, h2, h3⟩ | hb
        · refine Or.inl ⟨h1, h2, ?_⟩
          have := stack_le key flags hm.stack
          rw [length_chunkLeaves] at this
          omega
        · exact Or.inr hb

theorem update_loop_exact {cfg : C.Config} (h16 : 16 ≤ cfg.bits) {M : Nat} (hM : M ≤ 1696) {p : Platform} (new : List Bytes)
    (hnew : ∀ c ∈ new, c.length = 2048) (tail extra : Bytes) (ht : tail.length < 2048) (cks : List Bytes) (h : C.hasher)
    (g : Model.Hasher) (out : Bytes) (ho : out.length = 512) (chunks : List Bytes) (hc : chunks.length = 16)
    (r : HRel M h g) (hm : Mid key flags p cks g) (hbf : Before key flags (chunkLeaves key flags 0 cks) g.subtree_hashes)
    (hlt : cks.length < 2 ^ 53)
    (hn : (cfg.neon = true → cfg.order = .little) ∨ new = []) :
    ((∀ k, cks.length ≤ k → k < cks.length + new.length → PushOk cfg M k) ∧
      ∃ h' g', C.update_loop cfg h out chunks (new.flatten ++ tail ++ extra) (2048 * new.length + tail.length) =
        .ok (h', tail ++ extra, tail.length) ∧ HRel M h' g' ∧ Mid key flags p (cks ++ new) g' ∧
      (new ≠ [] → Pushed key flags (chunkLeaves key flags 0 (cks ++ new)) g'.subtree_hashes) ∧ (new = [] → g' = g) ∧
      cks.length + new.length < 2 ^ 53) ∨
    ∃ err, C.update_loop cfg h out chunks (new.flatten ++ tail ++ extra) (2048 * new.length + tail.length) = .error err ∧
      LoopErr cfg M cks.length (cks.length + new.length) err := by
  induction hl0 : new.length using Nat.strongRecOn generalizing new cks h g out chunks with
  | ind k ih =>
  rw [C.update_loop]
  by_cases h0 : new = []
  · subst h0
    have hk : k = 0 := hl0.symm
    subst hk
    rw [dif_neg (by simp only [C.CHUNK_LEN]; omega)]
    refine Or.inl ⟨fun k h1 h2 => by omega, h, g, ?_, r, by rwa [List.append_nil], fun h => absurd rfl h, fun _ => rfl, hlt⟩
    simp
  · have hn' : cfg.neon = true → cfg.order = .little := hn.resolve_right h0
    have hpos : 0 < new.length := List.length_pos_iff.2 h0
    have htne : new.take 16 ≠ [] := by
      intro h; have := congrArg List.length h; rw [List.length_take, List.length_nil] at this; omega
    rw [dif_pos (by simp only [C.CHUNK_LEN]; omega)]
    obtain ⟨chunks', e1, hl', e2⟩ := batch_eq key flags cfg hn' new hnew tail extra ht chunks hc out ho (2048 * cks.length)
    have htl : (new.take 16).length = min 16 new.length := List.length_take
    have hpc := push_chunks_exact key flags h16 hM (new.take 16) cks h g []
      (out.drop (32 * (new.take 16).length)) r hm hbf (fun c h => hnew c (List.mem_of_mem_take h)) hlt
    rw [List.nil_append, List.length_nil] at hpc
    rw [← hl0]
    split
    next e he => rw [e1] at he; cases he
    next c' b' l' n' he =>
      rw [e1] at he
      cases he
      rw [r.chunk.key, r.chunk.flags, r.chunk.offset, hm.chunk.hkey, hm.chunk.hflags, hm.chunk.hoff, e2, bind_ok]
      rcases hpc with ⟨hall, h1, g1, f1, r1, hm1, hp1, -, hlt1⟩ | ⟨err, f1, n, hn1, hn2, hb⟩
      · rw [f1, bind_ok]
        have hdl : (new.drop 16).length = new.length - 16 := List.length_drop
        rcases ih (new.drop 16).length (by omega) (new.drop 16)
          (fun c h => hnew c (List.mem_of_mem_drop h)) (cks ++ new.take 16) h1 g1
          (bufOf key flags (chunkLeaves key flags (2048 * cks.length) (new.take 16)) ++ out.drop (32 * (new.take 16).length))
          (by rw [List.length_append, length_bufOf, length_chunkLeaves, List.length_drop]; omega) _ hl' r1 hm1
          (Or.inr (hp1 htne))
          (by rw [List.length_append]; omega) (Or.inl hn') rfl with
          ⟨hall2, h2, g2, f2, r2, hm2, hp2, hz2, hlt2⟩ | ⟨err, f2, n, hn1, hn2, hn3, hn4⟩
        · rw [List.append_assoc, List.take_append_drop] at hm2 hp2
          rw [List.length_append] at hlt2 hall2
          refine Or.inl ⟨fun k a b => ?_, h2, g2, f2, r2, hm2, fun _ => ?_, fun h => absurd h h0, by omega⟩
          · by_cases hk : k < cks.length + (new.take 16).length
            · exact hall k a hk
            · exact hall2 k (by omega) (by omega)
          by_cases hd : new.drop 16 = []
          · rw [hz2 hd]
            have := hp1 htne
            rwa [show new.take 16 = new by
              have := List.take_append_drop 16 new
              rw [hd, List.append_nil] at this; exact this] at this
          · exact hp2 hd
        · rw [List.length_append] at hn1 hn2 hn3
          refine Or.inr ⟨err, f2, n, by omega, by omega, fun k a b => ?_, hn4⟩
          by_cases hk : k < cks.length + (new.take 16).length
          · exact hall k a hk
          · exact hn3 k (by omega) (by omega)
      · exact Or.inr ⟨err, by rw [f1]; rfl, n, hn1, by omega, hb⟩

theorem update_rest_exact {cfg : C.Config} (h16 : 16 ≤ cfg.bits) {M : Nat} (hM : M ≤ 1696) {p : Platform} (cks : List Bytes) (h : C.hasher)
    (g : Model.Hasher) (input extra : Bytes) (r : HRel M h g) (hm : Mid key flags p cks g)
    (hbf : Before key flags (chunkLeaves key flags 0 cks) g.subtree_hashes) (hin : input ≠ [])
    (hlt : cks.length < 2 ^ 53) (h2 : 1 ≤ cks.length ∨ input.length ≠ 2048)
    (hn : (cfg.neon = true → cfg.order = .little) ∨ input.length < 2048) :
    ((∀ k, cks.length ≤ k → k < cks.length + input.length / 2048 → PushOk cfg M k) ∧
      ∃ h', hasher_update_rest cfg h (input ++ extra) input.length = .ok h' ∧
      COkR key flags M p (cks.flatten ++ input) h') ∨
    ∃ err, hasher_update_rest cfg h (input ++ extra) input.length = .error err ∧
      LoopErr cfg M cks.length (cks.length + input.length / 2048) err := by
  obtain ⟨new, tail, rfl, hnew, ht, hnl, hil⟩ := split_chunks input
  have hpos : 0 < (new.flatten ++ tail).length := List.length_pos_iff.2 hin
  rw [← hnl]
  rw [hil] at h2 hpos hn ⊢
  rcases update_loop_exact key flags h16 hM new hnew tail extra ht cks h g
    (cfg.uninit (C.OUT_LEN * C.MAX_SIMD_DEGREE)) (length_uninit ..) (List.replicate C.MAX_SIMD_DEGREE []) rfl r hm hbf
    hlt (hn.imp_right fun h => List.length_eq_zero_iff.1 (by omega)) with ⟨hall, h1, g1, f1, r1, hm1, hp1, hz1, hlt1⟩ | ⟨err, f1, hb⟩
  · refine Or.inl ⟨hall, ?_⟩
    rw [hasher_update_rest, f1, bind_ok]
    dsimp only
    by_cases hr : tail = []
    · subst hr
      rw [if_neg (by simp)]
      rw [List.length_nil] at h2 hpos
      exact ⟨h1, rfl, g1, r1, cks ++ new, [], by simp, hm1.len, by simp, hm1.chunk,
        Or.inr ⟨rfl, by rw [List.length_append]; omega, hp1 (by intro h; rw [h, List.length_nil] at hpos; omega)⟩,
        by rw [List.length_append]; exact hlt1⟩
    · have htp : 0 < tail.length := List.length_pos_iff.2 hr
      have hcl : (cks ++ new).length = cks.length + new.length := List.length_append
      have em := merge_to_canon key flags g1 _ _ hm1.chunk.hkey hm1.chunk.hflags hm1.stack (length_chunkLeaves ..)
        (by rw [hcl]; omega)
      obtain ⟨h2', f2, r2⟩ := merge_loop_sim h16 r1 _ em
      obtain ⟨s', e, hs'⟩ := hm1.chunk.update tail (by simp; omega)
      obtain ⟨c3, f3, r3⟩ := chunk_update_sim h16 extra r2.chunk e
      rw [if_pos htp, r1.chunk.offset, hm1.chunk.hoff, f2, bind_ok, f3, bind_ok]
      rw [List.nil_append] at hs'
      refine ⟨_, rfl, { subtree_hashes := (canon (chunkLeaves key flags 0 (cks ++ new))).map (hashOf key flags), chunk := s' },
        ⟨r3, r2.len, r2.mem, r2.room⟩, cks ++ new, tail, ?_, hm1.len, by omega, hs', Or.inl ⟨Or.inl hr, rfl⟩, by rw [hcl]; exact hlt1⟩
      rw [List.flatten_append, List.append_assoc]
  · exact Or.inr ⟨err, by rw [hasher_update_rest, f1]; rfl, hb⟩

theorem update_head_exact {cfg : C.Config} (h16 : 16 ≤ cfg.bits) {M : Nat} (hM : M ≤ 1696) {p : Platform} (cks : List Bytes) (tail : Bytes) (h : C.hasher)
    (g : Model.Hasher) (input extra : Bytes) (r : HRel M h g) (hcks : ∀ c ∈ cks, c.length = 2048) (htail : tail.length ≤ 2048)
    (hch : ChunkOk key flags p (2048 * cks.length) tail g.chunk)
    (hst : g.subtree_hashes = (canon (chunkLeaves key flags 0 cks)).map (hashOf key flags))
    (hlt : cks.length < 2 ^ 53)
    (hc : (h.chunk.offset = 0 ∧ input.length = C.CHUNK_LEN) ∨ chunk_state_len cfg h.chunk > 0) :
    (∃ h1 g1, input.length ≤ 2048 - tail.length ∧ hasher_update cfg h (input ++ extra) input.length = .ok h1 ∧
      HRel M h1 g1 ∧ ChunkOk key flags p (2048 * cks.length) (tail ++ input) g1.chunk ∧
      g1.subtree_hashes = g.subtree_hashes) ∨
    (2048 - tail.length < input.length ∧ cks.length + 1 < 2 ^ 53 ∧ Room M cks.length ∧
      ∃ h1 g1, hasher_update cfg h (input ++ extra) input.length =
        hasher_update_rest cfg h1 (input.drop (2048 - tail.length) ++ extra) (input.drop (2048 - tail.length)).length ∧
      HRel M h1 g1 ∧ Mid key flags p (cks ++ [tail ++ input.take (2048 - tail.length)]) g1 ∧
      Pushed key flags (chunkLeaves key flags 0 (cks ++ [tail ++ input.take (2048 - tail.length)])) g1.subtree_hashes) ∨
    (2048 - tail.length < input.length ∧ ¬ Room M cks.length ∧
      ∃ err, hasher_update cfg h (input ++ extra) input.length = .error err ∧ Cause cfg M (popcount cks.length) err) := by
  have hp := two_pow_bits h16
  have hcl := hch.len
  have hlen := r.chunk.len h16 (by rw [hcl]; omega)
  rw [hcl] at hlen
  rw [hasher_update]
  dsimp only
  rw [if_pos hc, hlen]
  have htk : (if subSz cfg.bits C.CHUNK_LEN tail.length > input.length then input.length
      else subSz cfg.bits C.CHUNK_LEN tail.length) = min (2048 - tail.length) input.length := by
    rw [show C.CHUNK_LEN = 2048 from rfl, subSz_le htail (by omega)]
    split <;> omega
  rw [htk]
  have ht : input.take (min (2048 - tail.length) input.length) = input.take (2048 - tail.length) := by
    rw [List.take_eq_take_iff]; omega
  have hd : input.drop (min (2048 - tail.length) input.length) = input.drop (2048 - tail.length) := by
    by_cases h : 2048 - tail.length ≤ input.length
    · rw [Nat.min_eq_left h]
    · rw [Nat.min_eq_right (by omega), List.drop_of_length_le (by omega), List.drop_of_length_le (by omega)]
  have htl : (input.take (2048 - tail.length)).length = min (2048 - tail.length) input.length := List.length_take
  obtain ⟨s', e, hs'⟩ := hch.update (input.take (2048 - tail.length)) (by omega)
  obtain ⟨c1, f1, r1⟩ := chunk_update_sim h16 (input.drop (2048 - tail.length) ++ extra) r.chunk e
  rw [← List.append_assoc, List.take_append_drop, htl] at f1
  rw [f1, bind_ok, cAdvance_ok _ _ (by rw [List.length_append]; omega), bind_ok,
    drop_app (Nat.min_le_right _ _), hd]
  have hdl : (input.drop (2048 - tail.length)).length = input.length - min (2048 - tail.length) input.length := by
    rw [List.length_drop]; omega
  by_cases hi : input.length ≤ 2048 - tail.length
  · left
    rw [if_neg (by omega)]
    rw [List.take_of_length_le hi] at hs'
    exact ⟨_, { g with chunk := s' }, hi, rfl, ⟨r1, r.len, r.mem, r.room⟩, hs', rfl⟩
  · right
    rw [if_pos (by omega), ← hdl]
    have hft : (tail ++ input.take (2048 - tail.length)).length = 2048 := by rw [List.length_append]; omega
    obtain ⟨o, eo, hpo, ho⟩ := hs'.finalize .notRoot (by intro h; cases h)
    have hto : o.to_hash = hashOf key flags (.leaf (Spec.chunk key flags (2048 * cks.length)
        (tail ++ input.take (2048 - tail.length)))) := by
      rw [to_hash_eq, ho]
      simp only [IsRoot.flag, or_zero8]
      rfl
    have hul := length_uninit cfg 32
    have f2 := chunk_finalize_sim (cfg := cfg) r1 false rfl eo (cfg.uninit C.OUT_LEN) (Nat.le_of_eq hul.symm)
    rw [hto] at f2
    have r1' : HRel M { h with chunk := c1 } { g with chunk := s' } := ⟨r1, r.len, r.mem, r.room⟩
    rw [f2, bind_ok, r1.offset, hs'.hoff]
    have hgl : g.subtree_hashes.length = popcount cks.length := by
      rw [hst, List.length_map, length_canon, length_chunkLeaves]
    rcases push_exact key flags h16 hM r1' hs'.hkey hs'.hflags cks.length (chunkLeaves key flags 0 cks) (Or.inl hst)
      (length_chunkLeaves ..) hlt (.leaf (Spec.chunk key flags (2048 * cks.length) (tail ++ input.take (2048 - tail.length))))
      ((cfg.uninit C.OUT_LEN).drop 32) with ⟨hP, h3, S, f3, r3, hS, hlt3⟩ | ⟨hP, err, f3, hb⟩
    · left
      refine ⟨by omega, hlt3, hP.2, ?_⟩
      rw [f3, bind_ok]
      refine ⟨_, { subtree_hashes := S,
                   chunk := { s' with cv := s'.key, offset := BitVec.ofNat 64 (2048 * cks.length + 2048), count := 0,
                                      buf := Vector.replicate 64 0, buf_len := 0 } }, rfl,
        ⟨⟨r3.chunk.key, r3.chunk.key, ?_, rfl, replicate_toList, rfl, r3.chunk.flags⟩, r3.len, r3.mem, r3.room⟩,
        ⟨?_, ?_, Or.inr ?_⟩, ?_⟩
      · show h3.chunk.offset + _ = _
        rw [r3.chunk.offset]
        show s'.offset + _ = _
        rw [hs'.hoff, BitVec.ofNat_add]
      · intro x hx
        rcases List.mem_append.1 hx with hx | hx
        · exact hcks x hx
        · rw [List.mem_singleton.1 hx]; exact hft
      · have := ChunkOk.fresh key flags p (2048 * (cks ++ [tail ++ input.take (2048 - tail.length)]).length)
        rw [List.length_append, List.length_singleton, Nat.mul_add] at this ⊢
        rw [hs'.hkey, hs'.hflags, hs'.hplat]
        exact this
      · rw [chunkLeaves_append, Nat.zero_add]; exact hS
      · rw [chunkLeaves_append, Nat.zero_add]; exact hS
    · dsimp only at hP hb
      rw [hgl] at hP hb
      refine Or.inr ⟨by omega, fun hr => hP ⟨fun _ => ?_, hr⟩, err, by rw [f3]; rfl, hb⟩
      unfold Room at hr
      omega

/-- What an update that takes a hasher from `a` to `b` bytes needs in order to succeed: room for the chunk that it
completes, if there are more bytes; and, for every chunk that lies wholly within it, room and no failing assertion. -/
def UpdOk (cfg : C.Config) (M a b : Nat) : Prop :=
  (∀ n, 2048 * n < a → a ≤ 2048 * (n + 1) → 2048 * (n + 1) < b → Room M n) ∧
  (∀ n, a ≤ 2048 * n → 2048 * (n + 1) ≤ b → PushOk cfg M n)

/-- How it fails: if by the assertion, then at a chunk beyond number 2^52, and there was room for all chunks before. -/
def UpdErr (cfg : C.Config) (M a : Nat) (err : Panic) : Prop :=
  (err = .assert ∧ cfg.asserts = true ∧ ∃ n, 2 ^ 52 ≤ n ∧ ∀ k, k < n → a ≤ 2048 * (k + 1) → Room M k) ∨
  (err = .ub ∧ (cfg.asserts = true → M < 1696))

theorem popcount_big {n k : Nat} (h : k ≤ popcount n) : 2 ^ k - 1 ≤ n := by
  rcases Nat.lt_or_ge n (2 ^ k - 1) with h1 | h1
  · have := popcount_lt h1; omega
  · exact h1

theorem update_exact {cfg : C.Config} (h16 : 16 ≤ cfg.bits) {M : Nat} (hM : M ≤ 1696) (h32 : 32 ≤ M) {p : Platform} (bytes input extra : Bytes) (h : C.hasher)
    (hok : COkR key flags M p bytes h) (hn : (cfg.neon = true → cfg.order = .little) ∨ input.length < 2048) :
    (UpdOk cfg M bytes.length (bytes.length + input.length) ∧
      ∃ h', hasher_update cfg h (input ++ extra) input.length = .ok h' ∧ COkR key flags M p (bytes ++ input) h') ∨
    (¬ UpdOk cfg M bytes.length (bytes.length + input.length) ∧
      ∃ err, hasher_update cfg h (input ++ extra) input.length = .error err ∧ UpdErr cfg M bytes.length err) := by
  obtain ⟨g, r, hg⟩ := hok
  obtain ⟨cks, tail, rfl, hcks, htail, hch, hst, hlt⟩ := hg.ex
  have hfl := length_flatten cks hcks
  have hcl := hch.len
  have hlen := r.chunk.len h16 (by rw [hcl]; omega)
  rw [hcl] at hlen
  have hoff0 := offset_zero_iff key flags hch (by omega)
  rw [← r.chunk.offset] at hoff0
  have hbl : (cks.flatten ++ tail).length = 2048 * cks.length + tail.length := by rw [List.length_append, hfl]
  rw [hbl]
  by_cases hc : (h.chunk.offset = 0 ∧ input.length = C.CHUNK_LEN) ∨ chunk_state_len cfg h.chunk > 0
  · have hcanon : g.subtree_hashes = (canon (chunkLeaves key flags 0 cks)).map (hashOf key flags) := by
      rcases hst with ⟨-, h⟩ | ⟨h1, h2, -⟩
      · exact h
      · exfalso
        rw [hlen, h1] at hc
        rcases hc with ⟨h, -⟩ | h
        · have := hoff0.1 h; omega
        · simp at h
    have htc : 0 < tail.length ∨ cks.length = 0 ∧ input.length = 2048 := by
      rw [hlen] at hc
      rcases hc with ⟨h, h'⟩ | h
      · exact Or.inr ⟨hoff0.1 h, h'⟩
      · exact Or.inl h
    rcases update_head_exact key flags h16 hM cks tail h g input extra r hcks htail hch hcanon hlt hc with
      ⟨h1, g1, hil, e, r1, hch1, hs1⟩ | ⟨hil, hlt1, hroom, h1, g1, e, r1, hm1, hp1⟩ | ⟨hil, hroom, err, e, hb⟩
    · refine Or.inl ⟨⟨fun n a b c => by omega, fun n a b => ?_⟩, h1, e, g1, r1, cks, tail ++ input, by rw [List.append_assoc], hcks, by rw [List.length_append]; omega, hch1,
        Or.inl ⟨?_, hs1.trans hcanon⟩, hlt⟩
      · have hn0 : n = 0 := by omega
        subst hn0
        refine ⟨fun _ => ?_, ?_⟩
        · rw [show 0 - 1 = 0 from rfl, popcount_zero]; omega
        · rw [popcount_zero]; omega
      · rcases hc with ⟨h, -⟩ | h
        · exact Or.inr (List.length_eq_zero_iff.1 (hoff0.1 h))
        · left
          intro h'; have := congrArg List.length h'
          rw [List.length_append, List.length_nil] at this; omega
    · have htp : 0 < tail.length := by omega
      have hdl : (input.drop (2048 - tail.length)).length = input.length - (2048 - tail.length) := List.length_drop
      have hcl1 : (cks ++ [tail ++ input.take (2048 - tail.length)]).length = cks.length + 1 := by simp
      rw [e]
      rcases update_rest_exact key flags h16 hM _ h1 g1 (input.drop (2048 - tail.length)) extra r1 hm1 (Or.inr hp1)
        (by intro h; have := congrArg List.length h; rw [List.length_nil] at this; omega) (by omega) (Or.inl (by omega))
        (hn.imp_right fun h => by omega) with ⟨hall, h2, e2, hok2⟩ | ⟨err, e2, n, hn1, hn2, hn3, hn4, hn5⟩
      · rw [hcl1, hdl] at hall
        refine Or.inl ⟨⟨fun n a b c => ?_, fun n a b => hall n (by omega) (by omega)⟩, h2, e2, ?_⟩
        · have : n = cks.length := by omega
          rw [this]; exact hroom
        rw [List.flatten_append, List.flatten_cons, List.flatten_nil, List.append_nil, List.append_assoc,
          List.append_assoc, List.take_append_drop, ← List.append_assoc] at hok2
        exact hok2
      · rw [hcl1, hdl] at hn2
        rw [hcl1] at hn1 hn3
        refine Or.inr ⟨fun hu => hn4 (hu.2 n (by omega) (by omega)), err, e2, ?_⟩
        rcases hn5 with ⟨c1, c2, c3⟩ | hb
        · refine Or.inl ⟨c1, c2, n, ?_, fun k a b => ?_⟩
          · have := popcount_big (n := n - 1) (k := 52) (by omega); omega
          · by_cases hk : k = cks.length
            · rw [hk]; exact hroom
            · exact (hn3 k (by omega) a).2
        · exact Or.inr hb
    · have htp : 0 < tail.length := by omega
      refine Or.inr ⟨fun hu => hroom (hu.1 _ (by omega) (by omega) (by omega)), err, e, ?_⟩
      rcases hb with ⟨c1, c2, c3⟩ | hb
      · refine Or.inl ⟨c1, c2, cks.length, ?_, fun k a b => by omega⟩
        have := popcount_big c3; omega
      · exact Or.inr hb
  · have htz : tail = [] := by
      rw [hlen] at hc
      exact List.length_eq_zero_iff.1 (by omega)
    subst htz
    rw [hasher_update]
    dsimp only
    rw [if_neg hc]
    rw [List.length_nil, Nat.add_zero]
    have hbf : Before key flags (chunkLeaves key flags 0 cks) g.subtree_hashes := by
      rcases hst with ⟨h1, h⟩ | ⟨-, -, h⟩
      · have h1 := h1.resolve_left (fun h => h rfl)
        left
        rw [h, h1]
        exact ⟨rfl, List.length_eq_zero_iff.1 (by rw [List.length_map, length_canon]; exact popcount_zero)⟩
      · exact Or.inr h
    have hroom : 1 ≤ cks.length → Room M (cks.length - 1) := by
      intro h1
      rcases hbf with ⟨h, -⟩ | h
      · have := congrArg List.length h
        rw [length_chunkLeaves, List.length_nil] at this; omega
      · have hSl := h.length
        rw [length_chunkLeaves] at hSl
        obtain ⟨rest, hm⟩ := r.mem
        have hroom := r.room
        rw [hm, List.length_append, length_stackBytes, hSl] at hroom
        unfold Room
        omega
    have hu1 : ∀ n b, 2048 * n < 2048 * cks.length → 2048 * cks.length ≤ 2048 * (n + 1) → 2048 * (n + 1) < b → Room M n := by
      intro n b h1 h2 _
      rw [show n = cks.length - 1 by omega]
      exact hroom (by omega)
    by_cases hin : input = []
    · subst hin
      refine Or.inl ⟨⟨fun n a b => hu1 n _ a b, fun n a b => ?_⟩, h, ?_, g, r, cks, [], by simp, hcks, by simp, hch, hst, hlt⟩
      · rw [List.length_nil] at b; omega
      rw [hasher_update_rest, C.update_loop, dif_neg (by simp), bind_ok]
      rfl
    · have hmid : Mid key flags p cks g := by
        refine ⟨hcks, hch, ?_⟩
        rcases hst with ⟨-, h⟩ | ⟨-, -, h⟩
        · exact Or.inl h
        · exact Or.inr h
      rcases update_rest_exact key flags h16 hM cks h g input extra r hmid hbf hin hlt (by
        by_cases h0 : cks.length = 0
        · right; intro hi; exact hc (Or.inl ⟨hoff0.2 h0, hi⟩)
        · left; omega) hn with ⟨hall, h2, e2, hok2⟩ | ⟨err, e2, n, hn1, hn2, hn3, hn4, hn5⟩
      · exact Or.inl ⟨⟨fun n a b => hu1 n _ a b, fun n a b => hall n (by omega) (by omega)⟩, h2, e2, by rwa [List.append_nil]⟩
      · refine Or.inr ⟨fun hu => hn4 (hu.2 n (by omega) (by omega)), err, e2, ?_⟩
        rcases hn5 with ⟨c1, c2, c3⟩ | hb
        · refine Or.inl ⟨c1, c2, n, ?_, fun k a b => ?_⟩
          · have := popcount_big (n := n - 1) (k := 52) (by omega); omega
          · by_cases hk : cks.length ≤ k
            · exact (hn3 k hk a).2
            · rw [show k = cks.length - 1 by omega]; exact hroom (by omega)
        · exact Or.inr hb

end

end Baokeshed.Proofs.C
