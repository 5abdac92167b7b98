import Verif.Proofs.C.TraceHasher

/-!
# C: two runs on inputs of equal lengths

`SS mk Q x y`: if the computations `x` and `y` both succeed, they perform compressions with the same block lengths and
offsets, and with the same flags as far as `mk` shows them, in the same order, and return results related by `Q`.
-/

set_option linter.unusedVariables false
set_option linter.unusedSimpArgs false

namespace Baokeshed.Proofs.CObl
open Baokeshed.Model Baokeshed.Model.C Baokeshed.Model.T Baokeshed.Proofs Baokeshed.Proofs.T Baokeshed.Proofs.C Baokeshed.Proofs.CT

attribute [local irreducible] Spec.compress Spec.cvBytes Spec.outBytes Spec.pad

variable {mk : Byte}

/-- what may be known of a compression -/
def pub (mk : Byte) (n : Spec.Input) : Byte × U64 × Byte := (n.blockLen, n.offset, n.flags &&& mk)

/-- flags that look the same -/
def Fl (mk : Byte) (f f' : Byte) : Prop := f &&& mk = f' &&& mk

theorem Fl.or {f f' : Byte} (h : Fl mk f f') (g : Byte) : Fl mk (f ||| g) (f' ||| g) := by
  unfold Fl at *
  rw [BitVec.and_comm, BitVec.and_or_distrib_left, BitVec.and_comm mk f, h, BitVec.and_comm (f' ||| g),
    BitVec.and_or_distrib_left, BitVec.and_comm mk f']

def SS {α β} (mk : Byte) (Q : α → β → Prop) (x : TR α) (y : TR β) : Prop :=
  ∀ a l b l', x = ⟨.ok a, l⟩ → y = ⟨.ok b, l'⟩ → l.map (pub mk) = l'.map (pub mk) ∧ Q a b

theorem SS.bind {α β α' β'} {Q : α → β → Prop} {Q' : α' → β' → Prop} {x : TR α} {y : TR β} {f : α → TR α'} {g : β → TR β'}
    (h : SS mk Q x y) (hf : ∀ a b, Q a b → SS mk Q' (f a) (g b)) : SS mk Q' (x >>= f) (y >>= g) := by
  intro a l b l' e e'
  obtain ⟨u, l1, l2, hl, e1, e2⟩ := tr_inv e
  obtain ⟨v, k1, k2, hk, d1, d2⟩ := tr_inv e'
  obtain ⟨h1, hq⟩ := h _ _ _ _ e1 d1
  obtain ⟨h2, hq'⟩ := hf _ _ hq _ _ _ _ e2 d2
  rw [hl, hk, List.map_append, List.map_append, h1, h2]
  exact ⟨rfl, hq'⟩

theorem SS.liftBind {α β α' β'} {Q' : α' → β' → Prop} {x : R α} {y : R β} {f : α → TR α'} {g : β → TR β'}
    (hf : ∀ a b, x = .ok a → y = .ok b → SS mk Q' (f a) (g b)) : SS mk Q' ((liftM x : TR α) >>= f) ((liftM y : TR β) >>= g) := by
  intro a l b l' e e'
  obtain ⟨u, e1, e2⟩ := lift_inv e
  obtain ⟨v, d1, d2⟩ := lift_inv e'
  exact hf _ _ e1 d1 _ _ _ _ e2 d2

theorem SS.pure {α β} {Q : α → β → Prop} {a : α} {b : β} (h : Q a b) : SS mk Q (Pure.pure a : TR α) (Pure.pure b : TR β) := by
  intro a' l b' l' e e'
  obtain ⟨rfl, rfl⟩ := pure_inv e
  obtain ⟨rfl, rfl⟩ := pure_inv e'
  exact ⟨rfl, h⟩

/-- anything -/
abbrev Any {α β : Type} (_ : α) (_ : β) : Prop := True

theorem SS.lift {α β : Type} (x : R α) (y : R β) : SS mk Any (liftM x : TR α) (liftM y : TR β) := by
  intro a l b l' e e'
  have h1 : [] = l := congrArg TR.log e
  have h2 : [] = l' := congrArg TR.log e'
  rw [← h1, ← h2]
  exact ⟨rfl, trivial⟩

theorem SS.ite {α β} {Q : α → β → Prop} {c c' : Prop} [Decidable c] [Decidable c'] {x y : TR α} {x' y' : TR β}
    (hc : c ↔ c') (h : c → SS mk Q x x') (h' : ¬ c → SS mk Q y y') : SS mk Q (if c then x else y) (if c' then x' else y') := by
  by_cases k : c
  · rw [if_pos k, if_pos (hc.1 k)]; exact h k
  · rw [if_neg k, if_neg (fun t => k (hc.2 t))]; exact h' k

variable {cfg cfg' : C.Config}

theorem ss_compress (st st' : Vector Word 8) (b b' : Bytes) (len : Byte) (off : U64) {f f' : Byte} (h : Fl mk f f') :
    SS mk Any (CT.compress cfg st b len off f) (CT.compress cfg' st' b' len off f') := by
  intro a l c l' e e'
  have h1 : [_] = l := congrArg TR.log e
  have h2 : [_] = l' := congrArg TR.log e'
  rw [← h1, ← h2]
  refine ⟨?_, trivial⟩
  simp only [List.map_cons, List.map_nil, pub]
  rw [h]

/-! ## Chunk state -/

/-- the same to an observer -/
structure SimC (mk : Byte) (s t : chunk_state) : Prop where
  offset : s.offset = t.offset
  count : s.count = t.count
  buf_len : s.buf_len = t.buf_len
  flags : Fl mk s.flags t.flags

theorem SimC.start {s t : chunk_state} (h : SimC mk s t) : chunk_state_maybe_start_flag s = chunk_state_maybe_start_flag t := by
  rw [chunk_state_maybe_start_flag, chunk_state_maybe_start_flag, h.count]

theorem SimC.len (hb : cfg.bits = cfg'.bits) {s t : chunk_state} (h : SimC mk s t) : chunk_state_len cfg s = chunk_state_len cfg' t := by
  rw [chunk_state_len, chunk_state_len, h.count, h.buf_len, hb]

theorem fill_inv (hb : cfg.bits = cfg'.bits) {s t s' t' : chunk_state} {x y : Bytes} {n k k' : Nat} (h : SimC mk s t)
    (e : chunk_state_fill_buf cfg s x n = .ok (s', k)) (e' : chunk_state_fill_buf cfg' t y n = .ok (t', k')) :
    k = k' ∧ SimC mk s' t' := by
  rw [chunk_state_fill_buf] at e e'
  obtain ⟨b, -, e⟩ := bind_inv e
  obtain ⟨b', -, e'⟩ := bind_inv e'
  cases e
  cases e'
  refine ⟨by rw [h.buf_len, hb], h.offset, h.count, ?_, h.flags⟩
  simp only [h.buf_len, hb]

/-- results of the parts of `chunk_state_update` -/
def SimU (mk : Byte) (a b : chunk_state × Bytes × Nat) : Prop := SimC mk a.1 b.1 ∧ a.2.2 = b.2.2

theorem ss_first (hb : cfg.bits = cfg'.bits) {s t : chunk_state} (h : SimC mk s t) (x y : Bytes) (n : Nat) :
    SS mk (SimU mk) (CT.chunk_state_update_first cfg s x n) (CT.chunk_state_update_first cfg' t y n) := by
  rw [CT.chunk_state_update_first, CT.chunk_state_update_first]
  refine SS.ite (by rw [h.buf_len]) (fun _ => ?_) fun _ => SS.pure ⟨h, rfl⟩
  refine SS.liftBind fun a b ea eb => ?_
  obtain ⟨s1, k⟩ := a
  obtain ⟨t1, k'⟩ := b
  obtain ⟨rfl, h1⟩ := fill_inv hb h ea eb
  dsimp only
  refine SS.liftBind fun x1 y1 _ _ => ?_
  refine SS.ite Iff.rfl (fun _ => ?_) fun _ => SS.pure ⟨h1, rfl⟩
  rw [h1.start, h1.offset]
  refine SS.bind (ss_compress _ _ _ _ _ _ (h1.flags.or _)) fun st st' _ => ?_
  exact SS.pure ⟨⟨rfl, congrArg (· + _) h1.count, rfl, h1.flags⟩, rfl⟩

theorem ss_blocks {s t : chunk_state} (h : SimC mk s t) (x y : Bytes) (n : Nat) :
    SS mk (SimU mk) (CT.chunk_state_update_blocks cfg s x n) (CT.chunk_state_update_blocks cfg' t y n) := by
  induction n using Nat.strongRecOn generalizing s t x y with
  | ind n ih =>
  rw [CT.chunk_state_update_blocks, CT.chunk_state_update_blocks]
  refine SS.ite Iff.rfl (fun hn => ?_) fun _ => SS.pure ⟨h, rfl⟩
  simp only [C.BLOCK_LEN] at hn
  rw [h.start, h.offset]
  refine SS.bind (ss_compress _ _ _ _ _ _ (h.flags.or _)) fun st st' _ => SS.liftBind fun x1 y1 _ _ => ?_
  exact ih (n - C.BLOCK_LEN) (by simp only [C.BLOCK_LEN]; omega)
    (s := { s with state := st, offset := t.offset, count := s.count + BitVec.ofNat 16 C.BLOCK_LEN })
    (t := { t with state := st', count := t.count + BitVec.ofNat 16 C.BLOCK_LEN })
    ⟨rfl, congrArg (· + _) h.count, h.buf_len, h.flags⟩ _ _

theorem ss_chunk_update (hb : cfg.bits = cfg'.bits) {s t : chunk_state} (h : SimC mk s t) (x y : Bytes) (n : Nat) :
    SS mk (SimC mk) (CT.chunk_state_update cfg s x n) (CT.chunk_state_update cfg' t y n) := by
  rw [CT.chunk_state_update, CT.chunk_state_update]
  refine SS.bind (ss_first hb h x y n) fun a b hab => ?_
  obtain ⟨s1, x1, n1⟩ := a
  obtain ⟨t1, y1, n1'⟩ := b
  obtain ⟨h1, rfl⟩ : SimC mk s1 t1 ∧ n1 = n1' := hab
  dsimp only
  refine SS.bind (ss_blocks h1 x1 y1 n1) fun a b hab => ?_
  obtain ⟨s2, x2, n2⟩ := a
  obtain ⟨t2, y2, n2'⟩ := b
  obtain ⟨h2, rfl⟩ : SimC mk s2 t2 ∧ n2 = n2' := hab
  dsimp only
  refine SS.liftBind fun a b ea eb => ?_
  obtain ⟨s3, k⟩ := a
  obtain ⟨t3, k'⟩ := b
  obtain ⟨rfl, h3⟩ := fill_inv hb h2 ea eb
  exact SS.liftBind fun _ _ _ _ => SS.pure h3

theorem ss_chunk_finalize {s t : chunk_state} (h : SimC mk s t) (r : Bool) (out out' : Bytes) :
    SS mk Any (CT.chunk_state_finalize cfg s r out) (CT.chunk_state_finalize cfg' t r out') := by
  rw [CT.chunk_state_finalize, CT.chunk_state_finalize]
  rw [h.start, h.offset, h.buf_len]
  refine SS.bind (ss_compress _ _ _ _ _ _ ?_) fun _ _ _ => SS.lift _ _
  cases r
  · exact (h.flags.or _).or _
  · exact ((h.flags.or _).or _).or _

theorem ss_parent (b b' : Bytes) (k k' : Vector Word 8) (r : Bool) {f f' : Byte} (h : Fl mk f f') (out out' : Bytes) :
    SS mk Any (CT.hash_one_parent cfg b k r f out) (CT.hash_one_parent cfg' b' k' r f' out') := by
  rw [CT.hash_one_parent, CT.hash_one_parent]
  refine SS.bind (ss_compress _ _ _ _ _ _ ?_) fun _ _ _ => SS.lift _ _
  cases r
  · exact h.or _
  · exact (h.or _).or _

/-! ## Hasher -/

structure SimH (mk : Byte) (g h : hasher) : Prop where
  chunk : SimC mk g.chunk h.chunk
  len : g.subtree_hashes_len = h.subtree_hashes_len

theorem ss_merge_parent {g h : hasher} (s : SimH mk g h) :
    SS mk (SimH mk) (CT.hasher_merge_parent cfg g) (CT.hasher_merge_parent cfg' h) := by
  rw [CT.hasher_merge_parent, CT.hasher_merge_parent]
  refine SS.liftBind fun _ _ _ _ => SS.bind (ss_parent _ _ _ _ _ s.chunk.flags _ _) fun _ _ _ => SS.liftBind fun _ _ _ _ => ?_
  exact SS.pure ⟨s.chunk, by rw [s.len]⟩

theorem needs_eq {g h : hasher} (s : SimH mk g h) (off : U64) : hasher_needs_merge cfg g off = hasher_needs_merge cfg' h off := by
  simp only [hasher_needs_merge, gt_iff_lt, BitVec.lt_def, popcnt_eq, s.len]

theorem ss_merge_loop {g h : hasher} (s : SimH mk g h) (off : U64) :
    SS mk (SimH mk) (CT.merge_loop cfg g off) (CT.merge_loop cfg' h off) := by
  induction hn : g.subtree_hashes_len.toNat using Nat.strongRecOn generalizing g h with
  | ind n ih =>
  subst hn
  have hm := ss_merge_parent (cfg := cfg) (cfg' := cfg') s
  have hne := needs_eq (cfg := cfg) (cfg' := cfg') s off
  rw [CT.merge_loop, CT.merge_loop]
  split
  next hc =>
    rw [dif_pos (hne ▸ hc)]
    split
    next e he => intro a l b l' ea eb; cases congrArg TR.res ea
    next g1 he =>
      split
      next e' he' => intro a l b l' ea eb; cases congrArg TR.res eb
      next h1 he' =>
        obtain ⟨hl, hs⟩ := hm _ _ _ _ (tr_eq ((merge_parent_res cfg g).trans he)) (tr_eq ((merge_parent_res cfg' h).trans he'))
        have hlt : g1.subtree_hashes_len.toNat < g.subtree_hashes_len.toNat := by
          rw [hasher_merge_parent_len he, BitVec.toNat_sub]
          simp only [hasher_needs_merge, gt_iff_lt, decide_eq_true_eq, BitVec.lt_def] at hc
          have := g.subtree_hashes_len.isLt
          have h1 : (1 : Byte).toNat = 1 := rfl
          omega
        have hr := ih _ hlt hs rfl
        intro a l b l' ea eb
        have ra : (CT.merge_loop cfg g1 off).res = .ok a := congrArg TR.res ea
        have rb : (CT.merge_loop cfg' h1 off).res = .ok b := congrArg TR.res eb
        obtain ⟨hl2, hq⟩ := hr _ _ _ _ (tr_eq ra) (tr_eq rb)
        have la := congrArg TR.log ea
        have lb := congrArg TR.log eb
        dsimp only at la lb
        rw [← la, ← lb, List.map_append, List.map_append, hl, hl2]
        exact ⟨rfl, hq⟩
  next hc =>
    rw [dif_neg (hne ▸ hc)]
    exact SS.pure s

theorem ss_push {g h : hasher} (s : SimH mk g h) (x y : Bytes) (off : U64) :
    SS mk (SimH mk) (CT.hasher_push_chunk_hash cfg g x off) (CT.hasher_push_chunk_hash cfg' h y off) := by
  rw [CT.hasher_push_chunk_hash, CT.hasher_push_chunk_hash]
  refine SS.liftBind fun _ _ _ _ => SS.bind (ss_merge_loop s off) fun g1 h1 s1 => SS.liftBind fun _ _ _ _ => ?_
  exact SS.pure ⟨s1.chunk, by rw [s1.len]⟩

theorem ss_push_chunks (n : Nat) : ∀ {g h : hasher} (s : SimH mk g h) (out out' : Bytes) (i : Nat),
    SS mk (SimH mk) (CT.push_chunks cfg g out i n) (CT.push_chunks cfg' h out' i n) := by
  induction n with
  | zero => intro g h s out out' i; exact SS.pure s
  | succ n ih =>
    intro g h s out out' i
    rw [CT.push_chunks, CT.push_chunks, s.chunk.offset]
    refine SS.liftBind fun _ _ _ _ => SS.bind (ss_push s _ _ _) fun g1 h1 s1 => ?_
    exact ih (g := { g1 with chunk := { g1.chunk with offset := g1.chunk.offset + BitVec.ofNat 64 C.CHUNK_LEN } })
      (h := { h1 with chunk := { h1.chunk with offset := h1.chunk.offset + BitVec.ofNat 64 C.CHUNK_LEN } })
      ⟨⟨congrArg (· + _) s1.chunk.offset, s1.chunk.count, s1.chunk.buf_len, s1.chunk.flags⟩, s1.len⟩ _ _ _

/-! ## Batches -/

theorem collect_inv {chunks chunks' : List Bytes} {ib ib' : Bytes} {il il' k num : Nat} (hc : chunks.length = 16) (hk : k ≤ 16)
    (hp : ∀ i, i < k → 2048 ≤ (chunks.getD i []).length)
    (e : collect_chunks chunks ib il k = .ok (chunks', ib', il', num)) :
    chunks'.length = 16 ∧ (∀ i, i < num → 2048 ≤ (chunks'.getD i []).length) ∧ num = k + min (il / 2048) (16 - k) ∧
      il' = il - 2048 * min (il / 2048) (16 - k) := by
  induction hd : 16 - k generalizing chunks ib il k with
  | zero =>
    rw [collect_chunks, if_neg (by simp only [C.MAX_SIMD_DEGREE]; omega)] at e
    cases e
    exact ⟨hc, hp, by omega, by omega⟩
  | succ d ih =>
    rw [collect_chunks] at e
    split at e
    next h =>
      simp only [C.CHUNK_LEN, C.MAX_SIMD_DEGREE] at h e
      obtain ⟨c1, e1, e⟩ := bind_inv e
      obtain ⟨b1, e2, e⟩ := bind_inv e
      rw [cStore] at e1
      rw [cAdvance] at e2
      split at e1
      next hs =>
        split at e2
        next hl =>
          cases e1
          cases e2
          have hlen : (chunks.take k ++ [ib] ++ chunks.drop (k + 1)).length = 16 := by
            simp only [List.length_append, List.length_take, List.length_drop, List.length_singleton]; omega
          have hp1 : ∀ i, i < k + 1 → 2048 ≤ ((chunks.take k ++ [ib] ++ chunks.drop (k + 1)).getD i []).length := by
            intro i hi
            rw [List.append_assoc, List.getD_eq_getElem?_getD]
            by_cases hik : i < k
            · rw [List.getElem?_append_left (by rw [List.length_take]; omega), List.getElem?_take, if_pos hik]
              have := hp i hik
              rwa [List.getD_eq_getElem?_getD] at this
            · have : i = k := by omega
              subst this
              rw [List.getElem?_append_right (by rw [List.length_take]; omega), List.length_take,
                show i - min i chunks.length = 0 by omega]
              exact hl
          obtain ⟨r1, r2, r3, r4⟩ := ih hlen (by omega) hp1 e (by omega)
          exact ⟨r1, r2, by omega, by omega⟩
        next => cases e2
      next => cases e1
    next h =>
      simp only [C.CHUNK_LEN, C.MAX_SIMD_DEGREE] at h
      cases e
      exact ⟨hc, hp, by omega, by omega⟩

theorem before_pub {f f' : Byte} (hf : Fl mk f f') (off : Nat) (x y : Bytes) : ∀ (cv cv' : Vector Word 8) {bf bf' : Byte},
    Fl mk bf bf' → x.length = y.length →
    (Spec.chunkBefore f off cv bf x).map (pub mk) = (Spec.chunkBefore f' off cv' bf' y).map (pub mk) := by
  induction hn : x.length using Nat.strongRecOn generalizing x y with
  | ind n ih =>
  intro cv cv' bf bf' hbf hl
  rw [Spec.chunkBefore.eq_def f off cv bf x, Spec.chunkBefore.eq_def f' off cv' bf' y]
  by_cases h : x.length ≤ 64
  · rw [dif_pos h, dif_pos (by omega)]
  · rw [dif_neg h, dif_neg (by omega)]
    simp only [List.map_cons]
    rw [ih (x.drop 64).length (by rw [List.length_drop]; omega) (x.drop 64) (y.drop 64) rfl _ _ hf
      (by rw [List.length_drop, List.length_drop]; omega)]
    refine congrArg (· :: _) ?_
    simp only [pub]
    rw [hbf]

theorem last_pub {f f' : Byte} (hf : Fl mk f f') (off : Nat) (x y : Bytes) : ∀ (cv cv' : Vector Word 8) {bf bf' : Byte},
    Fl mk bf bf' → x.length = y.length →
    pub mk (Spec.chunkFrom f off cv bf x) = pub mk (Spec.chunkFrom f' off cv' bf' y) := by
  induction hn : x.length using Nat.strongRecOn generalizing x y with
  | ind n ih =>
  intro cv cv' bf bf' hbf hl
  rw [Spec.chunkFrom.eq_def f off cv bf x, Spec.chunkFrom.eq_def f' off cv' bf' y]
  by_cases h : x.length ≤ 64
  · rw [dif_pos h, dif_pos (by omega)]
    simp only [pub]
    rw [show x.length = y.length by omega, hbf.or]
  · rw [dif_neg h, dif_neg (by omega)]
    exact ih (x.drop 64).length (by rw [List.length_drop]; omega) (x.drop 64) (y.drop 64) rfl _ _ hf
      (by rw [List.length_drop, List.length_drop]; omega)

theorem chunkCalls_pub (k k' : Vector Word 8) {f f' : Byte} (hf : Fl mk f f') (xs : List Bytes) :
    ∀ (ys : List Bytes) (off : Nat), xs.length = ys.length → (∀ x ∈ xs, x.length = 2048) → (∀ y ∈ ys, y.length = 2048) →
    (chunkCalls k f off xs).map (pub mk) = (chunkCalls k' f' off ys).map (pub mk) := by
  induction xs with
  | nil => intro ys off hl _ _; cases ys with
    | nil => rfl
    | cons => cases hl
  | cons x xs ih =>
    intro ys off hl hx hy
    cases ys with
    | nil => cases hl
    | cons y ys =>
      have h1 := hx x (List.mem_cons_self ..)
      have h2 := hy y (List.mem_cons_self ..)
      rw [chunkCalls, chunkCalls, List.map_append, List.map_append, List.map_append, List.map_append,
        ih ys (off + 2048) (by simpa using hl) (fun a ha => hx a (List.mem_cons_of_mem _ ha)) (fun a ha => hy a (List.mem_cons_of_mem _ ha)),
        before_pub hf off x y k k' (hf.or _) (h1.trans h2.symm)]
      refine congrArg (fun z => _ ++ [z] ++ _) ?_
      exact last_pub hf off x y k k' (hf.or _) (h1.trans h2.symm)

/-- the chunks behind the pointers -/
theorem ptr_chunks (ptrs : List Bytes) (n : Nat) (hn : n ≤ ptrs.length) (hp : ∀ i, i < n → 2048 ≤ (ptrs.getD i []).length) :
    ∃ cs : List Bytes, cs.length = n ∧ (∀ c ∈ cs, c.length = 2048) ∧
      ∀ i, i < cs.length → (cs.getD i []).length = 2048 ∧ (ptrs.getD i []).take 2048 = cs.getD i [] := by
  have hl : ((ptrs.take n).map (List.take 2048)).length = n := by rw [List.length_map, List.length_take]; omega
  have hg : ∀ i, i < n → ((ptrs.take n).map (List.take 2048)).getD i [] = (ptrs.getD i []).take 2048 := by
    intro i hi
    rw [List.getD_eq_getElem?_getD, List.getElem?_map, List.getElem?_take, if_pos hi, List.getD_eq_getElem?_getD,
      List.getElem?_eq_getElem (by omega)]
    rfl
  refine ⟨(ptrs.take n).map (List.take 2048), hl, ?_, ?_⟩
  · intro c hc
    obtain ⟨i, hi, rfl⟩ := List.getElem_of_mem hc
    have h1 := hg i (by omega)
    rw [List.getD_eq_getElem?_getD, List.getElem?_eq_getElem hi] at h1
    have h2 := hp i (by omega)
    change ((ptrs.take n).map (List.take 2048))[i] = _ at h1
    rw [h1, List.length_take]; omega
  · intro i hi
    rw [hl] at hi
    rw [hg i hi, List.length_take]
    exact ⟨by have := hp i hi; omega, rfl⟩

theorem ss_many (hn : cfg.neon = true → cfg.order = .little) (hn' : cfg'.neon = true → cfg'.order = .little)
    (ptrs ptrs' : List Bytes) (n : Nat) (h16 : n ≤ 16) (hl : ptrs.length = 16) (hl' : ptrs'.length = 16)
    (hp : ∀ i, i < n → 2048 ≤ (ptrs.getD i []).length) (hp' : ∀ i, i < n → 2048 ≤ (ptrs'.getD i []).length)
    (k k' : Vector Word 8) (off : U64) {f f' : Byte} (hf : Fl mk f f') (out out' : Bytes) (ho : out.length = 512)
    (ho' : out'.length = 512) :
    SS mk (fun a b => a.length = 512 ∧ b.length = 512)
      (CT.hash_many cfg ptrs n (C.CHUNK_LEN / C.BLOCK_LEN) k off CHUNK_OFFSET_DELTAS f C.CHUNK_START C.CHUNK_END out)
      (CT.hash_many cfg' ptrs' n (C.CHUNK_LEN / C.BLOCK_LEN) k' off CHUNK_OFFSET_DELTAS f' C.CHUNK_START C.CHUNK_END out') := by
  have hlog : ∀ (ptrs : List Bytes) (k : Vector Word 8) (f : Byte) (out : Bytes), ptrs.length = 16 →
      (∀ i, i < n → 2048 ≤ (ptrs.getD i []).length) → out.length = 512 → ∃ cs : List Bytes, cs.length = n ∧
      (∀ c ∈ cs, c.length = 2048) ∧ ∀ cfg : C.Config,
      (CT.hash_many cfg ptrs n (C.CHUNK_LEN / C.BLOCK_LEN) k off CHUNK_OFFSET_DELTAS f C.CHUNK_START C.CHUNK_END out).log =
        chunkCalls k f off.toNat cs := by
    intro ptrs k f out hl hp ho
    obtain ⟨cs, rfl, h2, h3⟩ := ptr_chunks ptrs n (by omega) hp
    refine ⟨cs, rfl, h2, fun cfg => ?_⟩
    rw [← many_loop_log k f cs ptrs off.toNat out h3 (by omega), BitVec.ofNat_toNat, BitVec.setWidth_eq]
    rfl
  have hlen : ∀ (cfg : C.Config) (ptrs : List Bytes) (k : Vector Word 8) (f : Byte) (out a : Bytes),
      (cfg.neon = true → cfg.order = .little) → ptrs.length = 16 →
      (∀ i, i < n → 2048 ≤ (ptrs.getD i []).length) → out.length = 512 →
      C.hash_many cfg ptrs n (C.CHUNK_LEN / C.BLOCK_LEN) k off CHUNK_OFFSET_DELTAS f C.CHUNK_START C.CHUNK_END out = .ok a →
      a.length = 512 := by
    intro cfg ptrs k f out a hn hl hp ho e
    rw [hash_many_ok k f cfg hn ptrs n _ _ (BitVec.ofNat 64 2048) _ _ _ _ ⟨by omega, hp, by omega, Props.chunk_deltas⟩] at e
    cases e
    rw [List.length_append, length_manyOut, List.length_drop]; omega
  obtain ⟨cs, hcs, hcl, hc⟩ := hlog ptrs k f out hl hp ho
  obtain ⟨cs', hcs', hcl', hc'⟩ := hlog ptrs' k' f' out' hl' hp' ho'
  intro a l b l' e e'
  have ra : C.hash_many cfg ptrs n _ k off _ f _ _ out = .ok a := congrArg TR.res e
  have rb : C.hash_many cfg' ptrs' n _ k' off _ f' _ _ out' = .ok b := congrArg TR.res e'
  have la := (hc cfg).symm.trans (congrArg TR.log e)
  have lb := (hc' cfg').symm.trans (congrArg TR.log e')
  dsimp only at la lb
  rw [← la, ← lb]
  exact ⟨chunkCalls_pub k k' hf cs cs' _ (hcs.trans hcs'.symm) hcl hcl', hlen cfg _ _ _ _ _ hn hl hp ho ra,
    hlen cfg' _ _ _ _ _ hn' hl' hp' ho' rb⟩

/-- results of `update_loop` -/
def SimL (mk : Byte) (a b : hasher × Bytes × Nat) : Prop := SimH mk a.1 b.1 ∧ a.2.2 = b.2.2

/-- NEON kernels are only used for little-endian machines -/
abbrev NL (cfg cfg' : C.Config) : Prop := (cfg.neon = true → cfg.order = .little) ∧ (cfg'.neon = true → cfg'.order = .little)

theorem ss_update_loop (n : Nat) (hn : NL cfg cfg' ∨ n < 2048) {g h : hasher} (s : SimH mk g h) (out out' : Bytes) (ho : out.length = 512)
    (ho' : out'.length = 512) (cs cs' : List Bytes) (hc : cs.length = 16) (hc' : cs'.length = 16) (x y : Bytes) :
    SS mk (SimL mk) (CT.update_loop cfg g out cs x n) (CT.update_loop cfg' h out' cs' y n) := by
  induction n using Nat.strongRecOn generalizing g h out out' cs cs' x y with
  | ind n ih =>
  rw [CT.update_loop, CT.update_loop]
  split
  next hge =>
    simp only [C.CHUNK_LEN] at hge
    split
    next => intro a l b l' e; cases congrArg TR.res e
    next c1 x1 n1 k1 e1 =>
      split
      next => intro a l b l' e e'; cases congrArg TR.res e'
      next c2 y2 n2 k2 e2 =>
        obtain ⟨p1, p2, p3, p4⟩ := collect_inv hc (by omega) (fun i hi => by omega) e1
        obtain ⟨q1, q2, q3, q4⟩ := collect_inv hc' (by omega) (fun i hi => by omega) e2
        have hk : k1 = k2 := by omega
        have hnn : n1 = n2 := by omega
        subst hk hnn
        have hN : NL cfg cfg' := by rcases hn with h | h; exact h; omega
        rw [s.chunk.offset]
        refine SS.bind (ss_many hN.1 hN.2 c1 c2 k1 (by omega) p1 q1 p2 q2 _ _ _ s.chunk.flags _ _ ho ho') fun o o' hoo => ?_
        refine SS.bind (ss_push_chunks k1 s _ _ _) fun g1 h1 s1 => ?_
        exact ih n1 (by omega) (Or.inl hN) s1 _ _ hoo.1 hoo.2 _ _ p1 q1 _ _
  next hlt => exact SS.pure ⟨s, rfl⟩

theorem ss_update_rest (hb : cfg.bits = cfg'.bits) {g h : hasher} (s : SimH mk g h) (x y : Bytes) (n : Nat)
    (hn : NL cfg cfg' ∨ n < 2048) :
    SS mk (SimH mk) (CT.hasher_update_rest cfg g x n) (CT.hasher_update_rest cfg' h y n) := by
  rw [CT.hasher_update_rest, CT.hasher_update_rest]
  refine SS.bind (ss_update_loop n hn s _ _ (length_uninit ..) (length_uninit ..) _ _ rfl rfl x y) fun a b hab => ?_
  obtain ⟨g1, x1, n1⟩ := a
  obtain ⟨h1, y1, n1'⟩ := b
  obtain ⟨s1, rfl⟩ : SimH mk g1 h1 ∧ n1 = n1' := hab
  dsimp only
  refine SS.ite Iff.rfl (fun _ => ?_) fun _ => SS.pure s1
  rw [s1.chunk.offset]
  refine SS.bind (ss_merge_loop s1 _) fun g2 h2 s2 => SS.bind (ss_chunk_update hb s2.chunk _ _ _) fun c d hcd => ?_
  exact SS.pure ⟨hcd, s2.len⟩

theorem ss_update (hb : cfg.bits = cfg'.bits) {g h : hasher} (s : SimH mk g h) (x y : Bytes) (n : Nat)
    (hn : NL cfg cfg' ∨ n < 2048) :
    SS mk (SimH mk) (CT.hasher_update cfg g x n) (CT.hasher_update cfg' h y n) := by
  rw [CT.hasher_update, CT.hasher_update]
  dsimp only
  rw [s.chunk.len hb, s.chunk.offset, hb]
  refine SS.ite Iff.rfl (fun _ => ?_) fun _ => ss_update_rest hb s _ _ _ hn
  refine SS.bind (ss_chunk_update hb s.chunk _ _ _) fun c d hcd => SS.liftBind fun x1 y1 _ _ => ?_
  refine SS.ite Iff.rfl (fun _ => ?_) fun _ => SS.pure ⟨hcd, s.len⟩
  rw [hcd.offset]
  refine SS.bind (ss_chunk_finalize hcd _ _ _) fun o o' _ => ?_
  refine SS.bind (ss_push (g := { g with chunk := c }) (h := { h with chunk := d }) ⟨hcd, s.len⟩ _ _ _) fun g1 h1 s1 => ?_
  refine ss_update_rest hb (g := { g1 with chunk := chunk_state_reset g1.chunk (g1.chunk.offset + BitVec.ofNat 64 C.CHUNK_LEN) })
    (h := { h1 with chunk := chunk_state_reset h1.chunk (h1.chunk.offset + BitVec.ofNat 64 C.CHUNK_LEN) })
    ⟨⟨congrArg (· + _) s1.chunk.offset, rfl, rfl, s1.chunk.flags⟩, s1.len⟩ _ _ _ ?_
  refine hn.imp_right fun h => ?_
  omega

theorem ss_finalize_loop (hb : cfg.bits = cfg'.bits) {g h : hasher} (s : SimH mk g h) (out out' : Bytes) (fuel : Nat) :
    ∀ (w w' : Bytes) (k : Nat), SS mk Any (CT.finalize_loop cfg g out fuel w k) (CT.finalize_loop cfg' h out' fuel w' k) := by
  induction fuel with
  | zero => intro w w' k a l b l' e; cases congrArg TR.res e
  | succ fuel ih =>
    intro w w' k
    rw [CT.finalize_loop, CT.finalize_loop]
    refine SS.liftBind fun _ _ _ _ => SS.liftBind fun _ _ _ _ => SS.liftBind fun _ _ _ _ => ?_
    refine SS.bind (ss_parent _ _ _ _ _ s.chunk.flags _ _) fun _ _ _ => ?_
    refine SS.ite Iff.rfl (fun _ => SS.lift _ _) fun _ => ?_
    rw [hb]
    exact ih _ _ _

theorem ss_finalize (hb : cfg.bits = cfg'.bits) {g h : hasher} (s : SimH mk g h) (out out' : Bytes) :
    SS mk Any (CT.hasher_finalize cfg g out) (CT.hasher_finalize cfg' h out') := by
  rw [CT.hasher_finalize, CT.hasher_finalize, s.len, s.chunk.len hb]
  refine SS.ite Iff.rfl (fun _ => ss_chunk_finalize s.chunk _ _ _) fun _ => ?_
  dsimp only
  rw [hb]
  refine SS.ite Iff.rfl (fun _ => ?_) fun _ => ?_
  · exact SS.bind (ss_chunk_finalize s.chunk _ _ _) fun _ _ _ => ss_finalize_loop hb s _ _ _ _ _ _
  · exact SS.liftBind fun _ _ _ _ => SS.liftBind fun _ _ _ _ => ss_finalize_loop hb s _ _ _ _ _ _

end Baokeshed.Proofs.CObl
