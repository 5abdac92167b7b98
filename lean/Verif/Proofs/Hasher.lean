import Verif.Proofs.Chunk

/-! # `Hasher` -/

set_option linter.unusedVariables false
set_option linter.unusedSimpArgs false

namespace Baokeshed.Proofs
open Baokeshed.Model

attribute [local irreducible] Spec.compress Spec.outBytes Spec.cvBytes Spec.pad

/-! ## popcount -/

theorem popcount_zero : popcount 0 = 0 := by rw [popcount, if_pos rfl]

theorem popcount_pos {n : Nat} (h : 0 < n) : 0 < popcount n := by
  induction n using Nat.strongRecOn with
  | ind n ih =>
  rw [popcount, if_neg (by omega)]
  by_cases h2 : n % 2 = 1
  · omega
  · have := ih (n / 2) (by omega) (by omega); omega

theorem popcount_le {n k : Nat} (h : n < 2 ^ k) : popcount n ≤ k ∧ (popcount n = k → n = 2 ^ k - 1) := by
  induction k generalizing n with
  | zero =>
    have : n = 0 := by omega
    subst this
    rw [popcount_zero]; simp
  | succ k ih =>
    have hp := Nat.two_pow_pos k
    rw [Nat.pow_succ] at h
    obtain ⟨h1, h2⟩ := ih (n := n / 2) (by omega)
    rw [popcount, Nat.pow_succ]
    split
    · omega
    · refine ⟨by omega, fun e => ?_⟩
      have := h2 (by omega)
      omega

/-- the number of stacked subtrees is at most 52 before the last chunk that fits in 64 bits -/
theorem popcount_53 {n : Nat} (h : n + 1 < 2 ^ 53) : popcount n ≤ 52 := by
  obtain ⟨h1, h2⟩ := popcount_le (n := n) (k := 53) (by omega)
  by_cases h3 : popcount n = 53
  · have := h2 h3; omega
  · omega

/-! ## Merging -/

section
variable (key : Vector Word 8) (flags : Byte)

theorem hash_one_parent_hash (x y : Tree Spec.Input) (p : Platform) :
    (hash_one_parent (hashOf key flags x) (hashOf key flags y) key .notRoot flags p).to_hash =
      hashOf key flags (.node x y) := by
  rw [to_hash_eq]
  simp only [toInput, hash_one_parent, IsRoot.flag, or_zero8]
  rfl

theorem length_merge1 {α} (s : List (Tree α)) (h : 2 ≤ s.length) : (merge1 s).length = s.length - 1 := by
  match s, h with
  | x :: y :: r, _ => simp [merge1]

theorem merge_loop_eq (h : Hasher) (off : U64) (T : List (Tree Spec.Input)) (hk : h.chunk.key = key)
    (hf : h.chunk.flags = flags) (hs : h.subtree_hashes = T.map (hashOf key flags))
    (hw : 1 ≤ popcount (off.toNat / 2048) ∨ T = []) :
    h.merge_loop off = .ok { h with
      subtree_hashes := (mergeN (T.length - popcount (off.toNat / 2048)) T).map (hashOf key flags) } := by
  induction hn : T.length using Nat.strongRecOn generalizing T h with
  | ind n ih =>
  rw [Hasher.merge_loop]
  have hl : h.subtree_hashes.length = T.length := by rw [hs, List.length_map]
  by_cases hm : popcount (off.toNat / 2048) < T.length
  · have hw' : 1 ≤ popcount (off.toNat / 2048) := by
      rcases hw with h | h
      · exact h
      · rw [h] at hm; simp at hm
    rw [if_pos (by simp only [Hasher.needs_merge, CHUNK_LEN, decide_eq_true_eq]; omega)]
    match T, hn, hm, hs, hw with
    | [], _, hm, _, _ => simp at hm
    | [_], _, hm, _, _ => simp at hm; omega
    | r :: l :: rest, hn, hm, hs, hw =>
      have e : h.merge_parent = .ok { h with subtree_hashes := (merge1 (r :: l :: rest)).map (hashOf key flags) } := by
        rw [Hasher.merge_parent, hs]
        simp only [List.map_cons, merge1, hk, hf, hash_one_parent_hash]
      have hl1 : (merge1 (r :: l :: rest)).length = (r :: l :: rest).length - 1 := length_merge1 _ (by simp)
      simp only [List.length_cons] at hn hl1 hm
      have hT : n - popcount (off.toNat / 2048) =
          (merge1 (r :: l :: rest)).length - popcount (off.toNat / 2048) + 1 := by omega
      rw [hT, mergeN]
      split
      next e' he => rw [e] at he; cases he
      next h' he =>
        rw [e] at he
        cases he
        exact ih (merge1 (r :: l :: rest)).length (by omega)
          { h with subtree_hashes := (merge1 (r :: l :: rest)).map (hashOf key flags) } (merge1 (r :: l :: rest))
          hk hf rfl (Or.inl hw') rfl
  · rw [if_neg (by simp only [Hasher.needs_merge, CHUNK_LEN, decide_eq_true_eq]; omega),
      show n - popcount (off.toNat / 2048) = 0 by omega, mergeN, ← hs]

/-! ## The stack -/

/-- the stack of subtrees over the leaves `L`, either fully merged or with the last leaf pushed but
not merged -/
def StackOk (L : List (Tree Spec.Input)) (S : List (Vector Byte 32)) : Prop :=
  S = (canon L).map (hashOf key flags) ∨
  ∃ init last, L = init ++ [last] ∧ S = (last :: canon init).map (hashOf key flags)

/-- the last leaf was pushed but not merged -/
def Pushed (L : List (Tree Spec.Input)) (S : List (Vector Byte 32)) : Prop :=
  ∃ init last, L = init ++ [last] ∧ S = (last :: canon init).map (hashOf key flags)

theorem merge_to_canon (h : Hasher) (n : Nat) (L : List (Tree Spec.Input)) (hk : h.chunk.key = key)
    (hf : h.chunk.flags = flags) (hs : StackOk key flags L h.subtree_hashes) (hL : L.length = n)
    (hn : 2048 * n < 2 ^ 64) :
    h.merge_loop (BitVec.ofNat 64 (2048 * n)) =
      .ok { h with subtree_hashes := (canon L).map (hashOf key flags) } := by
  have hd : (BitVec.ofNat 64 (2048 * n)).toNat / 2048 = n := by
    rw [BitVec.toNat_ofNat, Nat.mod_eq_of_lt hn]; omega
  rcases hs with hs | ⟨init, last, rfl, hs⟩
  · by_cases h0 : L = []
    · subst h0
      rw [merge_loop_eq key flags h _ (canon []) hk hf hs (Or.inr canon_nil), canon_nil]
      simp [mergeN]
    · have : 0 < n := by rw [← hL]; exact List.length_pos_iff.2 h0
      rw [merge_loop_eq key flags h _ (canon L) hk hf hs (Or.inl (by rw [hd]; exact popcount_pos this)), hd,
        length_canon, hL, Nat.sub_self, mergeN]
  · have hn1 : init.length + 1 = n := by rw [← hL]; simp
    rw [merge_loop_eq key flags h _ (last :: canon init) hk hf hs
      (Or.inl (by rw [hd]; exact popcount_pos (by omega))), hd, ← hn1, List.length_cons, (canon_push init last).2]

theorem push_chunk_hash_eq (h : Hasher) (n : Nat) (L : List (Tree Spec.Input)) (x : Tree Spec.Input)
    (hk : h.chunk.key = key) (hf : h.chunk.flags = flags) (hs : StackOk key flags L h.subtree_hashes)
    (hL : L.length = n) (hn : 2048 * (n + 1) < 2 ^ 64) :
    ∃ S, h.push_chunk_hash (hashOf key flags x) (BitVec.ofNat 64 (2048 * n)) = .ok { h with subtree_hashes := S } ∧
      Pushed key flags (L ++ [x]) S := by
  refine ⟨(x :: canon L).map (hashOf key flags), ?_, L, x, rfl, rfl⟩
  rw [Hasher.push_chunk_hash, merge_to_canon key flags h n L hk hf hs hL (by omega), bind_ok]
  have := popcount_53 (n := n) (by omega)
  rw [if_pos (by simp only [List.length_map, length_canon, hL, MAX_DEPTH]; omega)]
  rfl

theorem Pushed.length {L : List (Tree Spec.Input)} {S : List (Vector Byte 32)} (h : Pushed key flags L S) :
    S.length = popcount (L.length - 1) + 1 := by
  obtain ⟨init, last, rfl, rfl⟩ := h
  simp [length_canon]

/-! ## Chunk leaves -/

theorem chunkLeaves_append (off : Nat) (a b : List Bytes) :
    chunkLeaves key flags off (a ++ b) =
      chunkLeaves key flags off a ++ chunkLeaves key flags (off + 2048 * a.length) b := by
  induction a generalizing off with
  | nil => simp [chunkLeaves]
  | cons c a ih =>
    simp only [List.cons_append, chunkLeaves, ih, List.length_cons]
    rw [show off + 2048 + 2048 * a.length = off + 2048 * (a.length + 1) by omega]

theorem leaves_flatten (off : Nat) (cks : List Bytes) (h : ∀ c ∈ cks, c.length = 2048) (h0 : cks ≠ []) :
    leaves key flags off cks.flatten = chunkLeaves key flags off cks := by
  induction cks generalizing off with
  | nil => exact absurd rfl h0
  | cons c cks ih =>
    have hc := h c (List.mem_cons_self ..)
    by_cases h1 : cks = []
    · subst h1
      rw [leaves, dif_pos (by simp [hc])]
      simp [chunkLeaves]
    · have hl : cks.flatten ≠ [] := by
        intro h2
        obtain ⟨d, cks', rfl⟩ := List.exists_cons_of_ne_nil h1
        have := congrArg List.length h2
        have hd := h d (by simp)
        rw [List.flatten_cons, List.length_append, List.length_nil] at this; omega
      rw [List.flatten_cons, leaves_append key flags off c _ 0 (by omega) hl,
        ih _ (fun x hx => h x (List.mem_cons_of_mem _ hx)) h1, leaves, dif_pos (by omega), hc]
      rfl

theorem length_flatten (cks : List Bytes) (h : ∀ c ∈ cks, c.length = 2048) :
    cks.flatten.length = 2048 * cks.length := by
  induction cks with
  | nil => rfl
  | cons c cks ih =>
    rw [List.flatten_cons, List.length_append, ih (fun x hx => h x (List.mem_cons_of_mem _ hx)),
      h c (List.mem_cons_self ..), List.length_cons]
    omega

/-! ## The invariant -/

/-- Between chunks: whole chunks `cks` are in the stack, the chunk state is clear. -/
structure Mid (p : Platform) (cks : List Bytes) (h : Hasher) : Prop where
  len : ∀ c ∈ cks, c.length = 2048
  chunk : ChunkOk key flags p (2048 * cks.length) [] h.chunk
  stack : StackOk key flags (chunkLeaves key flags 0 cks) h.subtree_hashes

/-- Representation invariant: the hasher has received `bytes`. -/
structure HasherOk (p : Platform) (bytes : Bytes) (h : Hasher) : Prop where
  ex : ∃ cks tail, bytes = cks.flatten ++ tail ∧ (∀ c ∈ cks, c.length = 2048) ∧ tail.length ≤ 2048 ∧
    ChunkOk key flags p (2048 * cks.length) tail h.chunk ∧
    (((tail ≠ [] ∨ cks = []) ∧ h.subtree_hashes = (canon (chunkLeaves key flags 0 cks)).map (hashOf key flags)) ∨
     (tail = [] ∧ 2 ≤ cks.length ∧ Pushed key flags (chunkLeaves key flags 0 cks) h.subtree_hashes))

theorem HasherOk.new (cfg : Config) : HasherOk key flags (Platform.detect cfg) [] (Hasher.new_internal cfg key flags) := by
  refine ⟨[], [], rfl, by simp, by simp, ChunkOk.fresh key flags _ 0, Or.inl ⟨Or.inr rfl, ?_⟩⟩
  simp [chunkLeaves, canon_nil, Hasher.new_internal]

theorem ChunkOk.offset_change {p : Platform} {off off' : Nat} {s : ChunkState}
    (h : ChunkOk key flags p off [] s) :
    ChunkOk key flags p off' [] { s with offset := BitVec.ofNat 64 off' } := by
  obtain ⟨pre, b, e, hc, hm, hbl, hb64, hpb, hbuf, ha⟩ := h.split
  obtain ⟨rfl, rfl⟩ := List.append_eq_nil_iff.1 e.symm
  refine ⟨h.hkey, h.hflags, h.hplat, rfl, [], [], rfl, hc, hm, hbl, hb64, hpb, hbuf, ?_⟩
  -- with nothing absorbed the chaining value is the key
  have hcv : s.cv = key := ha.1 rfl
  show Absorbed key flags off' s.cv []
  rw [hcv]
  exact Absorbed.nil ..

/-! ## update -/

theorem push_hashes_eq (p : Platform) (new : List Bytes) : ∀ (cks : List Bytes) (h : Hasher),
    Mid key flags p cks h → (∀ c ∈ new, c.length = 2048) → 2048 * (cks.length + new.length) < 2 ^ 64 →
    ∃ h', Hasher.push_hashes ((chunkLeaves key flags (2048 * cks.length) new).map
        fun t => (hashOf key flags t).toList) h = .ok h' ∧
      Mid key flags p (cks ++ new) h' ∧
      (new ≠ [] → Pushed key flags (chunkLeaves key flags 0 (cks ++ new)) h'.subtree_hashes) := by
  induction new with
  | nil => intro cks h hm _ _; exact ⟨h, rfl, by rwa [List.append_nil], fun h => absurd rfl h⟩
  | cons c new ih =>
    intro cks h hm hnew hlt
    rw [List.length_cons] at hlt
    obtain ⟨S, e, hS⟩ := push_chunk_hash_eq key flags h cks.length (chunkLeaves key flags 0 cks)
      (.leaf (Spec.chunk key flags (2048 * cks.length) c)) hm.chunk.hkey hm.chunk.hflags hm.stack
      (length_chunkLeaves ..) (by omega)
    have hL : chunkLeaves key flags 0 cks ++ [.leaf (Spec.chunk key flags (2048 * cks.length) c)] =
        chunkLeaves key flags 0 (cks ++ [c]) := by
      rw [chunkLeaves_append, Nat.zero_add]; rfl
    rw [hL] at hS
    have hm' : Mid key flags p (cks ++ [c]) { h with
        subtree_hashes := S, chunk := { h.chunk with offset := BitVec.ofNat 64 (2048 * cks.length + 2048) } } := by
      refine ⟨?_, ?_, Or.inr hS⟩
      · intro x hx
        rcases List.mem_append.1 hx with hx | hx
        · exact hm.len x hx
        · exact hnew x (by rw [List.mem_singleton.1 hx]; exact List.mem_cons_self ..)
      · have := ChunkOk.offset_change key flags (off' := 2048 * (cks ++ [c]).length) hm.chunk
        rw [List.length_append] at this ⊢
        exact this
    obtain ⟨h', e', hm'', hp⟩ := ih (cks ++ [c]) _ hm' (fun x hx => hnew x (List.mem_cons_of_mem _ hx))
      (by rw [List.length_append, List.length_singleton]; omega)
    rw [List.append_assoc, List.singleton_append] at hm'' hp
    refine ⟨h', ?_, hm'', fun _ => ?_⟩
    · rw [chunkLeaves, List.map_cons, Hasher.push_hashes]
      simp only [OUT_LEN]
      have ha : arrayRef (hashOf key flags (.leaf (Spec.chunk key flags (2048 * cks.length) c))).toList 0 32 =
          .ok (hashOf key flags (.leaf (Spec.chunk key flags (2048 * cks.length) c))) := by
        rw [arrayRef, dif_pos (by simp)]
        refine congrArg Except.ok (Vector.toList_inj.1 ?_)
        exact List.take_of_length_le (by simp)
      rw [ha, bind_ok, hm.chunk.hoff, e, bind_ok]
      simp only [CHUNK_LEN]
      rw [hm.chunk.hoff, addU64_ofNat _ _ (by omega), bind_ok]
      rw [List.length_append, List.length_singleton, Nat.mul_add] at e'
      exact e'
    · by_cases hn : new = []
      · subst hn
        rw [chunkLeaves, List.map_nil, Hasher.push_hashes] at e'
        obtain rfl := Except.ok.inj e'
        exact hS
      · exact hp hn

theorem chunksExact_bufOf (ts : List (Tree Spec.Input)) (rest : Bytes) :
    (chunksExact 32 (bufOf key flags ts ++ rest)).take ts.length = ts.map fun t => (hashOf key flags t).toList := by
  induction ts with
  | nil => simp
  | cons t ts ih =>
    rw [bufOf_cons, List.append_assoc, chunksExact_append 32 (by decide) _ _ (by simp), List.length_cons,
      List.take_succ_cons, ih, List.map_cons]

theorem update_loop_eq (cfg : Config) (p : Platform) (new : List Bytes) (cks : List Bytes) (out : Bytes) (h : Hasher)
    (hm : Mid key flags p cks h) (hnew : ∀ c ∈ new, c.length = 2048)
    (hlt : 2048 * (cks.length + new.length) < 2 ^ 64) (hout : out.length = MAX_SIMD_DEGREE cfg * 32) :
    ∃ h', Hasher.update_loop cfg new out h = .ok h' ∧ Mid key flags p (cks ++ new) h' ∧
      (new ≠ [] → Pushed key flags (chunkLeaves key flags 0 (cks ++ new)) h'.subtree_hashes) ∧
      (new = [] → h' = h) := by
  induction hn : new.length using Nat.strongRecOn generalizing new cks out h with
  | ind n ih =>
  have hM : 0 < MAX_SIMD_DEGREE cfg := by unfold MAX_SIMD_DEGREE; split <;> decide
  rw [Hasher.update_loop]
  by_cases h0 : new = []
  · subst h0
    rw [dif_pos (by simp)]
    exact ⟨h, rfl, by rwa [List.append_nil], fun h => absurd rfl h, fun _ => rfl⟩
  · have hpos : 0 < new.length := List.length_pos_iff.2 h0
    have ht : new.take (MAX_SIMD_DEGREE cfg) ≠ [] := by
      intro h; have := congrArg List.length h; rw [List.length_take, List.length_nil] at this; omega
    have htl : (new.take (MAX_SIMD_DEGREE cfg)).length = min (MAX_SIMD_DEGREE cfg) new.length := List.length_take
    rw [dif_neg ht]
    have hnt : ∀ c ∈ new.take (MAX_SIMD_DEGREE cfg), c.length = 2048 := fun c hc => hnew c (List.mem_of_mem_take hc)
    simp only [CHUNK_LEN]
    have hoffn : (BitVec.ofNat 64 (2048 * cks.length)).toNat = 2048 * cks.length := by
      rw [BitVec.toNat_ofNat, Nat.mod_eq_of_lt (by omega)]
    have hlo := lanesOut_chunks key flags (2048 * cks.length) (new.take (MAX_SIMD_DEGREE cfg)) hnt (by omega) 0
    rw [Nat.mul_zero, Nat.add_zero] at hlo
    rw [hm.chunk.hoff, hm.chunk.hkey, hm.chunk.hflags,
      plat_hash_many _ 2048 (by decide) _ _ _ _ _ _ _ _ hnt (by omega)
        (by rw [hoffn, BitVec.toNat_ofNat]; omega), bind_ok, hlo]
    have hlen2 : (new.take (MAX_SIMD_DEGREE cfg)).length =
        (chunkLeaves key flags (2048 * cks.length) (new.take (MAX_SIMD_DEGREE cfg))).length :=
      (length_chunkLeaves ..).symm
    obtain ⟨h1, e1, hm1, hp1⟩ := push_hashes_eq key flags p (new.take (MAX_SIMD_DEGREE cfg)) cks h hm hnt (by omega)
    have hce := chunksExact_bufOf key flags
      (chunkLeaves key flags (2048 * cks.length) (new.take (MAX_SIMD_DEGREE cfg)))
      (out.drop (32 * (new.take (MAX_SIMD_DEGREE cfg)).length))
    rw [← hlen2] at hce
    simp only [OUT_LEN]
    rw [hce, e1, bind_ok]
    obtain ⟨h2, e2, hm2, hp2, hz2⟩ := ih (new.length - MAX_SIMD_DEGREE cfg) (by omega) (new.drop (MAX_SIMD_DEGREE cfg))
      (cks ++ new.take (MAX_SIMD_DEGREE cfg))
      (bufOf key flags (chunkLeaves key flags (2048 * cks.length) (new.take (MAX_SIMD_DEGREE cfg))) ++
        out.drop (32 * (new.take (MAX_SIMD_DEGREE cfg)).length)) h1 hm1
      (fun c hc => hnew c (List.mem_of_mem_drop hc)) (by rw [List.length_append, htl, List.length_drop]; omega)
      (by rw [List.length_append, length_bufOf, ← hlen2, List.length_drop]; omega) List.length_drop
    refine ⟨h2, e2, ?_, fun _ => ?_, fun h => absurd h h0⟩
    · rw [List.append_assoc, List.take_append_drop] at hm2; exact hm2
    · by_cases hd : new.drop (MAX_SIMD_DEGREE cfg) = []
      · have := hz2 hd
        rw [this]
        have := hp1 ht
        rwa [show new.take (MAX_SIMD_DEGREE cfg) = new by
          have := List.take_append_drop (MAX_SIMD_DEGREE cfg) new
          rw [hd, List.append_nil] at this; exact this] at this
      · have := hp2 hd
        rwa [List.append_assoc, List.take_append_drop] at this

/-- the second part of `update`, when it cannot leave a single chunk in the stack -/
theorem update_rest_eq (cfg : Config) (p : Platform) (cks : List Bytes) (h : Hasher) (input : Bytes)
    (hm : Mid key flags p cks h) (hin : input ≠ []) (hlt : 2048 * cks.length + input.length < 2 ^ 64)
    (h2 : 1 ≤ cks.length ∨ input.length ≠ 2048) :
    ∃ h', Hasher.update_rest cfg h input = .ok h' ∧ HasherOk key flags p (cks.flatten ++ input) h' := by
  have hpos : 0 < input.length := List.length_pos_iff.2 hin
  have hl := length_chunksExact 2048 (by decide) input
  have hmem := mem_chunksExact 2048 (by decide) input
  have hrl : (chunksRemainder 2048 input).length = input.length % 2048 := by
    rw [chunksRemainder, List.length_drop]; omega
  have hsplit : input = (chunksExact 2048 input).flatten ++ chunksRemainder 2048 input := by
    rw [flatten_chunksExact 2048 (by decide), chunksRemainder, List.take_append_drop]
  obtain ⟨h1, e1, hm1, hp1, hz1⟩ := update_loop_eq key flags cfg p (chunksExact 2048 input) cks
    (List.replicate (MAX_SIMD_DEGREE cfg * 32) 0) h hm hmem (by rw [hl]; omega) List.length_replicate
  rw [Hasher.update_rest, assertR, if_pos (by exact hm.chunk.len), bind_ok]
  simp only [OUT_LEN, CHUNK_LEN]
  rw [e1, bind_ok, assertR, if_pos (by exact hm1.chunk.len), bind_ok, assertR, if_pos (by rw [hrl]; omega), bind_ok]
  have hlen : (cks ++ chunksExact 2048 input).length = cks.length + input.length / 2048 := by
    rw [List.length_append, hl]
  have hfl : cks.flatten ++ input = (cks ++ chunksExact 2048 input).flatten ++ chunksRemainder 2048 input := by
    rw [List.flatten_append, List.append_assoc, ← hsplit]
  by_cases hr : chunksRemainder 2048 input = []
  · have hmod : input.length % 2048 = 0 := by rw [← hrl, hr]; rfl
    rw [if_neg (by simpa using hr)]
    refine ⟨h1, rfl, cks ++ chunksExact 2048 input, [], ?_, hm1.len, by simp, hm1.chunk, Or.inr ⟨rfl, by omega, ?_⟩⟩
    · rw [hfl, hr]
    · exact hp1 (by intro h; rw [h] at hl; simp at hl; omega)
  · rw [if_pos (by simpa using hr), hm1.chunk.hoff,
      merge_to_canon key flags h1 _ _ hm1.chunk.hkey hm1.chunk.hflags hm1.stack (length_chunkLeaves ..)
        (by rw [hlen]; omega), bind_ok]
    obtain ⟨s', e, hs'⟩ := hm1.chunk.update (chunksRemainder 2048 input) (by simp; omega)
    dsimp only
    rw [e, bind_ok]
    rw [List.nil_append] at hs'
    exact ⟨_, rfl, cks ++ chunksExact 2048 input, chunksRemainder 2048 input, hfl, hm1.len, by omega, hs',
      Or.inl ⟨Or.inl hr, rfl⟩⟩

theorem update_eq (cfg : Config) (p : Platform) (bytes input : Bytes) (h : Hasher) (hok : HasherOk key flags p bytes h)
    (hlt : bytes.length + input.length < 2 ^ 64) :
    ∃ h', h.update cfg input = .ok h' ∧ HasherOk key flags p (bytes ++ input) h' := by
  obtain ⟨cks, tail, rfl, hcks, htail, hch, hst⟩ := hok.ex
  have hfl := length_flatten cks hcks
  rw [List.length_append, hfl] at hlt
  have hcl := hch.len
  have hoff0 : h.chunk.offset = 0 ↔ cks.length = 0 := by
    rw [hch.hoff]
    constructor
    · intro e
      have := congrArg BitVec.toNat e
      rw [BitVec.toNat_ofNat, Nat.mod_eq_of_lt (by omega)] at this
      change _ = 0 at this
      omega
    · intro e; rw [e]; rfl
  rw [Hasher.update]
  dsimp only
  by_cases hc : (h.chunk.offset = 0 ∧ input.length = CHUNK_LEN) ∨ 0 < h.chunk.len
  · rw [if_pos hc]
    simp only [CHUNK_LEN] at hc ⊢
    rw [hcl] at hc ⊢
    rw [subN, if_pos htail, bind_ok]
    have ht : input.take (min (2048 - tail.length) input.length) = input.take (2048 - tail.length) := by
      rw [List.take_eq_take_iff]; omega
    have hd : input.drop (min (2048 - tail.length) input.length) = input.drop (2048 - tail.length) := by
      by_cases h : 2048 - tail.length ≤ input.length
      · rw [Nat.min_eq_left h]
      · rw [Nat.min_eq_right (by omega), List.drop_of_length_le (by omega), List.drop_of_length_le (by omega)]
    rw [ht, hd]
    obtain ⟨s', e, hs'⟩ := hch.update (input.take (2048 - tail.length)) (by rw [List.length_take]; omega)
    rw [e, bind_ok]
    -- the stack is merged
    have hcanon : h.subtree_hashes = (canon (chunkLeaves key flags 0 cks)).map (hashOf key flags) := by
      rcases hst with ⟨-, h⟩ | ⟨h1, h2, -⟩
      · exact h
      · exfalso
        rw [h1] at hc
        rcases hc with ⟨h, -⟩ | h
        · have := hoff0.1 h; omega
        · simp at h
    by_cases hi : input.drop (2048 - tail.length) = []
    · rw [if_neg (by simpa using hi)]
      have hti : input.take (2048 - tail.length) = input := by
        have := List.take_append_drop (2048 - tail.length) input
        rw [hi, List.append_nil] at this; exact this
      rw [hti] at hs'
      have hil : input.length ≤ 2048 - tail.length := by
        have := congrArg List.length hi; simp at this; omega
      refine ⟨_, rfl, cks, tail ++ input, by rw [List.append_assoc], hcks, by rw [List.length_append]; omega, hs',
        Or.inl ⟨?_, hcanon⟩⟩
      rcases hc with ⟨h, -⟩ | h
      · exact Or.inr (List.length_eq_zero_iff.1 (hoff0.1 h))
      · left; intro h'; have := congrArg List.length h'; rw [List.length_append, List.length_nil] at this; omega
    · rw [if_pos (by simpa using hi)]
      have hil : 2048 - tail.length < input.length := by
        rcases Nat.lt_or_ge (2048 - tail.length) input.length with h | h
        · exact h
        · exact absurd (List.drop_of_length_le h) hi
      have htl : (tail ++ input.take (2048 - tail.length)).length = 2048 := by
        rw [List.length_append, List.length_take]; omega
      rw [assertR, if_pos (by rw [hs'.len, htl]), bind_ok]
      obtain ⟨o, eo, hpo, ho⟩ := hs'.finalize .notRoot (by intro h; cases h)
      have hto : o.to_hash = hashOf key flags (.leaf (Spec.chunk key flags (2048 * cks.length)
          (tail ++ input.take (2048 - tail.length)))) := by
        rw [to_hash_eq, ho]
        simp only [IsRoot.flag, or_zero8]
        rfl
      rw [eo, bind_ok, hto, hs'.hoff]
      obtain ⟨S, e2, hS⟩ := push_chunk_hash_eq key flags { h with chunk := s' } cks.length (chunkLeaves key flags 0 cks)
        (.leaf (Spec.chunk key flags (2048 * cks.length) (tail ++ input.take (2048 - tail.length))))
        hs'.hkey hs'.hflags (Or.inl hcanon) (length_chunkLeaves ..) (by omega)
      rw [e2, bind_ok]
      dsimp only
      rw [hs'.hoff, addU64_ofNat _ _ (by omega), bind_ok, ChunkState.reset, assertR, if_pos (by
        apply BitVec.eq_of_toNat_eq
        have e1 : (BitVec.ofNat 64 (2048 * cks.length + 2048)).toNat = 2048 * cks.length + 2048 := by
          rw [BitVec.toNat_ofNat, Nat.mod_eq_of_lt (by omega)]
        have e2 : (BitVec.ofNat 64 CHUNK_LEN).toNat = 2048 := by decide
        have e3 : (0 : U64).toNat = 0 := by decide
        rw [BitVec.toNat_umod, e1, e2, e3]
        omega), bind_ok, pure_eq, bind_ok]
      have hmid : Mid key flags p (cks ++ [tail ++ input.take (2048 - tail.length)])
          { subtree_hashes := S,
            chunk := { s' with cv := s'.key, offset := BitVec.ofNat 64 (2048 * cks.length + 2048), count := 0,
                               buf := Vector.replicate 64 0, buf_len := 0 } } := by
        refine ⟨?_, ?_, Or.inr ?_⟩
        · intro x hx
          rcases List.mem_append.1 hx with hx | hx
          · exact hcks x hx
          · rw [List.mem_singleton.1 hx]; exact htl
        · have := ChunkOk.fresh key flags p (2048 * (cks ++ [tail ++ input.take (2048 - tail.length)]).length)
          rw [List.length_append, List.length_singleton, Nat.mul_add] at this ⊢
          rw [hs'.hkey, hs'.hflags, hs'.hplat]
          exact this
        · rw [chunkLeaves_append, Nat.zero_add]; exact hS
      obtain ⟨h', e3, hok'⟩ := update_rest_eq key flags cfg p _ _ (input.drop (2048 - tail.length)) hmid hi
        (by rw [List.length_append, List.length_singleton, List.length_drop]; omega)
        (Or.inl (by rw [List.length_append, List.length_singleton]; omega))
      refine ⟨h', e3, ?_⟩
      rw [List.flatten_append, List.flatten_cons, List.flatten_nil, List.append_nil, List.append_assoc,
        List.append_assoc, List.take_append_drop, ← List.append_assoc] at hok'
      exact hok'
  · rw [if_neg hc]
    simp only [CHUNK_LEN] at hc
    have htz : tail = [] := List.length_eq_zero_iff.1 (by omega)
    subst htz
    by_cases hin : input = []
    · subst hin
      refine ⟨h, ?_, ⟨cks, [], by simp, hcks, by simp, hch, hst⟩⟩
      rw [Hasher.update_rest, assertR, if_pos (by exact hcl), bind_ok]
      simp only [CHUNK_LEN]
      rw [chunksExact_short _ _ (by simp), Hasher.update_loop, dif_pos (by simp), bind_ok, assertR, if_pos (by exact hcl), bind_ok,
        assertR, if_pos (by simp [chunksRemainder]), bind_ok, if_neg (by simp [chunksRemainder])]
      rfl
    · have hmid : Mid key flags p cks h := by
        refine ⟨hcks, hch, ?_⟩
        rcases hst with ⟨-, h⟩ | ⟨-, -, h⟩
        · exact Or.inl h
        · exact Or.inr h
      obtain ⟨h', e3, hok'⟩ := update_rest_eq key flags cfg p cks h input hmid hin (by omega) (by
        by_cases h0 : cks.length = 0
        · right; intro hi; exact hc (Or.inl ⟨hoff0.2 h0, hi⟩)
        · left; omega)
      exact ⟨h', e3, by rwa [List.append_nil]⟩

/-! ## finalize -/

theorem finalize_loop_eq (h : Hasher) (hk : h.chunk.key = key) (hf : h.chunk.flags = flags) (S : List (Tree Spec.Input)) :
    ∀ (x : Tree Spec.Input), S ≠ [] →
    ∃ o, h.finalize_loop (hashOf key flags x) (S.map (hashOf key flags)) = .ok o ∧ o.platform = h.chunk.platform ∧
      toInput o = asRoot (inp key flags (foldStack x S)) := by
  induction S with
  | nil => intro x h; exact absurd rfl h
  | cons s S ih =>
    intro x _
    by_cases h0 : S = []
    · subst h0
      refine ⟨_, rfl, rfl, ?_⟩
      rw [hk, hf]
      rfl
    · obtain ⟨o, e, hp, ho⟩ := ih (.node s x) h0
      refine ⟨o, ?_, hp, ho⟩
      obtain ⟨s2, S2, rfl⟩ := List.exists_cons_of_ne_nil h0
      rw [List.map_cons, List.map_cons, Hasher.finalize_loop, hk, hf, hash_one_parent_hash]
      · exact e
      · simp

/-- `HasherOk` with fewer than 2^53 chunks in the stack -/
structure HasherOkR (p : Platform) (bytes : Bytes) (h : Hasher) : Prop where
  ex : ∃ cks tail, bytes = cks.flatten ++ tail ∧ (∀ c ∈ cks, c.length = 2048) ∧ tail.length ≤ 2048 ∧
    ChunkOk key flags p (2048 * cks.length) tail h.chunk ∧
    (((tail ≠ [] ∨ cks = []) ∧ h.subtree_hashes = (canon (chunkLeaves key flags 0 cks)).map (hashOf key flags)) ∨
     (tail = [] ∧ 2 ≤ cks.length ∧ Pushed key flags (chunkLeaves key flags 0 cks) h.subtree_hashes)) ∧ cks.length < 2 ^ 53

theorem HasherOkR.ok {p : Platform} {bytes : Bytes} {h : Hasher} (hr : HasherOkR key flags p bytes h) : HasherOk key flags p bytes h := by
  obtain ⟨cks, tail, h1, h2, h3, h4, h5, -⟩ := hr.ex
  exact ⟨cks, tail, h1, h2, h3, h4, h5⟩

theorem HasherOkR.of {p : Platform} {bytes : Bytes} {h : Hasher} (ho : HasherOk key flags p bytes h) (hlt : bytes.length < 2 ^ 64) :
    HasherOkR key flags p bytes h := by
  obtain ⟨cks, tail, h1, h2, h3, h4, h5⟩ := ho.ex
  refine ⟨cks, tail, h1, h2, h3, h4, h5, ?_⟩
  have := length_flatten cks h2
  rw [h1, List.length_append] at hlt
  omega

theorem HasherOkR.length {p : Platform} {bytes : Bytes} {h : Hasher} (hr : HasherOkR key flags p bytes h) : bytes.length ≤ 2 ^ 64 := by
  obtain ⟨cks, tail, rfl, h2, h3, -, -, h6⟩ := hr.ex
  rw [List.length_append, length_flatten cks h2]
  omega

theorem finalize_xof_eqR (p : Platform) (bytes : Bytes) (h : Hasher) (hok : HasherOkR key flags p bytes h) :
    ∃ o, h.finalize_xof = .ok o ∧ o.platform = p ∧ toInput o = asRoot (Spec.subtree key flags 0 bytes) := by
  obtain ⟨cks, tail, rfl, hcks, htail, hch, hst, hlt⟩ := hok.ex
  have hfl := length_flatten cks hcks
  have hcl := hch.len
  rw [Hasher.finalize_xof]
  have hlen := length_canon (chunkLeaves key flags 0 cks)
  rw [length_chunkLeaves] at hlen
  by_cases h0 : cks = []
  · subst h0
    have hs : h.subtree_hashes = [] := by
      rcases hst with ⟨-, h⟩ | ⟨-, h2, -⟩
      · rw [h, chunkLeaves, canon_nil]; rfl
      · simp at h2
    rw [if_pos hs]
    obtain ⟨o, e, hp, ho⟩ := hch.finalize .root (fun _ => rfl)
    refine ⟨o, e, hp, ho.trans ?_⟩
    rw [List.flatten_nil, List.nil_append, subtree_eq, leaves, dif_pos htail, shape_one]
    rfl
  · have hpos : 0 < cks.length := List.length_pos_iff.2 h0
    have hpc := popcount_pos hpos
    rcases hst with ⟨htne, hs⟩ | ⟨rfl, h2, hP⟩
    · have htne : tail ≠ [] := by rcases htne with h | h; exact h; exact absurd h h0
      have htpos : 0 < tail.length := List.length_pos_iff.2 htne
      have hsl : h.subtree_hashes.length = popcount cks.length := by rw [hs, List.length_map, hlen]
      rw [if_neg (by intro e; rw [e] at hsl; simp at hsl; omega), if_pos (by omega), assertR, if_pos (by
        rw [Hasher.needs_merge, hch.hoff, BitVec.toNat_ofNat, Nat.mod_eq_of_lt (by omega), decide_eq_false_iff_not]
        simp only [CHUNK_LEN]
        rw [Nat.mul_div_cancel_left _ (by decide)]
        omega), bind_ok]
      obtain ⟨o, e, hp, ho⟩ := hch.finalize .notRoot (by intro h; cases h)
      have hto : o.to_hash = hashOf key flags (.leaf (Spec.chunk key flags (2048 * cks.length) tail)) := by
        rw [to_hash_eq, ho]
        simp only [IsRoot.flag, or_zero8]
        rfl
      rw [e, bind_ok, hto, hs]
      obtain ⟨o', e', hp', ho'⟩ := finalize_loop_eq key flags h hch.hkey hch.hflags (canon (chunkLeaves key flags 0 cks))
        (.leaf (Spec.chunk key flags (2048 * cks.length) tail))
        (by intro h; rw [h] at hlen; simp at hlen; omega)
      refine ⟨o', e', by rw [hp', hch.hplat], ?_⟩
      rw [ho', fold_canon, subtree_eq,
        leaves_append key flags 0 cks.flatten tail (cks.length - 1) (by rw [hfl]; congr 1; omega) htne,
        leaves_flatten key flags 0 cks hcks h0, leaves, dif_pos htail, Nat.zero_add, hfl]
    · obtain ⟨init, last, hL, hs⟩ := hP
      have hil : init.length + 1 = cks.length := by
        have := congrArg List.length hL; rw [length_chunkLeaves, List.length_append] at this; simpa using this.symm
      have hcpos := popcount_pos (n := init.length) (by omega)
      have hcil := length_canon init
      rw [if_neg (by rw [hs]; simp), if_neg (by rw [hcl]; simp), assertR,
        if_pos (by rw [hs, List.length_map, List.length_cons]; omega), bind_ok, hs, List.map_cons]
      dsimp only
      obtain ⟨o', e', hp', ho'⟩ := finalize_loop_eq key flags h hch.hkey hch.hflags (canon init) last
        (by intro h; rw [h] at hcil; simp at hcil; omega)
      refine ⟨o', e', by rw [hp', hch.hplat], ?_⟩
      rw [ho', fold_canon, ← hL, List.append_nil, subtree_eq, leaves_flatten key flags 0 cks hcks h0]

theorem finalize_xof_eq (p : Platform) (bytes : Bytes) (h : Hasher) (hok : HasherOk key flags p bytes h)
    (hlt : bytes.length < 2 ^ 64) :
    ∃ o, h.finalize_xof = .ok o ∧ o.platform = p ∧ toInput o = asRoot (Spec.subtree key flags 0 bytes) :=
  finalize_xof_eqR key flags p bytes h (HasherOkR.of key flags hok hlt)

theorem popcount_log2 {n : Nat} (h : 0 < n) : popcount n ≤ Nat.log2 n + 1 ∧ popcount (n - 1) ≤ Nat.log2 n := by
  have h1 : n < 2 ^ (Nat.log2 n + 1) := Nat.lt_log2_self
  have h2 := popcount_le h1
  have h3 := popcount_le (n := n - 1) (k := Nat.log2 n + 1) (by omega)
  refine ⟨h2.1, ?_⟩
  by_cases h4 : popcount (n - 1) = Nat.log2 n + 1
  · have := h3.2 h4; omega
  · omega

/-- the memory the hasher uses -/
theorem HasherOk.memory {p : Platform} {bytes : Bytes} {h : Hasher} (hok : HasherOk key flags p bytes h)
    (hlt : bytes.length < 2 ^ 64) :
    (∃ n, 2048 * n ≤ bytes.length ∧ bytes.length ≤ 2048 * n + 2048 ∧
      (h.subtree_hashes.length = popcount n ∨
        (bytes.length = 2048 * n ∧ 2 ≤ n ∧ h.subtree_hashes.length = popcount (n - 1) + 1))) ∧
      h.subtree_hashes.length ≤ Nat.log2 (bytes.length / 2048) + 1 ∧
      h.subtree_hashes.length ≤ 53 ∧ h.chunk.buf_len ≤ 64 := by
  obtain ⟨cks, tail, rfl, hcks, htail, hch, hst⟩ := hok.ex
  have hfl := length_flatten cks hcks
  rw [List.length_append, hfl] at hlt ⊢
  have hlen := length_canon (chunkLeaves key flags 0 cks)
  rw [length_chunkLeaves] at hlen
  have hst' : h.subtree_hashes.length = popcount cks.length ∨
        (2048 * cks.length + tail.length = 2048 * cks.length ∧ 2 ≤ cks.length ∧
          h.subtree_hashes.length = popcount (cks.length - 1) + 1) := by
    rcases hst with ⟨-, h⟩ | ⟨h1, h2, h3⟩
    · left; rw [h, List.length_map, hlen]
    · right
      have := h3.length
      rw [length_chunkLeaves] at this
      exact ⟨by rw [h1]; rfl, h2, this⟩
  have hlog : h.subtree_hashes.length ≤ Nat.log2 ((2048 * cks.length + tail.length) / 2048) + 1 := by
    by_cases h0 : cks.length = 0
    · rw [h0, popcount_zero] at hst'
      omega
    · have hp := popcount_log2 (n := cks.length) (by omega)
      have hmono : Nat.log2 cks.length ≤ Nat.log2 ((2048 * cks.length + tail.length) / 2048) := by
        rw [Nat.le_log2 (by omega)]
        have := Nat.log2_self_le (n := cks.length) (by omega)
        omega
      omega
  refine ⟨⟨cks.length, by omega, by omega, hst'⟩, hlog, ?_, ?_⟩
  · by_cases h0 : (2048 * cks.length + tail.length) / 2048 = 0
    · rw [h0] at hlog
      have : Nat.log2 0 = 0 := by decide
      omega
    · have : Nat.log2 ((2048 * cks.length + tail.length) / 2048) < 53 := by
        rw [Nat.log2_lt (by omega)]; omega
      omega
  · obtain ⟨pre, b, -, -, -, hb, hb', -⟩ := hch.split
    omega

end

end Baokeshed.Proofs
