import Verif.Proofs.RelHashMany
import Verif.Proofs.RelLe
import Verif.Proofs.Hasher

/-! # The incremental implementation without overflow checks, for inputs of any length -/

set_option linter.unusedVariables false
set_option linter.unusedSimpArgs false

namespace Baokeshed.Proofs
open Baokeshed.Model

attribute [local irreducible] Spec.compress Spec.outBytes Spec.cvBytes Spec.pad

/-! ## The length of the stack decides whether a push fails -/

theorem popcount_succ_le (n : Nat) : popcount (n + 1) ≤ popcount n + 1 := by
  induction n using Nat.strongRecOn with
  | ind n ih =>
  by_cases h0 : n = 0
  · subst h0; rw [popcount.eq_def (0 + 1), if_neg (by omega), show (0 + 1) / 2 = 0 by rfl, popcount_zero]; omega
  · rw [popcount, if_neg (by omega), popcount.eq_def n, if_neg h0]
    by_cases h2 : n % 2 = 1
    · have := ih (n / 2) (by omega)
      rw [show (n + 1) / 2 = n / 2 + 1 by omega]
      omega
    · rw [show (n + 1) / 2 = n / 2 by omega]; omega

theorem popcount_ones (k : Nat) : popcount (2 ^ k - 1) = k := by
  induction k with
  | zero => exact popcount_zero
  | succ k ih =>
    have := Nat.two_pow_pos k
    rw [popcount, if_neg (by omega), show (2 ^ (k + 1) - 1) / 2 = 2 ^ k - 1 by omega, ih]
    omega

theorem popcount_max : popcount (2 ^ 53 - 1) = 53 := popcount_ones 53

theorem rel_merge_len (h : Hasher) (off : U64) (hw : 1 ≤ popcount (off.toNat / 2048) ∨ h.subtree_hashes = []) :
    ∃ S, Rel.Hasher.merge_loop h off = .ok { h with subtree_hashes := S } ∧
      S.length = min h.subtree_hashes.length (popcount (off.toNat / 2048)) := by
  induction hn : h.subtree_hashes.length using Nat.strongRecOn generalizing h with
  | ind n ih =>
  rw [Rel.Hasher.merge_loop]
  by_cases hm : popcount (off.toNat / 2048) < h.subtree_hashes.length
  · rw [if_pos (by simpa [Hasher.needs_merge, CHUNK_LEN] using hm)]
    have hw' : 1 ≤ popcount (off.toNat / 2048) := by
      rcases hw with h1 | h1
      · exact h1
      · rw [h1] at hm; simp at hm
    match hs : h.subtree_hashes with
    | [] => rw [hs] at hm; simp at hm
    | [_] => rw [hs] at hm; simp at hm; omega
    | r :: l :: rest =>
      have e : ∃ x, Rel.Hasher.merge_parent h = .ok { h with subtree_hashes := x :: rest } := by
        refine ⟨(hash_one_parent l r h.chunk.key .notRoot h.chunk.flags h.chunk.platform).to_hash, ?_⟩
        rw [Rel.Hasher.merge_parent, hs]
      obtain ⟨x, e⟩ := e
      rw [hs] at hn hm
      simp only [List.length_cons] at hn hm
      split
      next e' he => rw [e] at he; cases he
      next h' he =>
        rw [e] at he
        cases he
        obtain ⟨S, e2, hS⟩ := ih (rest.length + 1) (by omega) { h with subtree_hashes := x :: rest } (Or.inl hw') rfl
        exact ⟨S, e2, by rw [hS]; omega⟩
  · rw [if_neg (by simpa [Hasher.needs_merge, CHUNK_LEN] using hm)]
    exact ⟨h.subtree_hashes, rfl, by omega⟩

/-- `n` chunks have been pushed; nothing is said about their hashes -/
structure LenOk (n : Nat) (h : Hasher) : Prop where
  off : h.chunk.offset = BitVec.ofNat 64 (2048 * n)
  len : h.subtree_hashes.length = popcount n ∨ 1 ≤ n ∧ h.subtree_hashes.length = popcount (n - 1) + 1

theorem LenOk.push {n : Nat} {h : Hasher} (hl : LenOk n h) (hn : n < 2 ^ 53) (x : Vector Byte 32) :
    (n + 1 < 2 ^ 53 → ∃ S, Rel.Hasher.push_chunk_hash h x h.chunk.offset = .ok { h with subtree_hashes := S } ∧
      S.length = popcount n + 1) ∧
    (n + 1 = 2 ^ 53 → Rel.Hasher.push_chunk_hash h x h.chunk.offset = .error .capacity) := by
  have hd : h.chunk.offset.toNat / 2048 = n := by
    rw [hl.off, BitVec.toNat_ofNat, Nat.mod_eq_of_lt (by omega)]; omega
  have hw : 1 ≤ popcount (h.chunk.offset.toNat / 2048) ∨ h.subtree_hashes = [] := by
    rw [hd]
    by_cases h0 : n = 0
    · right
      rcases hl.len with h1 | ⟨h1, -⟩
      · rw [h0, popcount_zero] at h1; exact List.length_eq_zero_iff.1 h1
      · omega
    · left; exact popcount_pos (by omega)
  obtain ⟨S, e, hS⟩ := rel_merge_len h h.chunk.offset hw
  rw [hd] at hS
  have hS' : S.length = popcount n := by
    rcases hl.len with h1 | ⟨h1, h2⟩
    · omega
    · have := popcount_succ_le (n - 1)
      rw [show n - 1 + 1 = n by omega] at this
      omega
  constructor
  · intro h1
    have := popcount_53 h1
    refine ⟨x :: S, ?_, by rw [List.length_cons, hS']⟩
    rw [Rel.Hasher.push_chunk_hash, e, bind_ok, if_pos (by simp only [MAX_DEPTH, hS']; omega)]
  · intro h1
    have : n = 2 ^ 53 - 1 := by omega
    rw [Rel.Hasher.push_chunk_hash, e, bind_ok, if_neg (by simp only [MAX_DEPTH, hS', this, popcount_max]; omega)]

theorem LenOk.push_hashes (cs : List Bytes) : ∀ {n : Nat} {h : Hasher}, LenOk n h → n < 2 ^ 53 → (∀ c ∈ cs, c.length = 32) →
    (n + cs.length < 2 ^ 53 → ∃ h', Rel.Hasher.push_hashes cs h = .ok h' ∧ LenOk (n + cs.length) h') ∧
    (2 ^ 53 ≤ n + cs.length → Rel.Hasher.push_hashes cs h = .error .capacity) := by
  induction cs with
  | nil =>
    intro n h hl hn _
    exact ⟨fun _ => ⟨h, rfl, hl⟩, fun h1 => by simp at h1; omega⟩
  | cons c cs ih =>
    intro n h hl hn hc
    obtain ⟨v, ev, -⟩ := arrayRef_take c 32 (by rw [hc c (List.mem_cons_self ..)]; exact Nat.le_refl _)
    rw [Rel.Hasher.push_hashes]
    simp only [OUT_LEN]
    rw [ev, bind_ok, List.length_cons]
    obtain ⟨hp1, hp2⟩ := hl.push hn v
    by_cases h1 : n + 1 < 2 ^ 53
    · obtain ⟨S, e, hS⟩ := hp1 h1
      rw [e, bind_ok]
      have hl' : LenOk (n + 1) { h with subtree_hashes := S, chunk := { h.chunk with
          offset := h.chunk.offset + BitVec.ofNat 64 CHUNK_LEN } } := by
        refine ⟨?_, Or.inr ⟨by omega, hS⟩⟩
        show h.chunk.offset + BitVec.ofNat 64 2048 = _
        rw [hl.off, ← BitVec.ofNat_add]; rfl
      obtain ⟨i1, i2⟩ := ih hl' h1 (fun x hx => hc x (List.mem_cons_of_mem _ hx))
      rw [show n + 1 + cs.length = n + (cs.length + 1) by omega] at i1 i2
      exact ⟨i1, i2⟩
    · refine ⟨fun h2 => by omega, fun _ => ?_⟩
      rw [hp2 (by omega)]; rfl

theorem LenOk.update_loop (cfg : Config) (new : List Bytes) : ∀ {n : Nat} {h : Hasher} {out : Bytes}, LenOk n h → n < 2 ^ 53 →
    (∀ c ∈ new, c.length = 2048) → out.length = MAX_SIMD_DEGREE cfg * 32 → 2 ^ 53 ≤ n + new.length →
    Rel.Hasher.update_loop cfg new out h = .error .capacity := by
  induction hk : new.length using Nat.strongRecOn generalizing new with
  | ind k ih =>
  intro n h out hl hn hc hout hlen
  have hM : 0 < MAX_SIMD_DEGREE cfg := by unfold MAX_SIMD_DEGREE; split <;> decide
  have ht : new.take (MAX_SIMD_DEGREE cfg) ≠ [] := by
    intro h1; have := congrArg List.length h1; rw [List.length_take, List.length_nil] at this; omega
  have htl : (new.take (MAX_SIMD_DEGREE cfg)).length = min (MAX_SIMD_DEGREE cfg) k := by rw [List.length_take, hk]
  rw [Rel.Hasher.update_loop, dif_neg ht]
  simp only [CHUNK_LEN]
  rw [rel_hash_many _ 2048 (by decide) _ _ _ _ _ _ _ _ (fun c h1 => hc c (List.mem_of_mem_take h1)), bind_ok]
  have hbl := length_manyBuf h.chunk.key h.chunk.offset (BitVec.ofNat 64 2048) h.chunk.flags Flags.CHUNK_START Flags.CHUNK_END
    (new.take (MAX_SIMD_DEGREE cfg)) out
  generalize manyBuf h.chunk.key h.chunk.offset (BitVec.ofNat 64 2048) h.chunk.flags Flags.CHUNK_START Flags.CHUNK_END
    (new.take (MAX_SIMD_DEGREE cfg)) out = buf at hbl ⊢
  simp only [OUT_LEN]
  have hcl : ((chunksExact 32 buf).take (new.take (MAX_SIMD_DEGREE cfg)).length).length = min (MAX_SIMD_DEGREE cfg) k := by
    rw [List.length_take, length_chunksExact 32 (by decide), htl, hbl, hout]; omega
  obtain ⟨p1, p2⟩ := LenOk.push_hashes ((chunksExact 32 buf).take (new.take (MAX_SIMD_DEGREE cfg)).length) hl hn
    (fun c h1 => mem_chunksExact 32 (by decide) buf c (List.mem_of_mem_take h1))
  rw [hcl] at p1 p2
  by_cases h1 : n + min (MAX_SIMD_DEGREE cfg) k < 2 ^ 53
  · obtain ⟨h', e, hl'⟩ := p1 h1
    rw [e, bind_ok]
    exact ih (k - MAX_SIMD_DEGREE cfg) (by omega) (new.drop (MAX_SIMD_DEGREE cfg)) (by rw [List.length_drop, hk]) hl' h1
      (fun c h2 => hc c (List.mem_of_mem_drop h2)) (by rw [hbl, hout]) (by omega)
  · rw [p2 (by omega)]; rfl

theorem LenOk.update_rest (cfg : Config) (input : Bytes) {n : Nat} {h : Hasher} (hl : LenOk n h) (hn : n < 2 ^ 53)
    (hlen : 2 ^ 64 ≤ 2048 * n + input.length) : Rel.Hasher.update_rest cfg h input = .error .capacity := by
  rw [Rel.Hasher.update_rest]
  simp only [OUT_LEN, CHUNK_LEN]
  rw [hl.update_loop cfg (chunksExact 2048 input) hn (mem_chunksExact 2048 (by decide) input) List.length_replicate
    (by rw [length_chunksExact 2048 (by decide)]; omega)]
  rfl

theorem long_rest {n t i : Nat} (h : 2 ^ 64 ≤ 2048 * n + t + i) (ht : t ≤ 2048) (hi : 2048 - t < i) :
    2 ^ 64 ≤ 2048 * (n + 1) + (i - (2048 - t)) := by
  generalize 2 ^ 64 = M at *
  omega

/-! ## The invariant -/

section
variable (key : Vector Word 8) (flags : Byte)

theorem stack_len {cks : List Bytes} {S : List (Vector Byte 32)} (h : StackOk key flags (chunkLeaves key flags 0 cks) S) :
    S.length = popcount cks.length ∨ 1 ≤ cks.length ∧ S.length = popcount (cks.length - 1) + 1 := by
  rcases h with h | h
  · left; rw [h, List.length_map, length_canon, length_chunkLeaves]
  · right
    have h1 := Pushed.length key flags h
    rw [length_chunkLeaves] at h1
    refine ⟨?_, h1⟩
    obtain ⟨init, last, e, -⟩ := h
    have := congrArg List.length e
    rw [length_chunkLeaves, List.length_append, List.length_singleton] at this
    omega

variable {key flags}

/-- With 2^64 bytes or more an update runs into the limit of the stack, unless it ends exactly at 2^64 and its bytes all go
into the last chunk. -/
theorem rel_update_long (cfg : Config) {p : Platform} {bytes input : Bytes} {h : Hasher} (hr : HasherOkR key flags p bytes h)
    (hlen : 2 ^ 64 ≤ bytes.length + input.length) :
    (2 ^ 64 - 2048 < bytes.length ∧ bytes.length + input.length = 2 ^ 64 ∧
      ∃ h', Rel.Hasher.update cfg h input = .ok h' ∧ HasherOkR key flags p (bytes ++ input) h') ∨
    ¬ (2 ^ 64 - 2048 < bytes.length ∧ bytes.length + input.length = 2 ^ 64) ∧ Rel.Hasher.update cfg h input = .error .capacity := by
  obtain ⟨cks, tail, rfl, hcks, htail, hch, hst, hn⟩ := hr.ex
  have hfl := length_flatten cks hcks
  rw [List.length_append, hfl] at hlen ⊢
  have hcl := hch.len
  rw [Rel.Hasher.update]
  dsimp only
  have hoff0 : h.chunk.offset = 0 → cks.length = 0 := by
    rw [hch.hoff]
    intro e
    have := congrArg BitVec.toNat e
    rw [BitVec.toNat_ofNat, Nat.mod_eq_of_lt (by omega)] at this
    change _ = 0 at this
    omega
  by_cases hc : (h.chunk.offset = 0 ∧ input.length = CHUNK_LEN) ∨ 0 < h.chunk.len
  · rw [if_pos hc]
    have htpos : tail ≠ [] := by
      rcases hc with ⟨h1, h2⟩ | h1
      · have := hoff0 h1; simp only [CHUNK_LEN] at h2; omega
      · intro h2; rw [hcl, h2] at h1; simp at h1
    have hcanon : h.subtree_hashes = (canon (chunkLeaves key flags 0 cks)).map (hashOf key flags) := by
      rcases hst with ⟨-, h⟩ | ⟨h1, -, -⟩
      · exact h
      · exact absurd h1 htpos
    simp only [CHUNK_LEN]
    rw [hcl, Rel.subW, if_pos htail]
    have ht : input.take (min (2048 - tail.length) input.length) = input.take (2048 - tail.length) := by
      rw [List.take_eq_take_iff]; omega
    have hd : input.drop (min (2048 - tail.length) input.length) = input.drop (2048 - tail.length) := by
      by_cases h : 2048 - tail.length ≤ input.length
      · rw [Nat.min_eq_left h]
      · rw [Nat.min_eq_right (by omega), List.drop_of_length_le (by omega), List.drop_of_length_le (by omega)]
    rw [ht, hd]
    obtain ⟨s', e, hs'⟩ := hch.update (input.take (2048 - tail.length)) (by rw [List.length_take]; omega)
    rw [(le_chunk_update cfg.usizeBits h.chunk _).imp _ e, bind_ok]
    by_cases hi : input.drop (2048 - tail.length) = []
    · rw [if_neg (by simpa using hi)]
      have hti : input.take (2048 - tail.length) = input := by
        have := List.take_append_drop (2048 - tail.length) input
        rw [hi, List.append_nil] at this; exact this
      rw [hti] at hs'
      have hil : input.length ≤ 2048 - tail.length := by
        have := congrArg List.length hi; simp at this; omega
      have hts := List.length_pos_iff.2 htpos
      refine Or.inl ⟨by omega, by omega, _, rfl, cks, tail ++ input, by rw [List.append_assoc], hcks, by rw [List.length_append]; omega, hs',
        Or.inl ⟨?_, hcanon⟩, hn⟩
      left; intro h'; exact htpos (List.append_eq_nil_iff.1 h').1
    · rw [if_pos (by simpa using hi)]
      have hil : 2048 - tail.length < input.length := by
        rcases Nat.lt_or_ge (2048 - tail.length) input.length with h | h
        · exact h
        · exact absurd (List.drop_of_length_le h) hi
      refine Or.inr ⟨by omega, ?_⟩
      have hl : LenOk cks.length { h with chunk := s' } :=
        ⟨hs'.hoff, stack_len key flags (Or.inl hcanon)⟩
      obtain ⟨p1, p2⟩ := hl.push hn (Rel.ChunkState.finalize s' .notRoot).to_hash
      by_cases h1 : cks.length + 1 < 2 ^ 53
      · obtain ⟨S, e2, hS⟩ := p1 h1
        rw [e2, bind_ok]
        refine LenOk.update_rest cfg _ (n := cks.length + 1) ⟨?_, Or.inr ⟨by omega, hS⟩⟩ h1
          (by rw [List.length_drop]; exact long_rest hlen htail hil)
        show s'.offset + BitVec.ofNat 64 2048 = _
        rw [hs'.hoff, ← BitVec.ofNat_add]; rfl
      · rw [p2 (by omega)]; rfl
  · rw [if_neg hc]
    have htz : tail = [] := List.length_eq_zero_iff.1 (by omega)
    subst htz
    refine Or.inr ⟨by simp; omega, ?_⟩
    refine LenOk.update_rest cfg input (n := cks.length) ⟨hch.hoff, stack_len key flags ?_⟩ hn (by simpa using hlen)
    rcases hst with ⟨-, h⟩ | ⟨-, -, h⟩
    · exact Or.inl h
    · exact Or.inr h

theorem rel_update (cfg : Config) {p : Platform} {bytes input : Bytes} {h : Hasher} (hr : HasherOkR key flags p bytes h) :
    (Rel.Hasher.update cfg h input = .error .capacity ∧ 2 ^ 64 ≤ bytes.length + input.length) ∨
    (∃ h', Rel.Hasher.update cfg h input = .ok h' ∧ HasherOkR key flags p (bytes ++ input) h') := by
  by_cases hlen : bytes.length + input.length < 2 ^ 64
  · obtain ⟨h', e, hok⟩ := update_eq key flags cfg p bytes input h (hr.ok key flags) hlen
    exact Or.inr ⟨h', (le_update cfg h input).imp _ e, HasherOkR.of key flags hok (by rw [List.length_append]; exact hlen)⟩
  · rcases rel_update_long cfg hr (Nat.le_of_not_lt hlen) with ⟨-, -, h', e, hr'⟩ | ⟨-, e⟩
    · exact Or.inr ⟨h', e, hr'⟩
    · exact Or.inl ⟨e, Nat.le_of_not_lt hlen⟩

theorem rel_updates (cfg : Config) {p : Platform} (ss : List Bytes) : ∀ {bytes : Bytes} {h : Hasher}, HasherOkR key flags p bytes h →
    (Rel.Hasher.updates cfg h ss = .error .capacity ∧ 2 ^ 64 ≤ bytes.length + ss.flatten.length) ∨
    (∃ h', Rel.Hasher.updates cfg h ss = .ok h' ∧ HasherOkR key flags p (bytes ++ ss.flatten) h') := by
  induction ss with
  | nil => intro bytes h hr; exact Or.inr ⟨h, rfl, by rw [List.flatten_nil, List.append_nil]; exact hr⟩
  | cons s ss ih =>
    intro bytes h hr
    rw [Rel.Hasher.updates, List.flatten_cons, List.length_append]
    rcases rel_update cfg (input := s) hr with ⟨e, hl⟩ | ⟨h', e, hr'⟩
    · rw [e]; exact Or.inl ⟨rfl, by omega⟩
    · rw [e, bind_ok]
      rcases ih hr' with ⟨e', hl⟩ | ⟨h'', e', hr''⟩
      · rw [List.length_append] at hl; exact Or.inl ⟨e', by omega⟩
      · rw [List.append_assoc] at hr''; exact Or.inr ⟨h'', e', hr''⟩

/-! ## finalize -/

theorem rel_finalize_xof {p : Platform} {bytes : Bytes} {h : Hasher} (hok : HasherOkR key flags p bytes h) :
    ∃ o, Rel.Hasher.finalize_xof h = .ok o ∧ o.platform = p ∧ toInput o = asRoot (Spec.subtree key flags 0 bytes) := by
  obtain ⟨o, e, hp, ho⟩ := finalize_xof_eqR key flags p bytes h hok
  exact ⟨o, (le_finalize_xof h).imp _ e, hp, ho⟩

end

end Baokeshed.Proofs
