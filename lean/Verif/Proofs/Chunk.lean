import Verif.Proofs.Output
import Verif.Model.Hasher

/-! # `ChunkState` -/

set_option linter.unusedVariables false
set_option linter.unusedSimpArgs false

namespace Baokeshed.Proofs
open Baokeshed.Model

attribute [local irreducible] Spec.compress Spec.outBytes Spec.cvBytes Spec.pad

/-- `cv` is the chaining value after absorbing the whole blocks `pre` of a chunk -/
def Absorbed (key : Vector Word 8) (flags : Byte) (off : Nat) (cv : Vector Word 8) (pre : Bytes) : Prop :=
  (pre = [] → cv = key) ∧ ∀ rest, (pre = [] ∨ rest ≠ []) → Spec.chunk key flags off (pre ++ rest) =
    Spec.chunkFrom flags off cv (flags ||| if pre.length = 0 then Spec.chunkStart else 0) rest

theorem Absorbed.nil (key : Vector Word 8) (flags : Byte) (off : Nat) : Absorbed key flags off key [] := by
  refine ⟨fun _ => rfl, ?_⟩
  intro rest _
  rw [List.nil_append, Spec.chunk]
  simp

theorem Absorbed.step {key : Vector Word 8} {flags : Byte} {off : Nat} {cv : Vector Word 8} {pre : Bytes}
    (h : Absorbed key flags off cv pre) (b : Bytes) (hb : b.length = 64) :
    Absorbed key flags off (Spec.compress
      { cv, block := Spec.pad b, blockLen := 64, offset := BitVec.ofNat 64 off,
        flags := flags ||| if pre.length = 0 then Spec.chunkStart else 0 }) (pre ++ b) := by
  refine ⟨fun h => ?_, ?_⟩
  · have := congrArg List.length h; rw [List.length_append, List.length_nil] at this; omega
  intro rest hr
  have hr' : rest ≠ [] := by
    rcases hr with h | h
    · have := congrArg List.length h; rw [List.length_append, List.length_nil] at this; omega
    · exact h
  have hrl : 0 < rest.length := List.length_pos_iff.2 hr'
  rw [List.append_assoc, h.2 (b ++ rest) (Or.inr (by intro h; have := congrArg List.length h; rw [List.length_append, List.length_nil] at this; omega)),
    Spec.chunkFrom, dif_neg (by rw [List.length_append]; omega), List.take_left' hb, List.drop_left' hb,
    if_neg (c := List.length (pre ++ b) = 0) (by rw [List.length_append]; omega), or_zero8]

/-- The state of a chunk that has received the bytes `c`. -/
structure ChunkOk (key : Vector Word 8) (flags : Byte) (p : Platform) (off : Nat) (c : Bytes) (s : ChunkState) : Prop where
  hkey : s.key = key
  hflags : s.flags = flags
  hplat : s.platform = p
  hoff : s.offset = BitVec.ofNat 64 off
  split : ∃ pre b, c = pre ++ b ∧ pre.length = s.count ∧ pre.length % 64 = 0 ∧ b.length = s.buf_len ∧
    b.length ≤ 64 ∧ (pre = [] ∨ b ≠ []) ∧ s.buf = Spec.pad b ∧ Absorbed key flags off s.cv pre

theorem replicate_pad : Vector.replicate 64 (0 : Byte) = Spec.pad [] := by
  apply Vector.ext
  intro i hi
  rw [pad_getElem]
  simp

theorem ChunkOk.len {key flags p off c s} (h : ChunkOk key flags p off c s) : s.len = c.length := by
  obtain ⟨pre, b, e, h1, -, h2, -⟩ := h.split
  rw [ChunkState.len, e, List.length_append, h1, h2]

theorem ChunkOk.fresh (key : Vector Word 8) (flags : Byte) (p : Platform) (off : Nat) :
    ChunkOk key flags p off []
      { cv := key, key := key, offset := BitVec.ofNat 64 off, count := 0,
        buf := Vector.replicate 64 0, buf_len := 0, flags := flags, platform := p } :=
  ⟨rfl, rfl, rfl, rfl, [], [], rfl, rfl, rfl, rfl, by simp, Or.inl rfl, replicate_pad, Absorbed.nil _ _ _⟩

/-- the padded block as a list -/
theorem pad_toList (b : Bytes) (h : b.length ≤ 64) :
    (Spec.pad b).toList = b ++ List.replicate (64 - b.length) 0 := by
  apply List.ext_getElem
  · simp; omega
  · intro i h1 h2
    have hi : i < 64 := by simpa using h1
    rw [Vector.getElem_toList, pad_getElem, List.getD_eq_getElem?_getD, List.getElem_append]
    split
    next h3 => simp [h3]
    next h3 => simp [List.getElem?_eq_none (Nat.le_of_not_lt h3)]

/-- `fill_buf` appends to the buffer -/
theorem fill_buf_eq (s : ChunkState) (b input : Bytes) (hb : b.length = s.buf_len) (hle : b.length ≤ 64)
    (hbuf : s.buf = Spec.pad b) :
    s.fill_buf input = .ok ({ s with
      buf := Spec.pad (b ++ input.take (64 - b.length)),
      buf_len := b.length + min (64 - b.length) input.length }, input.drop (64 - b.length)) := by
  unfold ChunkState.fill_buf
  rw [← hb, hbuf]
  simp only [BLOCK_LEN]
  have ht : input.take (min (64 - b.length) input.length) = input.take (64 - b.length) := by
    rw [List.take_eq_take_iff]; omega
  have hd : input.drop (min (64 - b.length) input.length) = input.drop (64 - b.length) := by
    by_cases h : 64 - b.length ≤ input.length
    · rw [Nat.min_eq_left h]
    · rw [Nat.min_eq_right (by omega), List.drop_of_length_le (by omega), List.drop_of_length_le (by omega)]
  rw [subN, if_pos hle, bind_ok, ht, hd, pad_toList b hle, writeAt_append _ _ _ _ rfl (by simp; omega), bind_ok,
    List.drop_replicate,
    show 64 - b.length - (input.take (64 - b.length)).length = 64 - (b ++ input.take (64 - b.length)).length by
      rw [List.length_append]; omega,
    arrayRef_pad _ (by simp; omega), bind_ok, addN, if_pos (by omega), bind_ok]
  rfl

theorem compress_eq_absorb {flags : Byte} {p : Platform} {off : Nat} {s : ChunkState} (hp : s.platform = p) (hf : s.flags = flags)
    (ho : s.offset = BitVec.ofNat 64 off) (pre b : Bytes) (hc : pre.length = s.count) :
    s.platform.compress s.cv (Spec.pad b) (BitVec.ofNat 8 64) s.offset (s.flags ||| s.maybe_chunk_start_flag) =
      Spec.compress
        { cv := s.cv, block := Spec.pad b, blockLen := 64, offset := BitVec.ofNat 64 off,
          flags := flags ||| if pre.length = 0 then Spec.chunkStart else 0 } := by
  rw [plat_compress, hf, ho, hc]
  rfl

/-- The block loop: whole blocks are absorbed as long as more input follows. -/
theorem update_blocks_eq {key flags p off} (s : ChunkState) (hk : s.key = key) (hf : s.flags = flags)
    (hp : s.platform = p) (ho : s.offset = BitVec.ofNat 64 off) (pre input : Bytes) (hc : pre.length = s.count)
    (hm : pre.length % 64 = 0) (hbl : s.buf_len = 0) (ha : Absorbed key flags off s.cv pre)
    (hlen : pre.length + input.length ≤ 2048) :
    ∃ s' pre' rest, s.update_blocks input = .ok (s', rest) ∧ pre' ++ rest = pre ++ input ∧
      pre'.length = s'.count ∧ pre'.length % 64 = 0 ∧ s'.buf_len = 0 ∧ Absorbed key flags off s'.cv pre' ∧
      s'.buf = s.buf ∧ s'.key = key ∧ s'.flags = flags ∧ s'.platform = p ∧ s'.offset = BitVec.ofNat 64 off ∧
      rest.length ≤ 64 ∧ (input ≠ [] → rest ≠ []) ∧ (input = [] → pre' = pre) := by
  induction hn : input.length using Nat.strongRecOn generalizing s pre input with
  | ind n ih =>
  rw [ChunkState.update_blocks]
  split
  next h =>
    simp only [BLOCK_LEN] at h ⊢
    have hne : input.drop 64 ≠ [] := by intro h; have := congrArg List.length h; simp at this; omega
    rw [assertR, if_pos hbl, bind_ok, arrayRef_block _ _ (by omega), bind_ok, addN, if_pos (by omega), bind_ok,
      List.drop_zero, ← pad_take, compress_eq_absorb hp hf ho pre (input.take 64) hc]
    obtain ⟨s', pre', rest, h1, h2, h3, h4, h5, h6, h7, h8, h9, h10, h11, h12, h13, h14⟩ :=
      ih (input.length - 64) (by omega)
        { s with cv := _, count := s.count + 64 } hk hf hp ho (pre ++ input.take 64) (input.drop 64)
        (by simp; omega) (by simp; omega) hbl (ha.step (input.take 64) (by simp; omega)) (by simp; omega) (by simp)
    refine ⟨s', pre', rest, h1, ?_, h3, h4, h5, h6, h7, h8, h9, h10, h11, h12, fun _ => h13 hne, ?_⟩
    · rw [h2, List.append_assoc, List.take_append_drop]
    · intro h0; rw [h0] at h; simp at h
  next h =>
    simp only [BLOCK_LEN] at h
    exact ⟨s, pre, input, rfl, rfl, hc, hm, hbl, ha, rfl, hk, hf, hp, ho, by omega, id, fun _ => rfl⟩

/-- `ChunkState::update` -/
theorem ChunkOk.update {key flags p off c s} (h : ChunkOk key flags p off c s) (input : Bytes)
    (hlen : c.length + input.length ≤ 2048) :
    ∃ s', s.update input = .ok s' ∧ ChunkOk key flags p off (c ++ input) s' := by
  obtain ⟨pre, b, rfl, hc, hm, hbl, hb64, hpb, hbuf, ha⟩ := h.split
  rw [List.length_append] at hlen
  -- after the last fill
  have fin : ∀ (s1 : ChunkState) (pre b rest : Bytes), s1.key = key → s1.flags = flags → s1.platform = p →
      s1.offset = BitVec.ofNat 64 off → pre.length = s1.count → pre.length % 64 = 0 → b.length = s1.buf_len →
      s1.buf = Spec.pad b → Absorbed key flags off s1.cv pre → b.length + rest.length ≤ 64 →
      (pre = [] ∨ b ++ rest ≠ []) → pre.length + b.length + rest.length ≤ 2048 →
      ∃ s', (do let (s, input) ← s1.fill_buf rest; assertR (input = []); assertR (s.len ≤ CHUNK_LEN); return s) =
        (Except.ok s' : R ChunkState) ∧ ChunkOk key flags p off (pre ++ (b ++ rest)) s' := by
    intro s1 pre b rest hk hf hp ho hc hm hbl hbuf ha hle hne hlen
    rw [fill_buf_eq s1 b rest hbl (by omega) hbuf, bind_ok]
    dsimp only
    rw [assertR, if_pos (List.drop_of_length_le (by omega)), bind_ok, assertR, if_pos (by
      simp only [ChunkState.len, CHUNK_LEN]; omega), bind_ok]
    refine ⟨_, rfl, hk, hf, hp, ho, pre, b ++ rest, rfl, hc, hm, ?_, ?_, hne, ?_, ha⟩
    · rw [List.length_append]; show _ = b.length + _; omega
    · rw [List.length_append]; omega
    · rw [List.take_of_length_le (by omega)]
  rw [ChunkState.update, ChunkState.update_first]
  by_cases h0 : 0 < s.buf_len
  · rw [if_pos h0, fill_buf_eq s b input hbl hb64 hbuf, bind_ok]
    dsimp only
    by_cases h1 : input.length ≤ 64 - b.length
    · -- everything fits in the buffer
      have hd : input.drop (64 - b.length) = [] := List.drop_of_length_le (by omega)
      have hne : b ++ input ≠ [] := by
        intro h; have := congrArg List.length h; rw [List.length_append, List.length_nil] at this; omega
      rw [hd, if_neg (by simp), pure_eq, bind_ok]
      dsimp only
      rw [ChunkState.update_blocks, dif_neg (by simp [BLOCK_LEN]), bind_ok]
      dsimp only
      obtain ⟨s', e, hs'⟩ := fin { s with
        buf := Spec.pad (b ++ input.take (64 - b.length)),
        buf_len := b.length + min (64 - b.length) input.length } pre (b ++ input) [] h.hkey h.hflags h.hplat h.hoff hc hm
        (by rw [List.length_append]; show _ = b.length + _; omega)
        (by rw [List.take_of_length_le h1]) ha (by simp; omega) (Or.inr (by simpa using hne))
        (by simp; omega)
      refine ⟨s', e, ?_⟩
      rw [List.append_nil, ← List.append_assoc] at hs'
      exact hs'
    · have htl : (input.take (64 - b.length)).length = 64 - b.length := by simp; omega
      have hd : input.drop (64 - b.length) ≠ [] := by
        intro h; have := congrArg List.length h; simp at this; omega
      rw [if_pos (by simpa using hd), assertR, if_pos (by simp only [BLOCK_LEN]; omega), bind_ok]
      simp only [BLOCK_LEN]
      have hab := compress_eq_absorb h.hplat h.hflags h.hoff pre (b ++ input.take (64 - b.length)) hc
      have hms : ChunkState.maybe_chunk_start_flag { s with
        buf := Spec.pad (b ++ input.take (64 - b.length)),
        buf_len := b.length + min (64 - b.length) input.length } = s.maybe_chunk_start_flag := rfl
      rw [hms, hab, addN, if_pos (by omega), bind_ok, pure_eq, bind_ok]
      dsimp only
      obtain ⟨s', pre', rest, h1, h2, h3, h4, h5, h6, h7, h8, h9, h10, h11, h12, h13, h14⟩ :=
        update_blocks_eq { s with cv := _, count := s.count + 64, buf_len := 0, buf := Vector.replicate 64 0 }
          h.hkey h.hflags h.hplat h.hoff (pre ++ (b ++ input.take (64 - b.length))) (input.drop (64 - b.length))
          (by simp; omega) (by simp; omega) rfl
          (ha.step (b ++ input.take (64 - b.length)) (by rw [List.length_append]; omega))
          (by simp; omega)
      rw [h1, bind_ok]
      dsimp only
      have hl := congrArg List.length h2
      simp only [List.length_append, List.length_take, List.length_drop] at hl
      obtain ⟨s'', e, hs'⟩ := fin s' pre' [] rest h8 h9 h10 h11 h3 h4 (by rw [h5]; rfl) (by rw [h7]; exact replicate_pad) h6
        (by simpa using h12) (Or.inr (by simpa using h13 hd)) (by simp; omega)
      refine ⟨s'', e, ?_⟩
      rw [List.nil_append, h2, List.append_assoc, List.append_assoc, List.take_append_drop, ← List.append_assoc] at hs'
      exact hs'
  · have hb0 : b = [] := List.length_eq_zero_iff.1 (by omega)
    subst hb0
    have hpre : pre = [] := by rcases hpb with h | h; exact h; exact absurd rfl h
    subst hpre
    rw [if_neg h0, bind_ok]
    dsimp only
    obtain ⟨s', pre', rest, h1, h2, h3, h4, h5, h6, h7, h8, h9, h10, h11, h12, h13, h14⟩ :=
      update_blocks_eq s h.hkey h.hflags h.hplat h.hoff [] input hc hm (by omega) ha (by simpa using hlen)
    rw [h1, bind_ok]
    dsimp only
    have hl := congrArg List.length h2
    simp only [List.length_append, List.length_nil] at hl
    simp only [List.length_nil] at hlen
    obtain ⟨s'', e, hs'⟩ := fin s' pre' [] rest h8 h9 h10 h11 h3 h4 (by rw [h5]; rfl) (by rw [h7]; exact hbuf) h6
      (by simpa using h12) (by
        by_cases hi : input = []
        · exact Or.inl (h14 hi)
        · exact Or.inr (by simpa using h13 hi)) (by simp; omega)
    refine ⟨s'', e, ?_⟩
    rw [List.nil_append, h2] at hs'
    exact hs'

/-- `ChunkState::finalize` -/
theorem ChunkOk.finalize {key flags p off c s} (h : ChunkOk key flags p off c s) (r : IsRoot)
    (hr : r = .root → off = 0) :
    ∃ o, s.finalize r = .ok o ∧ o.platform = p ∧
      toInput o = { Spec.chunk key flags off c with flags := (Spec.chunk key flags off c).flags ||| r.flag } := by
  obtain ⟨pre, b, rfl, hc, hm, hbl, hb64, hpb, hbuf, ha⟩ := h.split
  rw [ChunkState.finalize, assertR, if_pos (by intro e; rw [h.hoff, hr e]; rfl), bind_ok]
  refine ⟨_, rfl, h.hplat, ?_⟩
  rw [ha.2 b hpb, Spec.chunkFrom, dif_pos hb64]
  simp only [toInput, hbuf, h.hoff, h.hflags, hbl, ← hc, ChunkState.maybe_chunk_start_flag]
  rfl

end Baokeshed.Proofs
