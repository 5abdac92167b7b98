import Verif.Proofs.C.Chunk
import Verif.SpecLong

/-!
# The chunk state of the C code, for inputs of any length
-/

set_option linter.unusedVariables false

namespace Baokeshed.Proofs.C
open Baokeshed.Model Baokeshed.Model.C
attribute [local irreducible] Spec.compress Spec.cvBytes

/-- the flags of block `b` -/
def blockFlags (flags : Byte) (b : Nat) : Byte := flags ||| (if b % 1024 = 0 then Spec.chunkStart else 0)

theorem longFrom_last (flags : Byte) (offset : U64) (r : Bool) (b : Nat) (cv : Vector Word 8) (c : Bytes) (h : c.length ≤ 64) :
    Spec.longFrom flags offset r b cv c =
      ⟨cv, Spec.pad c, BitVec.ofNat 8 c.length, offset,
        blockFlags flags b ||| Spec.chunkEnd ||| (if r then Spec.rootFlag else 0)⟩ := by
  rw [Spec.longFrom, dif_pos h]; rfl

theorem longFrom_step (flags : Byte) (offset : U64) (r : Bool) (b : Nat) (cv : Vector Word 8) (t z : Bytes)
    (ht : t.length = 64) (hz : z ≠ []) :
    Spec.longFrom flags offset r b cv (t ++ z) =
      Spec.longFrom flags offset r (b + 1) (Spec.compress ⟨cv, Spec.pad t, 64, offset, blockFlags flags b⟩) z := by
  have := List.length_pos_iff.2 hz
  rw [Spec.longFrom, dif_neg (by rw [List.length_append]; omega), List.take_append_of_le_length (by omega),
    List.take_of_length_le (by omega), List.drop_append_of_le_length (by omega), List.drop_of_length_le (by omega)]
  rfl

/-- The chunk state `s` has absorbed `x`; the bytes `t` are in its buffer, which is block `b`. -/
structure Long (key : Vector Word 8) (flags : Byte) (offset : U64) (x : Bytes) (s : chunk_state) (t : Bytes) (b : Nat) :
    Prop where
  keyE : s.key = key
  flagsE : s.flags = flags
  offsetE : s.offset = offset
  len : t.length ≤ 64
  buf : s.buf = t ++ List.replicate (64 - t.length) 0
  buf_len : s.buf_len.toNat = t.length
  count : s.count.toNat = 64 * b % 65536
  nil : x = [] → t = []
  next : ∀ r y, (t ++ y ≠ [] ∨ x = []) →
    Spec.longFrom flags offset r 0 key (x ++ y) = Spec.longFrom flags offset r b s.state (t ++ y)

section
variable {key : Vector Word 8} {flags : Byte} {offset : U64} {x : Bytes} {s : chunk_state} {t : Bytes} {b : Nat}

theorem Long.init (key : Vector Word 8) (flags : Byte) : Long key flags 0 [] (chunk_state_init key flags) [] 0 :=
  ⟨rfl, rfl, rfl, by simp, rfl, rfl, rfl, fun _ => rfl, fun _ _ _ => rfl⟩

theorem Long.reset (s : chunk_state) (off : U64) : Long s.key s.flags off [] (chunk_state_reset s off) [] 0 :=
  ⟨rfl, rfl, rfl, by simp, rfl, rfl, rfl, fun _ => rfl, fun _ _ _ => rfl⟩

theorem Long.start (h : Long key flags offset x s t b) : s.flags ||| chunk_state_maybe_start_flag s = blockFlags flags b := by
  have e : (s.count = 0) = (b % 1024 = 0) := propext (by
    have hc := h.count
    constructor
    · intro e; rw [e] at hc; simp at hc; omega
    · intro e; refine BitVec.eq_of_toNat_eq ?_; rw [hc]; simp; omega)
  unfold chunk_state_maybe_start_flag
  simp only [e]
  rw [h.flagsE]
  rfl

theorem pad_zeros (t : Bytes) (n : Nat) : Spec.pad (t ++ List.replicate n 0) = Spec.pad t := by
  apply Vector.ext
  intro i hi
  rw [Spec.pad, Spec.pad, Vector.getElem_ofFn, Vector.getElem_ofFn]
  simp only [List.getD_eq_getElem?_getD, List.getElem?_append]
  by_cases h : i < t.length
  · rw [if_pos h]
  · rw [if_neg h, List.getElem?_eq_none (Nat.le_of_not_lt h), List.getElem?_replicate]
    split <;> rfl

theorem Long.fill {cfg : C.Config} (h16 : 16 ≤ cfg.bits) (h : Long key flags offset x s t b) (i extra : Bytes) :
    ∃ s', chunk_state_fill_buf cfg s (i ++ extra) i.length = .ok (s', min (64 - t.length) i.length) ∧
      Long key flags offset (x ++ i.take (min (64 - t.length) i.length)) s'
        (t ++ i.take (min (64 - t.length) i.length)) b := by
  have hp := two_pow_bits h16
  have hl := h.len
  have ht : (if subSz cfg.bits C.BLOCK_LEN s.buf_len.toNat > i.length then i.length
      else subSz cfg.bits C.BLOCK_LEN s.buf_len.toNat) = min (64 - t.length) i.length := by
    rw [h.buf_len, subSz_le (by exact hl) (by simp only [C.BLOCK_LEN]; omega)]
    simp only [C.BLOCK_LEN]
    split <;> omega
  have e : chunk_state_fill_buf cfg s (i ++ extra) i.length = .ok
      ({ s with buf := s.buf.take s.buf_len.toNat ++ i.take (min (64 - t.length) i.length) ++
                  s.buf.drop (s.buf_len.toNat + (i.take (min (64 - t.length) i.length)).length),
                buf_len := s.buf_len + BitVec.ofNat 8 (min (64 - t.length) i.length) },
        min (64 - t.length) i.length) := by
    unfold chunk_state_fill_buf
    dsimp only
    rw [ht, memcpy, cLoad, if_pos (by rw [List.length_append]; omega), bind_ok, List.drop_zero,
      List.take_append_of_le_length (Nat.min_le_right _ _), cStore,
      if_pos (by rw [h.buf_len, h.buf, List.length_append, List.length_replicate, List.length_take]; omega), bind_ok]
    rfl
  refine ⟨_, e, h.keyE, h.flagsE, h.offsetE, ?_, ?_, ?_, h.count, ?_, ?_⟩
  · rw [List.length_append, List.length_take]; omega
  · dsimp only
    rw [h.buf_len, h.buf, List.take_append_of_le_length (Nat.le_refl _), List.take_length, List.append_assoc,
      List.append_assoc]
    congr 2
    rw [List.drop_append, List.drop_of_length_le (by omega), List.nil_append, List.drop_replicate]
    congr 1
    simp only [List.length_append, List.length_take]
    omega
  · dsimp only
    rw [BitVec.toNat_add, BitVec.toNat_ofNat, h.buf_len, List.length_append, List.length_take]
    omega
  · intro hx
    obtain ⟨hx, hi⟩ := List.append_eq_nil_iff.1 hx
    rw [hi, h.nil hx]
    rfl
  · intro r y hy
    dsimp only
    rw [List.append_assoc x, List.append_assoc t]
    refine h.next r _ ?_
    rcases hy with hy | hy
    · exact Or.inl (by rwa [List.append_assoc] at hy)
    · exact Or.inr (List.append_eq_nil_iff.1 hy).1

/-- a full block goes in -/
theorem Long.step (h : Long key flags offset x s t b) (u : Bytes) (hu : (t ++ u).length = 64) (buf_len : Byte) (buf : Bytes)
    (hb : buf_len = 0) (hbuf : buf = List.replicate C.BLOCK_LEN 0) :
    Long key flags offset (x ++ u)
      { s with state := Spec.compress ⟨s.state, Spec.pad (t ++ u), 64, offset, blockFlags flags b⟩,
               count := s.count + BitVec.ofNat 16 C.BLOCK_LEN, buf_len, buf } [] (b + 1) := by
  subst hb hbuf
  refine ⟨h.keyE, h.flagsE, h.offsetE, by simp, rfl, rfl, ?_, fun _ => rfl, ?_⟩
  · show (s.count + BitVec.ofNat 16 C.BLOCK_LEN).toNat = _
    rw [BitVec.toNat_add, BitVec.toNat_ofNat, h.count]
    simp only [C.BLOCK_LEN]
    omega
  · intro r y hy
    have htu : t ++ u ≠ [] := by intro e; rw [e] at hu; cases hu
    by_cases hx : y = []
    · subst hx
      rcases hy with hy | hy
      · exact absurd rfl hy
      · obtain ⟨rfl, rfl⟩ := List.append_eq_nil_iff.1 hy
        rw [h.nil rfl] at hu
        cases hu
    · rw [List.append_assoc, h.next r _ (Or.inl (by simp [hx])), ← List.append_assoc t, longFrom_step _ _ _ _ _ _ _ hu hx]
      rfl

theorem Long.blocks {cfg : C.Config} (h : Long key flags offset x s [] b) (i extra : Bytes) :
    ∃ s' b' k, chunk_state_update_blocks cfg s (i ++ extra) i.length =
        .ok (s', i.drop k ++ extra, (i.drop k).length) ∧ (i.drop k).length ≤ 64 ∧ (i ≠ [] → i.drop k ≠ []) ∧
      Long key flags offset (x ++ i.take k) s' [] b' := by
  induction hn : i.length using Nat.strongRecOn generalizing x s b i with
  | ind n ih =>
  subst hn
  rw [chunk_state_update_blocks]
  by_cases hc : i.length > C.BLOCK_LEN
  · rw [if_pos hc]
    simp only [C.BLOCK_LEN] at hc
    rw [compress_dispatch cfg _ _ _ _ _ (by rw [List.length_append]; omega), bind_ok,
      cAdvance_ok _ _ (by rw [List.length_append]; simp only [C.BLOCK_LEN]; omega), bind_ok, h.start, h.offsetE]
    have hpad : Spec.pad (i ++ extra) = Spec.pad (i.take 64) := by
      rw [← pad_take, List.take_append_of_le_length (by omega)]
    have hbuf : s.buf = List.replicate C.BLOCK_LEN 0 := h.buf
    have hbl : s.buf_len = 0 := BitVec.eq_of_toNat_eq h.buf_len
    have h1 := h.step (i.take 64) (by simp; omega) s.buf_len s.buf hbl hbuf
    obtain ⟨s', b', k, e, hk, hne, hl⟩ := ih (i.drop 64).length (by rw [List.length_drop]; omega) h1 (i.drop 64) rfl
    refine ⟨s', b', 64 + k, ?_, ?_, ?_, ?_⟩
    · rw [hpad, ← List.drop_drop]
      simp only [C.BLOCK_LEN, drop_app (show 64 ≤ i.length by omega), ← List.length_drop]
      rw [h.offsetE] at e
      exact e
    · rw [← List.drop_drop]; exact hk
    · intro _
      rw [← List.drop_drop]
      exact hne (by intro e; have := congrArg List.length e; rw [List.length_drop] at this; simp at this; omega)
    · rw [List.take_add, ← List.append_assoc]; exact hl
  · rw [if_neg hc]
    refine ⟨s, b, 0, ?_, ?_, ?_, ?_⟩
    · rw [List.drop_zero]
    · simpa [C.BLOCK_LEN] using hc
    · simp
    · simpa using h

theorem Long.first {cfg : C.Config} (h16 : 16 ≤ cfg.bits) (h : Long key flags offset x s t b) (i extra : Bytes) :
    ∃ s' t' b' k, chunk_state_update_first cfg s (i ++ extra) i.length =
        .ok (s', i.drop k ++ extra, (i.drop k).length) ∧
      Long key flags offset (x ++ i.take k) s' t' b' ∧ (i.drop k = [] ∧ t' = t ++ i.take k ∨ i.drop k ≠ [] ∧ t' = []) := by
  have hb : (s.buf_len > 0) = (0 < t.length) := propext (by rw [← h.buf_len]; exact BitVec.lt_def)
  rw [chunk_state_update_first]
  simp only [hb]
  by_cases h0 : 0 < t.length
  · rw [if_pos h0]
    obtain ⟨s1, e, h1⟩ := h.fill h16 i extra
    have hk : min (64 - t.length) i.length ≤ i.length := Nat.min_le_right _ _
    rw [e, bind_ok]
    dsimp only
    rw [cAdvance_ok _ _ (by rw [List.length_append]; omega), bind_ok, drop_app hk, ← List.length_drop]
    by_cases hr : (i.drop (min (64 - t.length) i.length)).length > 0
    · have hl := h.len
      have hf : (t ++ i.take (min (64 - t.length) i.length)).length = 64 := by
        rw [List.length_drop] at hr
        rw [List.length_append, List.length_take]; omega
      rw [if_pos hr, compress_dispatch cfg _ _ _ _ _ (by rw [h1.buf, List.length_append]; omega), bind_ok, h1.start,
        h1.offsetE, h1.buf, pad_zeros]
      refine ⟨_, [], b + 1, _, rfl, ?_, Or.inr ⟨List.length_pos_iff.1 hr, rfl⟩⟩
      have h2 := h1.step [] (by rw [List.append_nil]; exact hf) 0 _ rfl rfl
      rw [List.append_nil, List.append_nil, h1.offsetE] at h2
      exact h2
    · rw [if_neg hr]
      have hn : i.drop (min (64 - t.length) i.length) = [] := List.length_eq_zero_iff.1 (by omega)
      exact ⟨s1, _, b, _, rfl, h1, Or.inl ⟨hn, rfl⟩⟩
  · rw [if_neg h0]
    have ht : t = [] := List.length_eq_zero_iff.1 (by omega)
    refine ⟨s, t, b, 0, by rw [List.drop_zero], by simpa using h, ?_⟩
    rw [ht]
    by_cases hi : i = []
    · exact Or.inl ⟨by simp [hi], by simp⟩
    · exact Or.inr ⟨by simpa using hi, rfl⟩

theorem Long.update {cfg : C.Config} (h16 : 16 ≤ cfg.bits) (h : Long key flags offset x s t b) (hn : t ≠ [] ∨ x = [])
    (i extra : Bytes) :
    ∃ s' t' b', chunk_state_update cfg s (i ++ extra) i.length = .ok s' ∧
      Long key flags offset (x ++ i) s' t' b' ∧ (t' ≠ [] ∨ x ++ i = []) := by
  obtain ⟨s1, t1, b1, k, e1, h1, hc⟩ := h.first h16 i extra
  rw [chunk_state_update, e1, bind_ok]
  dsimp only
  rcases hc with ⟨hc, rfl⟩ | ⟨hc, rfl⟩
  · have hi : i.take k = i := by have := List.take_append_drop k i; rwa [hc, List.append_nil] at this
    rw [hc, chunk_state_update_blocks, if_neg (by simp [C.BLOCK_LEN]), bind_ok]
    dsimp only
    obtain ⟨s2, e2, h2⟩ := h1.fill h16 [] extra
    rw [e2, bind_ok]
    dsimp only
    rw [cAdvance_ok _ _ (by simp), bind_ok]
    rw [List.take_nil, List.append_nil, List.append_nil, hi] at h2
    refine ⟨s2, _, b1, rfl, h2, ?_⟩
    rcases hn with hn | hn
    · exact Or.inl (by simp [hn])
    · by_cases h' : i = []
      · exact Or.inr (by simp [hn, h'])
      · exact Or.inl (by simp [h'])
  · obtain ⟨s2, b2, k2, e2, hle, hne, h2⟩ := h1.blocks (cfg := cfg) (i.drop k) extra
    rw [e2, bind_ok]
    dsimp only
    obtain ⟨s3, e3, h3⟩ := h2.fill h16 ((i.drop k).drop k2) extra
    rw [e3, bind_ok]
    dsimp only
    rw [cAdvance_ok _ _ (by rw [List.length_append]; omega), bind_ok]
    have hm : min (64 - ([] : Bytes).length) ((i.drop k).drop k2).length = ((i.drop k).drop k2).length := by
      simp only [List.length_nil] at *; omega
    rw [hm, List.take_length, List.append_assoc, List.append_assoc, List.take_append_drop, List.take_append_drop,
      List.nil_append] at h3
    exact ⟨s3, _, b2, rfl, h3, Or.inl (hne hc)⟩

theorem Long.finalize {cfg : C.Config} (h : Long key flags offset x s t b) (hn : t ≠ [] ∨ x = []) (r : Bool) (out : Bytes)
    (ho : 32 ≤ out.length) :
    chunk_state_finalize cfg s r out =
      .ok ((Spec.cvBytes (Spec.compress (Spec.longChunk key flags offset r x))).toList ++ out.drop 32) := by
  have hl := h.len
  have e := h.next r [] (by simpa using hn)
  rw [List.append_nil, List.append_nil, longFrom_last _ _ _ _ _ _ hl] at e
  rw [Spec.longChunk, e, chunk_state_finalize]
  have hf : (if r = true then s.flags ||| chunk_state_maybe_start_flag s ||| C.CHUNK_END ||| C.ROOT
      else s.flags ||| chunk_state_maybe_start_flag s ||| C.CHUNK_END) =
      blockFlags flags b ||| Spec.chunkEnd ||| (if r = true then Spec.rootFlag else 0) := by
    rw [h.start]
    cases r
    · exact (or_zero8 _).symm
    · rfl
  have hb : s.buf_len = BitVec.ofNat 8 t.length := by rw [← h.buf_len]; simp
  rw [hf, compress_dispatch cfg _ _ _ _ _ (by rw [h.buf, List.length_append, List.length_replicate]; omega), bind_ok,
    write_state_bytes_eq _ _ ho, h.buf, pad_zeros, hb, h.offsetE]

/-- calls of `chunk_state_update` -/
def chunkUpdates (cfg : C.Config) : chunk_state → List Bytes → R chunk_state
  | s, [] => .ok s
  | s, i :: is => do
    let s ← chunk_state_update cfg s i i.length
    chunkUpdates cfg s is

theorem Long.updates {cfg : C.Config} (h16 : 16 ≤ cfg.bits) (h : Long key flags offset x s t b) (hn : t ≠ [] ∨ x = [])
    (is : List Bytes) :
    ∃ s' t' b', chunkUpdates cfg s is = .ok s' ∧
      Long key flags offset (x ++ is.flatten) s' t' b' ∧ (t' ≠ [] ∨ x ++ is.flatten = []) := by
  induction is generalizing x s t b with
  | nil => exact ⟨s, t, b, rfl, by simpa using h, by simpa using hn⟩
  | cons i is ih =>
    obtain ⟨s1, t1, b1, e1, h1, hn1⟩ := h.update h16 hn i []
    obtain ⟨s2, t2, b2, e2, h2, hn2⟩ := ih h1 hn1
    rw [List.append_nil] at e1
    rw [chunkUpdates, e1, bind_ok, e2, List.flatten_cons, ← List.append_assoc]
    exact ⟨s2, t2, b2, rfl, h2, hn2⟩

end

/-! ## short chunks -/

/-- the chunk with or without the root flag -/
def rooted (r : Bool) (n : Spec.Input) : Spec.Input := { n with flags := n.flags ||| (if r then Spec.rootFlag else 0) }

theorem longFrom_chunkFrom (flags : Byte) (offset : U64) (off : Nat) (ho : offset = BitVec.ofNat 64 off) (r : Bool) (c : Bytes) :
    ∀ b cv, 0 < b → 0 < c.length → 64 * b + c.length ≤ 65536 →
    Spec.longFrom flags offset r b cv c = rooted r (Spec.chunkFrom flags off cv flags c) := by
  induction hn : c.length using Nat.strongRecOn generalizing c with
  | ind n ih =>
  subst hn
  intro b cv hb hc hl
  rw [Spec.longFrom, Spec.chunkFrom]
  have hz : flags ||| (0 : Byte) = flags := or_zero8 _
  by_cases h : c.length ≤ 64
  · rw [dif_pos h, dif_pos h]
    rw [if_neg (by omega), hz, ho]; rfl
  · rw [dif_neg h, dif_neg h, if_neg (by omega), hz, ho]
    have := ih (c.drop 64).length (by rw [List.length_drop]; omega) (c.drop 64) rfl (b + 1)
      (Spec.compress ⟨cv, Spec.pad (c.take 64), 64, BitVec.ofNat 64 off, flags⟩) (by omega)
      (by rw [List.length_drop]; omega) (by rw [List.length_drop]; omega)
    rw [ho] at this
    exact this

/-- Up to 65536 bytes it is the specified chunk. -/
theorem longChunk_eq (key : Vector Word 8) (flags : Byte) (off : Nat) (r : Bool) (c : Bytes) (h : c.length ≤ 65536) :
    Spec.longChunk key flags (BitVec.ofNat 64 off) r c = rooted r (Spec.chunk key flags off c) := by
  rw [Spec.longChunk, Spec.chunk, Spec.longFrom, Spec.chunkFrom, if_pos rfl]
  by_cases h' : c.length ≤ 64
  · rw [dif_pos h', dif_pos h']; rfl
  · rw [dif_neg h', dif_neg h']
    exact longFrom_chunkFrom flags _ off rfl r (c.drop 64) 1 _ (by decide) (by rw [List.length_drop]; omega)
      (by rw [List.length_drop]; omega)

end Baokeshed.Proofs.C
