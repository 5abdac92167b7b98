import Verif.Model.C.Hasher
import Verif.Proofs.Hasher
import Verif.Props.C

/-! # C: the chunk state simulates that of the Rust crate -/

set_option linter.unusedVariables false
set_option linter.unusedSimpArgs false

namespace Baokeshed.Proofs.C
open Baokeshed.Model Baokeshed.Model.C
attribute [local irreducible] Spec.compress Spec.cvBytes

/-! ## inversion of successful computations -/

theorem bind_inv {α β} {x : R α} {f : α → R β} {y : β} (h : (x >>= f) = .ok y) : ∃ a, x = .ok a ∧ f a = .ok y := by
  cases x with
  | error e => cases h
  | ok a => exact ⟨a, rfl, h⟩

theorem assertR_inv {c : Prop} [Decidable c] {u : Unit} (h : assertR c = .ok u) : c := by
  unfold assertR at h
  split at h
  · assumption
  · cases h

theorem addN_inv {w a b c : Nat} (h : addN w a b = .ok c) : a + b < 2 ^ w ∧ c = a + b := by
  unfold addN at h
  split at h
  · cases h; exact ⟨‹_›, rfl⟩
  · cases h

theorem subN_inv {a b c : Nat} (h : subN a b = .ok c) : b ≤ a ∧ c = a - b := by
  unfold subN at h
  split at h
  · cases h; exact ⟨‹_›, rfl⟩
  · cases h

theorem addU64_inv {a b c : U64} (h : addU64 a b = .ok c) : c = a + b := by
  unfold addU64 at h
  split at h
  · cases h; rfl
  · cases h

/-! ## size_t -/

theorem two_pow_bits {bits : Nat} (h : 16 ≤ bits) : 65536 ≤ 2 ^ bits :=
  Nat.pow_le_pow_right (n := 2) (by decide) h

theorem subSz_le {bits a b : Nat} (hb : b ≤ a) (ha : a < 2 ^ bits) : subSz bits a b = a - b := by
  rw [subSz, Nat.mod_eq_of_lt (Nat.lt_of_le_of_lt hb ha), show a + 2 ^ bits - b = (a - b) + 2 ^ bits by omega, Nat.add_mod_right,
    Nat.mod_eq_of_lt (by omega)]

theorem mulSz_lt {bits a b : Nat} (h : a * b < 2 ^ bits) : mulSz bits a b = a * b := Nat.mod_eq_of_lt h

theorem intSz_nat {bits a : Nat} (h : a < 2 ^ bits) : intSz bits (a : Int) = a := by
  rw [intSz]
  have : ((a : Int) % 2 ^ bits) = ((a % 2 ^ bits : Nat) : Int) := by push_cast; rfl
  rw [this, Int.toNat_natCast, Nat.mod_eq_of_lt h]

theorem length_uninit (cfg : C.Config) (n : Nat) : (cfg.uninit n).length = n := by simp [C.Config.uninit]

/-! ## compression -/

theorem compress_dispatch (cfg : C.Config) : CompressOk (C.compress cfg) := by
  intro cv block len off fl h
  unfold C.compress
  split
  · exact Avx512.compress_ok _ _ _ _ _ h
  · split
    · exact Sse41.compress_ok _ _ _ _ _ h
    · exact compress_portable_ok _ _ _ _ _ h

theorem pad_of_toList (b : Vector Byte 64) : Spec.pad b.toList = b := by
  have := Props.pad_toList_append b []
  rwa [List.append_nil] at this

/-! ## the relation -/

/-- The C chunk state and the Rust chunk state hold the same values. -/
structure CRel (s : C.chunk_state) (g : Model.ChunkState) : Prop where
  state : s.state = g.cv
  key : s.key = g.key
  offset : s.offset = g.offset
  count : s.count.toNat = g.count
  buf : s.buf = g.buf.toList
  buf_len : s.buf_len.toNat = g.buf_len
  flags : s.flags = g.flags

theorem replicate_toList : List.replicate C.BLOCK_LEN (0 : Byte) = (Vector.replicate 64 (0 : Byte)).toList := rfl

theorem CRel.init (key : Vector Word 8) (flags : Byte) (cfg : Model.Config) :
    CRel (chunk_state_init key flags) (ChunkState.new cfg key flags) :=
  ⟨rfl, rfl, rfl, rfl, replicate_toList, rfl, rfl⟩

theorem CRel.reset {s g g'} (h : CRel s g) (off : U64) (e : g.reset off = .ok g') :
    CRel (chunk_state_reset s off) g' := by
  rw [ChunkState.reset] at e
  obtain ⟨-, -, e⟩ := bind_inv e
  cases e
  exact ⟨h.key, h.key, rfl, rfl, replicate_toList, rfl, h.flags⟩

theorem CRel.len {cfg : C.Config} (h16 : 16 ≤ cfg.bits) {s g} (h : CRel s g) (hl : g.len < 65536) :
    chunk_state_len cfg s = g.len := by
  have := two_pow_bits h16
  rw [chunk_state_len, h.count, h.buf_len, ← ChunkState.len, Nat.mod_eq_of_lt (by omega)]

theorem CRel.start_flag {s g} (h : CRel s g) : chunk_state_maybe_start_flag s = g.maybe_chunk_start_flag := by
  have e : (s.count = 0) = (g.count = 0) := propext (by
    rw [← h.count]
    constructor
    · intro e; rw [e]; rfl
    · intro e; exact BitVec.eq_of_toNat_eq e)
  unfold chunk_state_maybe_start_flag ChunkState.maybe_chunk_start_flag
  simp only [e]
  rfl

/-! ## update -/

theorem fill_buf_sim {cfg : C.Config} (h16 : 16 ≤ cfg.bits) {s g g'} {input extra rest : Bytes} (h : CRel s g)
    (e : g.fill_buf input = .ok (g', rest)) :
    ∃ s' take, chunk_state_fill_buf cfg s (input ++ extra) input.length = .ok (s', take) ∧ CRel s' g' ∧
      take ≤ input.length ∧ rest = input.drop take := by
  have hp := two_pow_bits h16
  rw [ChunkState.fill_buf] at e
  obtain ⟨want, e1, e⟩ := bind_inv e
  obtain ⟨buf1, e2, e⟩ := bind_inv e
  obtain ⟨buf2, e3, e⟩ := bind_inv e
  obtain ⟨bl, e4, e⟩ := bind_inv e
  obtain ⟨h64, rfl⟩ := subN_inv e1
  obtain ⟨hadd, rfl⟩ := addN_inv e4
  simp only [Model.BLOCK_LEN] at *
  obtain ⟨rfl, rfl⟩ := Prod.mk.inj (Except.ok.inj e)
  have ht : (if subSz cfg.bits C.BLOCK_LEN s.buf_len.toNat > input.length then input.length
      else subSz cfg.bits C.BLOCK_LEN s.buf_len.toNat) = min (64 - g.buf_len) input.length := by
    rw [h.buf_len, subSz_le (by exact h64) (by simp only [C.BLOCK_LEN]; omega)]
    simp only [C.BLOCK_LEN]
    split <;> omega
  have hml : (input.take (min (64 - g.buf_len) input.length)).length = min (64 - g.buf_len) input.length := by
    rw [List.length_take]; omega
  have hb2 : buf2.toList = buf1 := by
    rw [writeAt] at e2
    split at e2
    next hw =>
      have := Except.ok.inj e2
      have hl : buf1.length = 64 := by
        rw [← this]; simp only [List.length_append, List.length_take, List.length_drop, Vector.length_toList] at hw ⊢
        omega
      rw [arrayRef, dif_pos (by omega)] at e3
      rw [← Except.ok.inj e3]
      exact List.take_of_length_le (by rw [List.drop_zero]; omega)
    next => cases e2
  refine ⟨{ s with buf := buf1, buf_len := s.buf_len + BitVec.ofNat 8 (min (64 - g.buf_len) input.length) },
    min (64 - g.buf_len) input.length, ?_, ?_, Nat.min_le_right _ _, rfl⟩
  · unfold chunk_state_fill_buf
    dsimp only
    rw [ht, memcpy, cLoad, if_pos (by rw [List.length_append]; omega), bind_ok, List.drop_zero,
      List.take_append_of_le_length (Nat.min_le_right _ _)]
    have : cStore s.buf s.buf_len.toNat (input.take (min (64 - g.buf_len) input.length)) = .ok buf1 := by
      rw [h.buf, h.buf_len]
      rw [writeAt] at e2
      rw [cStore]
      split at e2
      next hw => rw [if_pos hw]; exact e2
      next => cases e2
    rw [this, bind_ok]
    rfl
  · refine ⟨h.state, h.key, h.offset, h.count, hb2.symm, ?_, h.flags⟩
    show (s.buf_len + BitVec.ofNat 8 (min (64 - g.buf_len) input.length)).toNat =
      g.buf_len + min (64 - g.buf_len) input.length
    rw [BitVec.toNat_add, BitVec.toNat_ofNat, h.buf_len]
    omega

theorem drop_app {α} {n : Nat} {a b : List α} (h : n ≤ a.length) : (a ++ b).drop n = a.drop n ++ b :=
  List.drop_append_of_le_length h

theorem count_add {c : BitVec 16} {n : Nat} (h : c.toNat = n) (hn : n + 64 < 2 ^ 16) :
    (c + BitVec.ofNat 16 C.BLOCK_LEN).toNat = n + 64 := by
  rw [BitVec.toNat_add, BitVec.toNat_ofNat, h]
  simp only [C.BLOCK_LEN]
  omega

theorem blocks_sim {cfg : C.Config} {s g g'} {input extra rest : Bytes} (h : CRel s g)
    (e : g.update_blocks input = .ok (g', rest)) :
    ∃ s', chunk_state_update_blocks cfg s (input ++ extra) input.length = .ok (s', rest ++ extra, rest.length) ∧
      CRel s' g' := by
  induction hn : input.length using Nat.strongRecOn generalizing s g input with
  | ind n ih =>
  subst hn
  rw [ChunkState.update_blocks] at e
  rw [chunk_state_update_blocks]
  split at e
  next hc =>
    simp only [Model.BLOCK_LEN] at hc e
    obtain ⟨-, -, e⟩ := bind_inv e
    rw [arrayRef_block _ _ (by omega), bind_ok, List.drop_zero] at e
    obtain ⟨c, e1, e⟩ := bind_inv e
    obtain ⟨hadd, rfl⟩ := addN_inv e1
    rw [plat_compress] at e
    rw [if_pos (by exact hc), compress_dispatch cfg _ _ _ _ _ (by rw [List.length_append]; omega), bind_ok,
      cAdvance_ok _ _ (by rw [List.length_append]; simp only [C.BLOCK_LEN]; omega), bind_ok,
      h.start_flag, h.state, h.offset, h.flags]
    simp only [C.BLOCK_LEN]
    have hpad : Spec.pad (input ++ extra) = Spec.pad input := by
      rw [← pad_take, List.take_append_of_le_length (by omega), pad_take]
    rw [hpad, drop_app (by omega), ← List.length_drop]
    refine ih (input.drop 64).length (by rw [List.length_drop]; omega) ?_ e rfl
    exact ⟨rfl, h.key, rfl, count_add h.count hadd, h.buf, h.buf_len, rfl⟩
  next hc =>
    cases e
    rw [if_neg (by exact hc)]
    exact ⟨s, rfl, h⟩

theorem first_sim {cfg : C.Config} (h16 : 16 ≤ cfg.bits) {s g g'} {input extra rest : Bytes} (h : CRel s g)
    (e : g.update_first input = .ok (g', rest)) :
    ∃ s', chunk_state_update_first cfg s (input ++ extra) input.length = .ok (s', rest ++ extra, rest.length) ∧
      CRel s' g' := by
  rw [ChunkState.update_first] at e
  rw [chunk_state_update_first]
  have hbl : (s.buf_len > 0) = (0 < g.buf_len) := propext (by
    rw [← h.buf_len]; exact BitVec.lt_def)
  simp only [hbl]
  split at e
  next h0 =>
    rw [if_pos h0]
    obtain ⟨⟨g1, in1⟩, e1, e⟩ := bind_inv e
    obtain ⟨s1, take, f1, h1, hle, rfl⟩ := fill_buf_sim h16 (extra := extra) h e1
    rw [f1, bind_ok]
    dsimp only at e ⊢
    rw [cAdvance_ok _ _ (by rw [List.length_append]; omega), bind_ok, drop_app hle, ← List.length_drop]
    split at e
    next hne =>
      obtain ⟨-, -, e⟩ := bind_inv e
      obtain ⟨c, e2, e⟩ := bind_inv e
      obtain ⟨hadd, rfl⟩ := addN_inv e2
      obtain ⟨rfl, rfl⟩ := Prod.mk.inj (Except.ok.inj e)
      rw [if_pos (List.length_pos_iff.2 hne), compress_dispatch cfg _ _ _ _ _ (by rw [h1.buf]; simp), bind_ok]
      refine ⟨_, rfl, ?_, h1.key, h1.offset, count_add h1.count hadd, replicate_toList, rfl, h1.flags⟩
      dsimp only
      rw [plat_compress, h1.start_flag, h1.state, h1.offset, h1.flags, h1.buf, pad_of_toList]
    next hne =>
      obtain ⟨rfl, rfl⟩ := Prod.mk.inj (Except.ok.inj e)
      rw [if_neg (by intro h; exact hne (List.length_pos_iff.1 h))]
      exact ⟨s1, rfl, h1⟩
  next h0 =>
    rw [if_neg h0]
    cases e
    exact ⟨s, rfl, h⟩

theorem chunk_update_sim {cfg : C.Config} (h16 : 16 ≤ cfg.bits) {s g g'} {input : Bytes} (extra : Bytes) (h : CRel s g)
    (e : g.update input = .ok g') :
    ∃ s', chunk_state_update cfg s (input ++ extra) input.length = .ok s' ∧ CRel s' g' := by
  rw [ChunkState.update] at e
  obtain ⟨⟨g1, in1⟩, e1, e⟩ := bind_inv e
  obtain ⟨⟨g2, in2⟩, e2, e⟩ := bind_inv e
  obtain ⟨⟨g3, in3⟩, e3, e⟩ := bind_inv e
  obtain ⟨-, -, e⟩ := bind_inv e
  obtain ⟨-, -, e⟩ := bind_inv e
  cases e
  obtain ⟨s1, f1, h1⟩ := first_sim h16 (extra := extra) h e1
  obtain ⟨s2, f2, h2⟩ := blocks_sim (cfg := cfg) (extra := extra) h1 e2
  obtain ⟨s3, take, f3, h3, hle, -⟩ := fill_buf_sim h16 (extra := extra) h2 e3
  rw [chunk_state_update, f1, bind_ok]
  dsimp only
  rw [f2, bind_ok]
  dsimp only
  rw [f3, bind_ok]
  rw [cAdvance_ok _ _ (by rw [List.length_append]; omega), bind_ok]
  exact ⟨s3, rfl, h3⟩

/-! ## finalize -/

theorem chunk_finalize_sim {cfg : C.Config} {s g} {r : IsRoot} {o : Output} (h : CRel s g) (root : Bool)
    (hr : root = decide (r = .root)) (e : g.finalize r = .ok o) (out : Bytes) (ho : 32 ≤ out.length) :
    chunk_state_finalize cfg s root out = .ok (o.to_hash.toList ++ out.drop 32) := by
  rw [ChunkState.finalize] at e
  obtain ⟨-, -, e⟩ := bind_inv e
  obtain rfl := Except.ok.inj e
  rw [chunk_state_finalize]
  rw [compress_dispatch cfg _ _ _ _ _ (by rw [h.buf]; simp), bind_ok, write_state_bytes_eq _ _ ho, to_hash_eq]
  have hl : s.buf_len = BitVec.ofNat 8 g.buf_len := by
    rw [← h.buf_len]; simp
  have hf : (if root = true then s.flags ||| chunk_state_maybe_start_flag s ||| C.CHUNK_END ||| C.ROOT
      else s.flags ||| chunk_state_maybe_start_flag s ||| C.CHUNK_END) =
      g.flags ||| g.maybe_chunk_start_flag ||| Flags.CHUNK_END ||| r.flag := by
    rw [hr, h.flags, h.start_flag]
    cases r
    · exact (or_zero8 _).symm
    · rfl
  rw [hf, hl, h.state, h.buf, pad_of_toList, h.offset]
  rfl

theorem parent_sim {cfg : C.Config} (l r : Vector Byte 32) (extra : Bytes) (key : Vector Word 8) (ir : IsRoot)
    (flags : Byte) (p : Platform) (root : Bool) (hr : root = decide (ir = .root)) (out : Bytes) (ho : 32 ≤ out.length) :
    C.hash_one_parent cfg (l.toList ++ r.toList ++ extra) key root flags out =
      .ok ((Model.hash_one_parent l r key ir flags p).to_hash.toList ++ out.drop 32) := by
  rw [C.hash_one_parent]
  rw [compress_dispatch cfg _ _ _ _ _ (by simp; omega), bind_ok, write_state_bytes_eq _ _ ho, to_hash_eq]
  have hf : (if root = true then flags ||| C.PARENT ||| C.ROOT else flags ||| C.PARENT) =
      flags ||| Flags.PARENT ||| ir.flag := by
    rw [hr]
    cases ir
    · exact (or_zero8 _).symm
    · rfl
  rw [hf, ← Vector.toList_append, Props.pad_toList_append]
  rfl

end Baokeshed.Proofs.C
