import Verif.Proofs.C.Erase
import Verif.Proofs.C.Hasher
import Verif.Proofs.TraceHasher

/-! # C: the chunk state performs the compressions of that of the Rust crate -/

set_option linter.unusedVariables false
set_option linter.unusedSimpArgs false

namespace Baokeshed.Proofs.CT
open Baokeshed.Model Baokeshed.Model.C Baokeshed.Model.T Baokeshed.Proofs Baokeshed.Proofs.T Baokeshed.Proofs.C

attribute [local irreducible] Spec.compress Spec.cvBytes Spec.outBytes Spec.pad

/-! ## inversion of successful computations -/

theorem tr_inv {α β} {x : TR α} {f : α → TR β} {y : β} {l : List Spec.Input} (h : (x >>= f) = ⟨.ok y, l⟩) :
    ∃ a l1 l2, l = l1 ++ l2 ∧ x = ⟨.ok a, l1⟩ ∧ f a = ⟨.ok y, l2⟩ := by
  obtain ⟨r, l0⟩ := x
  cases r with
  | error e => have := congrArg TR.res h; cases this
  | ok a =>
    have h1 := congrArg TR.res h
    have h2 := congrArg TR.log h
    exact ⟨a, l0, (f a).log, h2.symm, rfl, tr_eq h1⟩

theorem lift_inv {α β} {x : R α} {f : α → TR β} {y : β} {l : List Spec.Input}
    (h : ((liftM x : TR α) >>= f) = ⟨.ok y, l⟩) : ∃ a, x = .ok a ∧ f a = ⟨.ok y, l⟩ := by
  obtain ⟨a, l1, l2, rfl, e1, e2⟩ := tr_inv h
  have h1 := congrArg TR.res e1
  have h2 := congrArg TR.log e1
  have h3 : l1 = [] := h2.symm
  subst h3
  exact ⟨a, h1, e2⟩

theorem pure_inv {α} {a y : α} {l : List Spec.Input} (h : (pure a : TR α) = ⟨.ok y, l⟩) : l = [] ∧ a = y := by
  have h1 := congrArg TR.res h
  have h2 := congrArg TR.log h
  exact ⟨h2.symm, Except.ok.inj h1⟩

/-- `tr_bind` in the form that keeps an equation -/
theorem tr_bind' {α β} {x : TR α} {a : α} {l l' : List Spec.Input} {f : α → TR β} {r : R β} (h : x = ⟨.ok a, l⟩)
    (h' : f a = ⟨r, l'⟩) : x >>= f = ⟨r, l ++ l'⟩ := by
  rw [tr_bind _ h, h']

theorem compress_eq (cfg : C.Config) (st : Vector Word 8) (b : Bytes) (len : Byte) (off : U64) (fl : Byte)
    (h : 64 ≤ b.length) :
    CT.compress cfg st b len off fl =
      ⟨.ok (Spec.compress ⟨st, Spec.pad b, len, off, fl⟩), [⟨st, Spec.pad b, len, off, fl⟩]⟩ := by
  rw [CT.compress, compress_dispatch cfg _ _ _ _ _ h]

theorem rust_compress_eq (p : Platform) (st : Vector Word 8) (b : Vector Byte 64) (len : Byte) (off : U64) (fl : Byte) :
    T.compress p st b len off fl = ⟨.ok (Spec.compress ⟨st, b, len, off, fl⟩), [⟨st, b, len, off, fl⟩]⟩ := by
  rw [T.compress, plat_compress]

/-! ## update -/

theorem blocks_sim {cfg : C.Config} {s g g'} {input extra rest : Bytes} {l : List Spec.Input} (h : CRel s g)
    (e : T.ChunkState.update_blocks g input = ⟨.ok (g', rest), l⟩) :
    ∃ s', CT.chunk_state_update_blocks cfg s (input ++ extra) input.length = ⟨.ok (s', rest ++ extra, rest.length), l⟩ ∧
      CRel s' g' := by
  induction hn : input.length using Nat.strongRecOn generalizing s g input l with
  | ind n ih =>
  subst hn
  rw [T.ChunkState.update_blocks] at e
  rw [CT.chunk_state_update_blocks]
  split at e
  next hc =>
    simp only [Model.BLOCK_LEN] at hc e
    obtain ⟨-, -, e⟩ := lift_inv e
    rw [arrayRef_block _ _ (by omega), lift_ok, List.drop_zero, rust_compress_eq] at e
    obtain ⟨cv, l1, l2, hl, e0, e⟩ := tr_inv e
    cases e0
    obtain ⟨c, e1, e⟩ := lift_inv e
    obtain ⟨hadd, rfl⟩ := addN_inv e1
    have hpad : Spec.pad (input ++ extra) = Spec.pad input := by
      rw [← pad_take, List.take_append_of_le_length (by omega), pad_take]
    obtain ⟨s', f, r⟩ := ih (input.drop 64).length (by rw [List.length_drop]; omega)
      (s := { s with state := Spec.compress ⟨g.cv, Spec.pad input, BitVec.ofNat 8 64, g.offset, g.flags ||| g.maybe_chunk_start_flag⟩,
                     count := s.count + BitVec.ofNat 16 C.BLOCK_LEN })
      (g := { g with cv := Spec.compress ⟨g.cv, Spec.pad input, BitVec.ofNat 8 64, g.offset, g.flags ||| g.maybe_chunk_start_flag⟩,
                     count := g.count + 64 })
      ⟨rfl, h.key, h.offset, count_add h.count hadd, h.buf, h.buf_len, h.flags⟩ e rfl
    refine ⟨s', ?_, r⟩
    rw [hl, if_pos (by exact hc), compress_eq cfg _ _ _ _ _ (by rw [List.length_append]; omega),
      h.start_flag, h.state, h.offset, h.flags, hpad]
    refine tr_bind' rfl ?_
    rw [cAdvance_ok _ _ (by rw [List.length_append]; simp only [C.BLOCK_LEN]; omega), lift_ok]
    simp only [C.BLOCK_LEN] at f ⊢
    rw [drop_app (by omega), ← List.length_drop]
    rw [h.offset, h.flags] at f
    exact f
  next hc =>
    obtain ⟨hl', e⟩ := pure_inv e
    cases e
    rw [hl', if_neg (by exact hc)]
    exact ⟨s, rfl, h⟩

theorem first_sim {cfg : C.Config} (h16 : 16 ≤ cfg.bits) {s g g'} {input extra rest : Bytes} {l : List Spec.Input} (h : CRel s g)
    (e : T.ChunkState.update_first g input = ⟨.ok (g', rest), l⟩) :
    ∃ s', CT.chunk_state_update_first cfg s (input ++ extra) input.length = ⟨.ok (s', rest ++ extra, rest.length), l⟩ ∧
      CRel s' g' := by
  rw [T.ChunkState.update_first] at e
  rw [CT.chunk_state_update_first]
  have hbl : (s.buf_len > 0) = (0 < g.buf_len) := propext (by
    rw [← h.buf_len]; exact BitVec.lt_def)
  simp only [hbl]
  split at e
  next h0 =>
    rw [if_pos h0]
    obtain ⟨⟨g1, in1⟩, e1, e⟩ := lift_inv e
    obtain ⟨s1, take, f1, h1, hle, rfl⟩ := fill_buf_sim h16 (extra := extra) h e1
    rw [f1, lift_ok]
    dsimp only at e ⊢
    rw [cAdvance_ok _ _ (by rw [List.length_append]; omega), lift_ok, drop_app hle, ← List.length_drop]
    split at e
    next hne =>
      obtain ⟨-, -, e⟩ := lift_inv e
      rw [rust_compress_eq] at e
      obtain ⟨cv, l1, l2, hl, e0, e⟩ := tr_inv e
      cases e0
      obtain ⟨c, e2, e⟩ := lift_inv e
      obtain ⟨hadd, rfl⟩ := addN_inv e2
      obtain ⟨hl', e⟩ := pure_inv e
      obtain ⟨rfl, rfl⟩ := Prod.mk.inj e
      rw [hl, hl', if_pos (List.length_pos_iff.2 hne), compress_eq cfg _ _ _ _ _ (by rw [h1.buf]; simp), h1.start_flag, h1.state,
        h1.offset, h1.flags, h1.buf, pad_of_toList]
      exact ⟨_, rfl, rfl, h1.key, rfl, count_add h1.count hadd, replicate_toList, rfl, rfl⟩
    next hne =>
      obtain ⟨hl', e⟩ := pure_inv e
      obtain ⟨rfl, rfl⟩ := Prod.mk.inj e
      rw [hl', if_neg (by intro h; exact hne (List.length_pos_iff.1 h))]
      exact ⟨s1, rfl, h1⟩
  next h0 =>
    rw [if_neg h0]
    obtain ⟨hl', e⟩ := pure_inv e
    cases e
    rw [hl']
    exact ⟨s, rfl, h⟩

theorem chunk_update_sim {cfg : C.Config} (h16 : 16 ≤ cfg.bits) {s g g'} {input : Bytes} {l : List Spec.Input} (extra : Bytes)
    (h : CRel s g) (e : T.ChunkState.update g input = ⟨.ok g', l⟩) :
    ∃ s', CT.chunk_state_update cfg s (input ++ extra) input.length = ⟨.ok s', l⟩ ∧ CRel s' g' := by
  rw [T.ChunkState.update] at e
  obtain ⟨⟨g1, in1⟩, l1, l1', hl1, e1, e⟩ := tr_inv e
  obtain ⟨⟨g2, in2⟩, l2, l2', hl2, e2, e⟩ := tr_inv e
  obtain ⟨⟨g3, in3⟩, e3, e⟩ := lift_inv e
  obtain ⟨-, -, e⟩ := lift_inv e
  obtain ⟨-, -, e⟩ := lift_inv e
  obtain ⟨hl', e⟩ := pure_inv e
  cases e
  obtain ⟨s1, f1, h1⟩ := first_sim h16 (extra := extra) h e1
  obtain ⟨s2, f2, h2⟩ := blocks_sim (cfg := cfg) (extra := extra) h1 e2
  obtain ⟨s3, take, f3, h3, hle, -⟩ := fill_buf_sim h16 (extra := extra) h2 e3
  refine ⟨s3, ?_, h3⟩
  rw [hl1, hl2, hl', CT.chunk_state_update]
  refine tr_bind' f1 (tr_bind' f2 ?_)
  dsimp only
  rw [f3, lift_ok]
  dsimp only
  rw [cAdvance_ok _ _ (by rw [List.length_append]; omega), lift_ok]
  rfl

/-! ## finalize -/

theorem chunk_finalize_sim {cfg : C.Config} {s g} {r : IsRoot} {o : Output} (h : CRel s g) (root : Bool)
    (hr : root = decide (r = .root)) (e : g.finalize r = .ok o) (out : Bytes) (ho : 32 ≤ out.length) :
    CT.chunk_state_finalize cfg s root out = ⟨.ok (o.to_hash.toList ++ out.drop 32), [toInput o]⟩ := by
  have hres := (chunk_finalize_res cfg s root out).trans (C.chunk_finalize_sim (cfg := cfg) h root hr e out ho)
  rw [tr_eq hres]
  refine congrArg _ ?_
  rw [ChunkState.finalize] at e
  obtain ⟨-, -, e⟩ := bind_inv e
  obtain rfl := Except.ok.inj e
  rw [CT.chunk_state_finalize, log_bind _ (congrArg TR.res (compress_eq cfg _ _ _ _ _ (by rw [h.buf]; simp)))]
  have hl : s.buf_len = BitVec.ofNat 8 g.buf_len := by
    rw [← h.buf_len]; simp
  have hf : (if root = true then s.flags ||| chunk_state_maybe_start_flag s ||| C.CHUNK_END ||| C.ROOT
      else s.flags ||| chunk_state_maybe_start_flag s ||| C.CHUNK_END) =
      g.flags ||| g.maybe_chunk_start_flag ||| Flags.CHUNK_END ||| r.flag := by
    rw [hr, h.flags, h.start_flag]
    cases r
    · exact (or_zero8 _).symm
    · rfl
  rw [hf, hl, h.state, h.buf, h.offset]
  simp only [CT.compress, pad_of_toList]
  rfl

theorem parent_sim {cfg : C.Config} (l r : Vector Byte 32) (extra : Bytes) (key : Vector Word 8) (ir : IsRoot)
    (flags : Byte) (p : Platform) (root : Bool) (hr : root = decide (ir = .root)) (out : Bytes) (ho : 32 ≤ out.length) :
    CT.hash_one_parent cfg (l.toList ++ r.toList ++ extra) key root flags out =
      ⟨.ok ((Model.hash_one_parent l r key ir flags p).to_hash.toList ++ out.drop 32),
        [toInput (Model.hash_one_parent l r key ir flags p)]⟩ := by
  have hres := (hash_one_parent_res cfg (l.toList ++ r.toList ++ extra) key root flags out).trans
    (C.parent_sim (cfg := cfg) l r extra key ir flags p root hr out ho)
  rw [tr_eq hres]
  refine congrArg _ ?_
  rw [CT.hash_one_parent, log_bind _ (congrArg TR.res (compress_eq cfg _ _ _ _ _ (by simp; omega)))]
  have hf : (if root = true then flags ||| C.PARENT ||| C.ROOT else flags ||| C.PARENT) =
      flags ||| Flags.PARENT ||| ir.flag := by
    rw [hr]
    cases ir
    · exact (or_zero8 _).symm
    · rfl
  rw [hf]
  simp only [CT.compress]
  rw [← Vector.toList_append, Props.pad_toList_append]
  rfl

end Baokeshed.Proofs.CT
