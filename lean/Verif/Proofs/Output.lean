import Verif.Proofs.Lib
import Verif.Model.Api

/-! # `Output`: reads and hashes -/

set_option linter.unusedVariables false
set_option linter.unusedSimpArgs false

namespace Baokeshed.Proofs
open Baokeshed.Model

/-! ## Words and bytes -/

theorem iv_eq : IV = Vector.ofFn Spec.iv := by
  apply Vector.ext
  intro i hi
  rw [Vector.getElem_ofFn]
  rcases i with _ | _ | _ | _ | _ | _ | _ | _ | i <;> first | rfl | omega

theorem key_words_eq (k : Vector Byte 32) :
    words_from_key_bytes k = Vector.ofFn fun i : Fin 8 =>
      k[4 * i.val + 3] ++ k[4 * i.val + 2] ++ k[4 * i.val + 1] ++ k[4 * i.val] := by
  apply Vector.ext
  intro i hi
  rw [Vector.getElem_ofFn]
  rcases i with _ | _ | _ | _ | _ | _ | _ | _ | i <;> first | rfl | omega

theorem wordBytes_append (a b : List Word) : Spec.wordBytes (a ++ b) = Spec.wordBytes a ++ Spec.wordBytes b := by
  simp [Spec.wordBytes, List.flatMap_append]

theorem outBytes_take (n : Spec.Input) : (Spec.outBytes n).toList.take 32 = (Spec.cvBytes (Spec.compress n)).toList := by
  have e : (Spec.outBytes n).toList = Spec.wordBytes (Spec.outLow n).toList ++ Spec.wordBytes (Spec.outHigh n).toList := by
    rw [← wordBytes_append]; rfl
  rw [e, List.take_left' (by rw [Spec.length_wordBytes, Vector.length_toList])]
  rfl

attribute [local irreducible] Spec.compress Spec.outBytes Spec.cvBytes Spec.pad

/-! ## The specified stream -/

theorem chunkFrom_offset (flags : Byte) (off : Nat) (c : Bytes) (cv : Vector Word 8) (bf : Byte) :
    (Spec.chunkFrom flags off cv bf c).offset = BitVec.ofNat 64 off := by
  induction hn : c.length using Nat.strongRecOn generalizing c cv bf with
  | ind n ih =>
  rw [Spec.chunkFrom]
  split
  · rfl
  · exact ih _ (by simp; omega) _ _ _ rfl

theorem root_offset (m : Spec.Mode) (input : Bytes) : (Spec.root m input).offset = 0 := by
  show (Spec.subtree m.key m.flag 0 input).offset = 0
  rw [Spec.subtree]
  split
  · exact chunkFrom_offset _ _ _ _ _
  · rfl

/-- bytes `a .. a + n` of the specified stream -/
def slice (m : Spec.Mode) (input : Bytes) (a n : Nat) : Bytes :=
  (List.range n).map fun i => Spec.streamByte m input (a + i)

theorem slice_block (m : Spec.Mode) (input : Bytes) (k n : Nat) (hn : n ≤ 64) :
    slice m input (64 * k) n = (Spec.streamBlock m input k).toList.take n := by
  apply List.ext_getElem
  · simp [slice, hn]
  · intro i h1 h2
    have hi : i < n := by simpa [slice] using h1
    simp only [slice, List.getElem_map, List.getElem_range, Spec.streamByte, List.getElem_take, Vector.getElem_toList]
    have e1 : (64 * k + i) / 64 = k := by omega
    have e2 : (64 * k + i) % 64 = i := by omega
    simp only [e1, e2]

theorem slice_append (m : Spec.Mode) (input : Bytes) (a n n' : Nat) :
    slice m input a (n + n') = slice m input a n ++ slice m input (a + n) n' := by
  simp [slice, List.range_add, Nat.add_assoc]

theorem output_eq_slice (m : Spec.Mode) (input : Bytes) (n : Nat) : Spec.output m input n = slice m input 0 n := by
  simp [slice, Spec.output]

theorem hash_toList (m : Spec.Mode) (input : Bytes) : (Spec.hash m input).toList = slice m input 0 32 := by
  apply List.ext_getElem
  · simp [slice]
  · intro i h1 h2
    simp [slice, Spec.hash]

/-! ## Reads -/

/-- `o` is the root output of `input`, after `k` reads -/
def OutAt (o : Output) (m : Spec.Mode) (input : Bytes) (k : Nat) : Prop :=
  toInput o = { Spec.root m input with offset := BitVec.ofNat 64 (64 * k) }

theorem OutAt.zero {o : Output} {m : Spec.Mode} {input : Bytes} (h : toInput o = Spec.root m input) :
    OutAt o m input 0 := by
  rw [OutAt, h, show BitVec.ofNat 64 (64 * 0) = (Spec.root m input).offset from (root_offset m input).symm]

theorem OutAt.to_hash {o : Output} {m : Spec.Mode} {input : Bytes} {k : Nat} (h : OutAt o m input k) :
    o.to_hash.toList = slice m input (64 * k) 32 := by
  rw [slice_block _ _ _ _ (by decide), Spec.streamBlock, outBytes_take, to_hash_eq, h]

theorem OutAt.block {o : Output} {m : Spec.Mode} {input : Bytes} {k : Nat} (h : OutAt o m input k) :
    o.platform.compress_xof o.cv o.block o.block_len o.offset o.flags = Spec.streamBlock m input k := by
  rw [plat_compress_xof, Spec.streamBlock, ← h]; rfl

theorem OutAt.offset {o : Output} {m : Spec.Mode} {input : Bytes} {k : Nat} (h : OutAt o m input k) :
    o.offset = BitVec.ofNat 64 (64 * k) := congrArg Spec.Input.offset h

theorem OutAt.next {o : Output} {m : Spec.Mode} {input : Bytes} {k : Nat} (h : OutAt o m input k) :
    OutAt { o with offset := BitVec.ofNat 64 (64 * (k + 1)) } m input (k + 1) := by
  have h' : toInput o = _ := h
  simp only [OutAt, toInput, Spec.Input.mk.injEq] at h' ⊢
  exact ⟨h'.1, h'.2.1, h'.2.2.1, trivial, h'.2.2.2.2⟩

theorem OutAt.read {o : Output} {m : Spec.Mode} {input : Bytes} {k : Nat} (h : OutAt o m input k)
    (prof : Profile) (hk : prof = .release ∨ k < 2 ^ 58 - 1) :
    o.read prof = .ok (Spec.streamBlock m input k, { o with offset := BitVec.ofNat 64 (64 * (k + 1)) }) := by
  unfold Output.read
  rw [h.block]
  cases prof with
  | debug =>
    have hk : k < 2 ^ 58 - 1 := by rcases hk with h | h; cases h; exact h
    simp only [OUT_LEN]
    rw [h.offset, addU64_ofNat _ _ (by omega), bind_ok, Nat.mul_succ]
    rfl
  | release =>
    simp only [OUT_LEN]
    rw [bind_ok, h.offset, show 64 * (k + 1) = 64 * k + 2 * 32 by omega, BitVec.ofNat_add (64 * k)]
    rfl

theorem OutAt.read_last {o : Output} {m : Spec.Mode} {input : Bytes} {k : Nat} (h : OutAt o m input k)
    (hk : k = 2 ^ 58 - 1) : o.read .debug = .error .overflow := by
  unfold Output.read
  simp only [OUT_LEN]
  rw [addU64, h.offset, if_neg (by rw [hk]; decide)]
  rfl

theorem OutAt.readMany {m : Spec.Mode} {input : Bytes} (prof : Profile) (n : Nat) :
    ∀ {o : Output} {k : Nat}, OutAt o m input k → (prof = .release ∨ k + n ≤ 2 ^ 58 - 1) →
    ∃ o', o.readMany prof n = .ok (slice m input (64 * k) (64 * n), o') ∧ OutAt o' m input (k + n) ∧
      o'.platform = o.platform := by
  induction n with
  | zero => intro o k h _; exact ⟨o, by simp [Output.readMany, slice], h, rfl⟩
  | succ n ih =>
    intro o k h hk
    obtain ⟨o', e, h', hp⟩ := ih h.next (by rcases hk with h | h; exact Or.inl h; exact Or.inr (by omega))
    refine ⟨o', ?_, by rw [show k + (n + 1) = k + 1 + n by omega]; exact h', hp⟩
    rw [Output.readMany, h.read prof (by rcases hk with h | h; exact Or.inl h; exact Or.inr (by omega)), bind_ok]
    dsimp only
    rw [e, bind_ok]
    dsimp only
    rw [pure_eq, show 64 * (n + 1) = 64 + 64 * n by omega, slice_append, slice_block _ _ _ 64 (by decide),
      List.take_of_length_le (by simp), ← Nat.mul_succ]

/-! ## The one-shot functions -/

theorem oneShotXof_eq (cfg : Config) (m : Spec.Mode) (input : Bytes) (hv : cfg.Valid) (hf : cfg.Fits input.length) :
    ∃ o, oneShotXof cfg m input = .ok o ∧ o.platform = Platform.detect cfg ∧ toInput o = Spec.root m input := by
  have hw : input.length < 2 ^ cfg.usizeBits :=
    Nat.lt_of_lt_of_le hf (Nat.pow_le_pow_right (by decide) (by omega))
  have h64 : input.length < 2 ^ 64 := Nat.lt_of_lt_of_le hw (Nat.pow_le_pow_right (by decide) hv.2)
  have key : ∃ o, oneShotXof cfg m input = .ok o ∧ o.platform = Platform.detect cfg ∧
      toInput o = asRoot (Spec.subtree m.key m.flag 0 input) := by
    cases m with
    | hash =>
      have := hash_internal_eq (Spec.Mode.key .hash) 0 cfg input hw h64
      rw [oneShotXof, hash_xof, iv_eq]; exact this
    | keyedHash k =>
      have := hash_internal_eq (Spec.Mode.key (.keyedHash k)) Flags.KEYED_HASH cfg input hw h64
      rw [oneShotXof, keyed_hash_xof, key_words_eq]; exact this
    | deriveKey k =>
      have := hash_internal_eq (Spec.Mode.key (.deriveKey k)) Flags.DERIVE_KEY cfg input hw h64
      rw [oneShotXof, derive_key_xof, key_words_eq]; exact this
  exact key

theorem oneShot_of_xof (cfg : Config) (m : Spec.Mode) (input : Bytes) (o : Output)
    (h : oneShotXof cfg m input = .ok o) : oneShot cfg m input = .ok o.to_hash := by
  cases m <;> simp only [oneShotXof] at h <;>
    simp only [oneShot, Model.hash, keyed_hash, derive_key, h, bind_ok] <;> rfl

end Baokeshed.Proofs
