import Verif.Props.Hasher
import Verif.Props.Xof
import Verif.Props.C64
import Verif.Proofs.Inject

/-!
# C43, C44: output that cannot coincide

No assumption on the strength of the compression function is made here: the rounds are a permutation of the
state for each message block, so that two compressions of one block under one chaining value that differ in the
offset, the block length or the flags never return the same 64 bytes.
-/

namespace Baokeshed.Props
open Baokeshed.Model Baokeshed.Proofs

attribute [local irreducible] Spec.compress Spec.cvBytes Spec.outBytes Spec64.outBytes

theorem input_eq {m n : Spec.Input} (h : Spec.outBytes m = Spec.outBytes n) (hcv : m.cv = n.cv) (hb : m.block = n.block) :
    m = n := Inj.outBytes_inj hcv hb h

theorem input_eq64 {m n : Spec64.Input} (h : Spec64.outBytes m = Spec64.outBytes n) (hcv : m.cv = n.cv)
    (hb : m.block = n.block) : m = n := Inj64.outBytes_inj hcv hb h

/-- C43.  For a chaining value and a block, `compress_xof` of every implementation is injective in block length, offset
and flags together. -/
theorem C43_compress_xof (p q : Platform) (cv : Vector Word 8) (block : Vector Byte 64) (l l' : Byte) (o o' : U64)
    (f f' : Byte) :
    p.compress_xof cv block l o f = q.compress_xof cv block l' o' f' ↔ l = l' ∧ o = o' ∧ f = f' := by
  rw [plat_compress_xof, plat_compress_xof]
  refine ⟨fun h => ?_, fun ⟨h1, h2, h3⟩ => by rw [h1, h2, h3]⟩
  have := input_eq h rfl rfl
  injection this with _ _ h1 h2 h3
  exact ⟨h1, h2, h3⟩

/-- C43, for the 64-bit variant. -/
theorem C43_compress_xof64 (cv : Vector U64 4) (block : Vector Byte 128) (l l' : Byte) (o o' : U64) (f f' : Byte) :
    Portable64.compress_xof cv block l o f = Portable64.compress_xof cv block l' o' f' ↔ l = l' ∧ o = o' ∧ f = f' := by
  rw [← Vector.toList_inj, (C40_compress ..).2, (C40_compress ..).2]
  refine ⟨fun h => ?_, fun ⟨h1, h2, h3⟩ => by rw [h1, h2, h3]⟩
  have := input_eq64 h rfl rfl
  injection this with _ _ h1 h2 h3
  exact ⟨h1, h2, h3⟩

/-- 64-byte block number `k` of what was read -/
def blockOf (bytes : Bytes) (k : Nat) : Bytes := (bytes.drop (64 * k)).take 64

theorem blockOf_slice (m : Spec.Mode) (input : Bytes) (n k : Nat) (hk : k < n) :
    blockOf (slice m input (64 * 0) (64 * n)) k = (Spec.streamBlock m input k).toList := by
  have e : slice m input 0 (64 * n) = slice m input 0 (64 * k) ++ (slice m input (64 * k) 64 ++
      slice m input (64 * k + 64) (64 * (n - k - 1))) := by
    rw [← slice_append, show 64 * n = 64 * k + (64 + 64 * (n - k - 1)) by omega, slice_append, Nat.zero_add]
  have l : ∀ a b, (slice m input a b).length = b := fun a b => by simp [slice]
  have t : slice m input (64 * k) 64 = (Spec.streamBlock m input k).toList := by
    rw [slice_block _ _ _ 64 (by decide), List.take_of_length_le (by simp)]
  rw [blockOf, Nat.mul_zero, e, List.drop_left' (l _ _), List.take_left' (l _ _), t]

theorem streamBlock_eq_iff (m : Spec.Mode) (input : Bytes) (j k : Nat) :
    Spec.streamBlock m input j = Spec.streamBlock m input k ↔ j % 2 ^ 58 = k % 2 ^ 58 := by
  unfold Spec.streamBlock
  constructor
  · intro h
    have := congrArg (fun n => n.offset.toNat) (input_eq h rfl rfl)
    simp only [BitVec.toNat_ofNat] at this
    omega
  · intro h
    have : BitVec.ofNat 64 (64 * j) = BitVec.ofNat 64 (64 * k) := by
      apply BitVec.eq_of_toNat_eq
      simp only [BitVec.toNat_ofNat]
      omega
    rw [this]

/-- C43.  Of the blocks read from the output of a one-shot function two are equal exactly when their
numbers are congruent modulo 2^58: no block is repeated before the offset wraps around. -/
theorem C43_one_shot (cfg : Config) (hv : cfg.Valid) (m : Spec.Mode) (input : Bytes)
    (hf : cfg.Fits input.length) (prof : Profile) (n : Nat) (hn : prof = .release ∨ n ≤ 2 ^ 58 - 1) :
    ∃ o bs o', oneShotXof cfg m input = .ok o ∧ o.readMany prof n = .ok (bs, o') ∧ bs.length = 64 * n ∧
      ∀ j k, j < n → k < n → (blockOf bs j = blockOf bs k ↔ j % 2 ^ 58 = k % 2 ^ 58) := by
  obtain ⟨o, e, -, ho⟩ := oneShotXof_eq cfg m input hv hf
  obtain ⟨o', h, -⟩ := (OutAt.zero ho).readMany prof n (by simpa using hn)
  refine ⟨o, _, o', e, h, by simp [slice], fun j k hj hk => ?_⟩
  rw [blockOf_slice _ _ _ _ hj, blockOf_slice _ _ _ _ hk, Vector.toList_inj, streamBlock_eq_iff]

/-- C43, for the output of a `Hasher`. -/
theorem C43_hasher (cfg : Config) (m : Spec.Mode) (ss : List Bytes) (hl : ss.flatten.length < 2 ^ 64)
    (prof : Profile) (n : Nat) (hn : prof = .release ∨ n ≤ 2 ^ 58 - 1) :
    ∃ h o bs o', (newHasher cfg m).updates cfg ss = .ok h ∧ h.finalize_xof = .ok o ∧
      o.readMany prof n = .ok (bs, o') ∧ bs.length = 64 * n ∧
      ∀ j k, j < n → k < n → (blockOf bs j = blockOf bs k ↔ j % 2 ^ 58 = k % 2 ^ 58) := by
  obtain ⟨h, e, hh⟩ := (HasherAt.new cfg m).updates ss (by simpa using hl)
  obtain ⟨o, e', -, ho⟩ := hh.finalize_xof
  obtain ⟨o', h', -⟩ := (OutAt.zero ho).readMany prof n (by simpa using hn)
  refine ⟨h, o, _, o', e, e', h', by simp [slice], fun j k hj hk => ?_⟩
  rw [blockOf_slice _ _ _ _ hj, blockOf_slice _ _ _ _ hk, Vector.toList_inj, streamBlock_eq_iff]

/-- C43.  In particular all blocks differ as long as at most 2^58 are read. -/
theorem C43_no_repeat (cfg : Config) (hv : cfg.Valid) (m : Spec.Mode) (input : Bytes)
    (hf : cfg.Fits input.length) (prof : Profile) (n : Nat) (hn : n ≤ 2 ^ 58 - 1 ∨ prof = .release ∧ n = 2 ^ 58) :
    ∃ o bs o', oneShotXof cfg m input = .ok o ∧ o.readMany prof n = .ok (bs, o') ∧
      ∀ j k, j < k → k < n → blockOf bs j ≠ blockOf bs k := by
  obtain ⟨o, bs, o', e, h, -, H⟩ := C43_one_shot cfg hv m input hf prof n (by rcases hn with h | h; exact Or.inr h; exact Or.inl h.1)
  refine ⟨o, bs, o', e, h, fun j k hj hk he => ?_⟩
  have := (H j k (by omega) hk).1 he
  omega

example : exSse41.Valid ∧ exSse41.Fits (rep 5000 3).length ∧ (2 ^ 40 ≤ 2 ^ 58 - 1 ∨ Profile.debug = .release ∧ 2 ^ 40 = 2 ^ 58) := by
  simp
example : [rep 5000 3, [], rep 1 1].flatten.length < 2 ^ 64 ∧
    (Profile.release = .release ∨ 2 ^ 60 ≤ 2 ^ 58 - 1) := by
  simp

/-! ## Inputs -/

theorem pad_append_zeros (c : Bytes) (z : Nat) : Spec.pad (c ++ List.replicate z 0) = Spec.pad c := by
  apply Vector.ext
  intro i hi
  simp only [Spec.pad, Vector.getElem_ofFn, List.getD_eq_getElem?_getD]
  by_cases h : i < c.length
  · rw [List.getElem?_append_left h]
  · rw [List.getElem?_append_right (by omega), List.getElem?_eq_none (l := c) (by omega), List.getElem?_replicate]
    split <;> rfl

theorem chunkFrom_long (flags : Byte) (offset : Nat) (cv : Vector Word 8) (fl : Byte) (c : Bytes) (h : ¬ c.length ≤ 64) :
    Spec.chunkFrom flags offset cv fl c = Spec.chunkFrom flags offset
      (Spec.compress ⟨cv, Spec.pad (c.take 64), 64, BitVec.ofNat 64 offset, fl⟩) flags (c.drop 64) := by
  rw [Spec.chunkFrom, dif_neg h]

theorem chunkFrom_zeros (flags : Byte) (offset z : Nat) (hz : 0 < z) :
    ∀ (c : Bytes) (cv : Vector Word 8) (fl : Byte), (c.length + z - 1) / 64 = (c.length - 1) / 64 →
      let a := Spec.chunkFrom flags offset cv fl c
      let b := Spec.chunkFrom flags offset cv fl (c ++ List.replicate z 0)
      a.cv = b.cv ∧ a.block = b.block ∧ a.flags = b.flags ∧ a.blockLen ≠ b.blockLen := by
  intro c
  induction hn : c.length using Nat.strongRecOn generalizing c with
  | _ n ih =>
    intro cv fl h
    subst hn
    by_cases hc : c.length ≤ 64
    · have hc' : (c ++ List.replicate z (0 : Byte)).length ≤ 64 := by
        simp only [List.length_append, List.length_replicate]; omega
      rw [Spec.chunkFrom, dif_pos hc, Spec.chunkFrom, dif_pos hc']
      refine ⟨rfl, (pad_append_zeros _ _).symm, rfl, fun e => ?_⟩
      have := congrArg BitVec.toNat e
      simp only [BitVec.toNat_ofNat, List.length_append, List.length_replicate] at this hc'
      omega
    · have hc' : ¬ (c ++ List.replicate z (0 : Byte)).length ≤ 64 := by
        simp only [List.length_append, List.length_replicate]; omega
      have t : (c ++ List.replicate z (0 : Byte)).take 64 = c.take 64 := List.take_append_of_le_length (by omega)
      have d : (c ++ List.replicate z (0 : Byte)).drop 64 = c.drop 64 ++ List.replicate z 0 :=
        List.drop_append_of_le_length (by omega)
      rw [chunkFrom_long _ _ _ _ _ hc, chunkFrom_long _ _ _ _ _ hc', t, d]
      exact ih (c.drop 64).length (by simp only [List.length_drop]; omega) (c.drop 64) rfl _ _
        (by simp only [List.length_drop]; omega)

/-- C44.  Zero padding is not confused with input.  If `x` followed by `z > 0` zero bytes is still one chunk and ends
in the same block as `x`, then no block of the output of the one is a block of the output of the other, in any
mode, at any positions. -/
theorem C44_padding (cfg : Config) (hv : cfg.Valid) (m : Spec.Mode) (x : Bytes) (z : Nat) (hz : 0 < z)
    (hx : x.length + z ≤ 2048) (hb : (x.length + z - 1) / 64 = (x.length - 1) / 64) (prof : Profile)
    (n : Nat) (hn : prof = .release ∨ n ≤ 2 ^ 58 - 1) :
    ∃ o bs o' p cs p', oneShotXof cfg m x = .ok o ∧ o.readMany prof n = .ok (bs, o') ∧
      oneShotXof cfg m (x ++ List.replicate z 0) = .ok p ∧ p.readMany prof n = .ok (cs, p') ∧
      ∀ j k, j < n → k < n → blockOf bs j ≠ blockOf cs k := by
  have f : cfg.Fits (x.length + z) := by
    have : 2 ^ 15 ≤ 2 ^ (cfg.usizeBits - 1) := Nat.pow_le_pow_right (by decide) (by have := hv.1; omega)
    unfold Config.Fits
    omega
  have f1 : cfg.Fits x.length := by unfold Config.Fits at f ⊢; omega
  have f2 : cfg.Fits (x ++ List.replicate z (0 : Byte)).length := by simpa using f
  obtain ⟨o, e, -, ho⟩ := oneShotXof_eq cfg m x hv f1
  obtain ⟨p, e', -, hp⟩ := oneShotXof_eq cfg m (x ++ List.replicate z 0) hv f2
  obtain ⟨o', h, -⟩ := (OutAt.zero ho).readMany prof n (by simpa using hn)
  obtain ⟨p', h', -⟩ := (OutAt.zero hp).readMany prof n (by simpa using hn)
  refine ⟨o, _, o', p, _, p', e, h, e', h', fun j k hj hk he => ?_⟩
  rw [blockOf_slice _ _ _ _ hj, blockOf_slice _ _ _ _ hk, Vector.toList_inj] at he
  have l2 : (x ++ List.replicate z (0 : Byte)).length ≤ 2048 := by simpa using hx
  simp only [Spec.streamBlock, Spec.root] at he
  rw [Spec.subtree, dif_pos (by omega), Spec.subtree, dif_pos l2, Spec.chunk, Spec.chunk] at he
  obtain ⟨h1, h2, -, h4⟩ := chunkFrom_zeros m.flag 0 z hz x m.key (m.flag ||| Spec.chunkStart) hb
  have := congrArg Spec.Input.blockLen (input_eq he h1 h2)
  exact h4 this

theorem word_append_inj {a b c d a' b' c' d' : BitVec 8} (h : a ++ b ++ c ++ d = a' ++ b' ++ c' ++ d') :
    a = a' ∧ b = b' ∧ c = c' ∧ d = d' := by
  have key : ∀ {m n : Nat} {x x' : BitVec m} {y y' : BitVec n}, x ++ y = x' ++ y' → x = x' ∧ y = y' := by
    intro m n x x' y y' h
    have h1 := congrArg (BitVec.extractLsb' n m) h
    have h2 := congrArg (BitVec.extractLsb' 0 n) h
    simp only [BitVec.extractLsb'_append_eq_left, BitVec.extractLsb'_append_eq_right] at h1 h2
    exact ⟨h1, h2⟩
  obtain ⟨h, hd⟩ := key h
  obtain ⟨h, hc⟩ := key h
  obtain ⟨h, hb⟩ := key h
  exact ⟨h, hb, hc, hd⟩
theorem keyWords_inj {k k' : Vector Byte 32} (h : (Spec.Mode.keyedHash k).key = (Spec.Mode.keyedHash k').key) : k = k' := by
  have g : ∀ i : Fin 8, k[4 * i.val + 3] ++ k[4 * i.val + 2] ++ k[4 * i.val + 1] ++ k[4 * i.val] =
      k'[4 * i.val + 3] ++ k'[4 * i.val + 2] ++ k'[4 * i.val + 1] ++ k'[4 * i.val] := by
    intro i
    have : ((Spec.Mode.keyedHash k).key)[i.val] = ((Spec.Mode.keyedHash k').key)[i.val] := by rw [h]
    simpa [Spec.Mode.key] using this
  apply Vector.ext
  intro j hj
  obtain ⟨q, e⟩ : ∃ q, j = 4 * q ∨ j = 4 * q + 1 ∨ j = 4 * q + 2 ∨ j = 4 * q + 3 := ⟨j / 4, by omega⟩
  obtain ⟨h3, h2, h1, h0⟩ := word_append_inj (g ⟨q, by omega⟩)
  rcases e with rfl | rfl | rfl | rfl
  · exact h0
  · exact h1
  · exact h2
  · exact h3

theorem mode_eq {m m' : Spec.Mode} (hk : m.key = m'.key) (hf : m.flag = m'.flag) : m = m' := by
  cases m with
  | hash =>
    cases m' with
    | hash => rfl
    | keyedHash k => exact absurd hf (show ¬ (0 : Byte) = 16 by decide)
    | deriveKey k => exact absurd hf (show ¬ (0 : Byte) = 32 by decide)
  | keyedHash k =>
    cases m' with
    | hash => exact absurd hf (show ¬ (16 : Byte) = 0 by decide)
    | keyedHash k' => rw [keyWords_inj hk]
    | deriveKey k' => exact absurd hf (show ¬ (16 : Byte) = 32 by decide)
  | deriveKey k =>
    cases m' with
    | hash => exact absurd hf (show ¬ (32 : Byte) = 0 by decide)
    | keyedHash k' => exact absurd hf (show ¬ (32 : Byte) = 16 by decide)
    | deriveKey k' => rw [keyWords_inj hk]

/-- C44.  Modes are separated.  Two different modes that share their key words (`keyed_hash` and `derive_key` with one
key, or `hash` and a key equal to the IV) have no block of output in common on an input of at most 64 bytes. -/
theorem C44_modes (cfg : Config) (hv : cfg.Valid) (m m' : Spec.Mode) (hm : m ≠ m') (hk : m.key = m'.key)
    (x : Bytes) (hx : x.length ≤ 64) (prof : Profile) (n : Nat) (hn : prof = .release ∨ n ≤ 2 ^ 58 - 1) :
    ∃ o bs o' p cs p', oneShotXof cfg m x = .ok o ∧ o.readMany prof n = .ok (bs, o') ∧
      oneShotXof cfg m' x = .ok p ∧ p.readMany prof n = .ok (cs, p') ∧
      ∀ j k, j < n → k < n → blockOf bs j ≠ blockOf cs k := by
  have f : cfg.Fits x.length := by
    have : 2 ^ 15 ≤ 2 ^ (cfg.usizeBits - 1) := Nat.pow_le_pow_right (by decide) (by have := hv.1; omega)
    unfold Config.Fits
    omega
  obtain ⟨o, e, -, ho⟩ := oneShotXof_eq cfg m x hv f
  obtain ⟨p, e', -, hp⟩ := oneShotXof_eq cfg m' x hv f
  obtain ⟨o', h, -⟩ := (OutAt.zero ho).readMany prof n (by simpa using hn)
  obtain ⟨p', h', -⟩ := (OutAt.zero hp).readMany prof n (by simpa using hn)
  refine ⟨o, _, o', p, _, p', e, h, e', h', fun j k hj hk' he => hm (mode_eq hk ?_)⟩
  rw [blockOf_slice _ _ _ _ hj, blockOf_slice _ _ _ _ hk', Vector.toList_inj] at he
  simp only [Spec.streamBlock, Spec.root] at he
  rw [Spec.subtree, dif_pos (by omega), Spec.subtree, dif_pos (by omega), Spec.chunk, Spec.chunk, Spec.chunkFrom,
    dif_pos hx, Spec.chunkFrom, dif_pos hx] at he
  have := congrArg Spec.Input.flags (input_eq he hk rfl)
  revert this
  cases m <;> cases m' <;> simp only [Spec.Mode.flag] <;> decide

example : (rep 65 7).length + 3 ≤ 2048 ∧ ((rep 65 7).length + 3 - 1) / 64 = ((rep 65 7).length - 1) / 64 := by simp
example (k : Vector Byte 32) : Spec.Mode.keyedHash k ≠ .deriveKey k ∧
    (Spec.Mode.keyedHash k).key = (Spec.Mode.deriveKey k).key ∧ (rep 64 7).length ≤ 64 :=
  ⟨by simp, rfl, by simp⟩

end Baokeshed.Props
