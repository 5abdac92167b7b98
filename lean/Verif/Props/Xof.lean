import Verif.Props.OneShot

/-!
# C04, C05, C06, C12: `Output`

`Spec.output m input n` are the first `n` bytes of the specified output stream of `input` in mode
`m`, `Spec.streamByte m input i` is byte number `i`.
-/

namespace Baokeshed.Props
open Baokeshed.Model Baokeshed.Proofs

/-- C04.  `n` reads from a fresh output return the first `64 n` bytes of the stream, in debug and
release builds. -/
theorem C04_reads (cfg : Config) (hv : cfg.Valid) (m : Spec.Mode) (input : Bytes)
    (hf : cfg.Fits input.length) (prof : Profile) :
    ∃ o, oneShotXof cfg m input = .ok o ∧
      ∀ n ≤ 2 ^ 58 - 1, ∃ o', o.readMany prof n = .ok (Spec.output m input (64 * n), o') := by
  obtain ⟨o, e, -, ho⟩ := oneShotXof_eq cfg m input hv hf
  refine ⟨o, e, fun n hn => ?_⟩
  obtain ⟨o', h, -⟩ := (OutAt.zero ho).readMany prof n (Or.inr (by omega))
  exact ⟨o', by rw [h, output_eq_slice]⟩

/-- C04, single read: the read after `k` others returns bytes `64 k .. 64 k + 63`. -/
theorem C04_kth_read (cfg : Config) (hv : cfg.Valid) (m : Spec.Mode) (input : Bytes)
    (hf : cfg.Fits input.length) (prof : Profile) (k : Nat) (hk : k < 2 ^ 58 - 1) :
    ∃ o bs o' b o'', oneShotXof cfg m input = .ok o ∧ o.readMany prof k = .ok (bs, o') ∧
      o'.read prof = .ok (b, o'') ∧ ∀ i (h : i < 64), b[i] = Spec.streamByte m input (64 * k + i) := by
  obtain ⟨o, e, -, ho⟩ := oneShotXof_eq cfg m input hv hf
  obtain ⟨o', h, h', -⟩ := (OutAt.zero ho).readMany prof k (Or.inr (by omega))
  rw [Nat.zero_add] at h'
  refine ⟨o, _, o', _, _, e, h, h'.read prof (Or.inr hk), fun i hi => ?_⟩
  have e1 : (64 * k + i) / 64 = k := by omega
  have e2 : (64 * k + i) % 64 = i := by omega
  simp only [Spec.streamByte, e1, e2]

example : exSse41.Valid ∧ exSse41.Fits (rep 4097 3).length ∧ 2 ^ 40 ≤ 2 ^ 58 - 1 := by simp

/-- C05.  `to_hash` of a fresh output is the default hash and the first 32 bytes of the first read. -/
theorem C05_hash_is_prefix (cfg : Config) (hv : cfg.Valid) (m : Spec.Mode) (input : Bytes)
    (hf : cfg.Fits input.length) (prof : Profile) :
    ∃ o b o', oneShotXof cfg m input = .ok o ∧ o.read prof = .ok (b, o') ∧
      oneShot cfg m input = .ok o.to_hash ∧ o.to_hash.toList = b.toList.take 32 := by
  obtain ⟨o, e, -, ho⟩ := oneShotXof_eq cfg m input hv hf
  have h0 := OutAt.zero ho
  refine ⟨o, _, _, e, h0.read prof (Or.inr (by decide)), oneShot_of_xof cfg m input o e, ?_⟩
  rw [h0.to_hash, slice_block _ _ _ _ (by decide)]

/-- What a sequence of calls should return when `k` blocks have been read before: a read returns the
next 64 bytes and moves on, `to_hash` returns the next 32 bytes and does not move. -/
def expected (m : Spec.Mode) (input : Bytes) : Nat → List OutCall → List Bytes
  | _, [] => []
  | k, .read :: cs => (List.range 64).map (fun i => Spec.streamByte m input (64 * k + i)) :: expected m input (k + 1) cs
  | k, .toHash :: cs => (List.range 32).map (fun i => Spec.streamByte m input (64 * k + i)) :: expected m input k cs

theorem run_eq (m : Spec.Mode) (input : Bytes) (prof : Profile) (cs : List OutCall) : ∀ (o : Output) (k : Nat),
    OutAt o m input k → k + cs.count .read ≤ 2 ^ 58 - 1 →
    ∃ o', o.run prof cs = .ok (expected m input k cs, o') := by
  induction cs with
  | nil => intro o k _ _; exact ⟨o, rfl⟩
  | cons c cs ih =>
    intro o k h hk
    cases c with
    | read =>
      rw [List.count_cons_self] at hk
      obtain ⟨o', e⟩ := ih _ _ h.next (by omega)
      refine ⟨o', ?_⟩
      rw [Output.run, h.read prof (Or.inr (by omega)), bind_ok]
      dsimp only
      rw [e, bind_ok, pure_eq]
      refine congrArg Except.ok (Prod.ext (congrArg (· :: _) ?_) rfl)
      have := slice_block m input k 64 (by decide)
      rw [List.take_of_length_le (by simp)] at this
      exact this.symm
    | toHash =>
      rw [List.count_cons_of_ne (by decide)] at hk
      obtain ⟨o', e⟩ := ih _ _ h hk
      refine ⟨o', ?_⟩
      rw [Output.run]
      dsimp only
      rw [e, bind_ok, pure_eq]
      exact congrArg Except.ok (Prod.ext (congrArg (· :: _) h.to_hash) rfl)

/-- C06.  In any interleaving of `read` and `to_hash` every call returns what `expected` says: reads
are consecutive blocks, and `to_hash` after `k` reads returns bytes `64 k .. 64 k + 31` (not the
default hash, unless `k = 0`), without moving the position. -/
theorem C06_interleaved (cfg : Config) (hv : cfg.Valid) (m : Spec.Mode) (input : Bytes)
    (hf : cfg.Fits input.length) (prof : Profile) (cs : List OutCall) (hc : cs.count .read ≤ 2 ^ 58 - 1) :
    ∃ o o', oneShotXof cfg m input = .ok o ∧ o.run prof cs = .ok (expected m input 0 cs, o') := by
  obtain ⟨o, e, -, ho⟩ := oneShotXof_eq cfg m input hv hf
  obtain ⟨o', h⟩ := run_eq m input prof cs o 0 (OutAt.zero ho) (by omega)
  exact ⟨o, o', e, h⟩

/-- C06 in one instance: hash, read, hash. -/
theorem C06_to_hash_after_read (cfg : Config) (hv : cfg.Valid) (m : Spec.Mode) (input : Bytes)
    (hf : cfg.Fits input.length) (prof : Profile) (k : Nat) (hk : k ≤ 2 ^ 58 - 1) :
    ∃ o bs o', oneShotXof cfg m input = .ok o ∧ o.readMany prof k = .ok (bs, o') ∧
      ∀ i (h : i < 32), o'.to_hash[i] = Spec.streamByte m input (64 * k + i) := by
  obtain ⟨o, e, -, ho⟩ := oneShotXof_eq cfg m input hv hf
  obtain ⟨o', h, h', -⟩ := (OutAt.zero ho).readMany prof k (Or.inr (by omega))
  rw [Nat.zero_add] at h'
  refine ⟨o, _, o', e, h, fun i hi => ?_⟩
  have := List.getElem_of_eq h'.to_hash (i := i) (by simpa using hi)
  simpa [slice] using this

example : [OutCall.toHash, .read, .toHash, .toHash, .read].count .read ≤ 2 ^ 58 - 1 := by decide

/-- C12.  After the first `2^58 - 1` reads (all of which succeed), the next one panics in a build
with overflow checks. -/
theorem C12_debug_last_read_panics (cfg : Config) (hv : cfg.Valid) (m : Spec.Mode) (input : Bytes)
    (hf : cfg.Fits input.length) :
    ∃ o bs o', oneShotXof cfg m input = .ok o ∧ o.readMany .debug (2 ^ 58 - 1) = .ok (bs, o') ∧
      o'.read .debug = .error .overflow := by
  obtain ⟨o, e, -, ho⟩ := oneShotXof_eq cfg m input hv hf
  obtain ⟨o', h, h', -⟩ := (OutAt.zero ho).readMany .debug (2 ^ 58 - 1) (Or.inr (by omega))
  rw [Nat.zero_add] at h'
  exact ⟨o, _, o', e, h, h'.read_last rfl⟩

/-- C12.  Without overflow checks any number of reads succeeds, and the stream repeats: byte number
`i` read is stream byte `i % 2^64`. -/
theorem C12_release_wraps (cfg : Config) (hv : cfg.Valid) (m : Spec.Mode) (input : Bytes)
    (hf : cfg.Fits input.length) :
    ∃ o, oneShotXof cfg m input = .ok o ∧
      ∀ n, ∃ o', o.readMany .release n =
        .ok ((List.range (64 * n)).map (fun i => Spec.streamByte m input (i % 2 ^ 64)), o') := by
  obtain ⟨o, e, -, ho⟩ := oneShotXof_eq cfg m input hv hf
  refine ⟨o, e, fun n => ?_⟩
  obtain ⟨o', h, -⟩ := (OutAt.zero ho).readMany .release n (Or.inl rfl)
  refine ⟨o', ?_⟩
  rw [h]
  refine congrArg Except.ok (Prod.ext (List.map_congr_left fun i _ => ?_) rfl)
  have e1 : (0 + i) % 64 = i % 2 ^ 64 % 64 := by omega
  have e2 : BitVec.ofNat 64 (64 * ((64 * 0 + i) / 64)) = BitVec.ofNat 64 (64 * (i % 2 ^ 64 / 64)) := by
    apply BitVec.eq_of_toNat_eq
    rw [BitVec.toNat_ofNat, BitVec.toNat_ofNat]
    omega
  simp only [Spec.streamByte, Spec.streamBlock, e2, Nat.mul_zero, e1]

/-- C12, the repetition itself: the block read after `2^58` reads is the first one again. -/
theorem C12_release_restarts (cfg : Config) (hv : cfg.Valid) (m : Spec.Mode) (input : Bytes)
    (hf : cfg.Fits input.length) :
    ∃ o bs o' b o1 o2, oneShotXof cfg m input = .ok o ∧ o.readMany .release (2 ^ 58) = .ok (bs, o') ∧
      o.read .release = .ok (b, o1) ∧ o'.read .release = .ok (b, o2) := by
  obtain ⟨o, e, -, ho⟩ := oneShotXof_eq cfg m input hv hf
  obtain ⟨o', h, h', -⟩ := (OutAt.zero ho).readMany .release (2 ^ 58) (Or.inl rfl)
  rw [Nat.zero_add] at h'
  have := h'.read .release (Or.inl rfl)
  have e2 : Spec.streamBlock m input (2 ^ 58) = Spec.streamBlock m input 0 := by
    rw [Spec.streamBlock, Spec.streamBlock]
    rfl
  rw [e2] at this
  exact ⟨o, _, o', _, _, _, e, h, (OutAt.zero ho).read .release (Or.inl rfl), this⟩

end Baokeshed.Props
