import Verif.Proofs.Rayon
import Verif.Proofs.Output
import Verif.Props.Ex
import Verif.Props.OneShot

/-!
# C28: thread scheduling cannot affect the result

Model/Rayon.lean gives the one-shot functions with the `rayon` feature as processes over shared memory; the two
sides of every `join` interleave arbitrarily.
-/

set_option linter.unusedVariables false

namespace Baokeshed.Props
open Baokeshed.Model Baokeshed.Model.Par Baokeshed.Proofs

theorem fits_bounds {cfg : Config} {n : Nat} (hv : cfg.Valid) (hf : cfg.Fits n) : n < 2 ^ cfg.usizeBits ∧ n < 2 ^ 64 :=
  have hw := Nat.lt_of_lt_of_le hf (Nat.pow_le_pow_right (by decide) (Nat.sub_le _ _))
  ⟨hw, Nat.lt_of_lt_of_le hw (Nat.pow_le_pow_right (by decide) hv.2)⟩

/-- C28.  Of an input longer than a chunk: every execution, from any memory, makes the same number of steps and then has
returned normally; before, some thread can go on, none has panicked or touched memory that is not allocated, and no two
threads race. -/
theorem C28_every_schedule (cfg : Config) (hv : cfg.Valid) (key : Vector Word 8) (flags : Byte) (input : Bytes)
    (hf : cfg.Fits input.length) (hlt : CHUNK_LEN < input.length) (m : Mem) :
    ∃ (s n : Nat) (mf : Mem), ∀ t P' m', Steps t (Par.root cfg input key flags) m P' m' →
      t ≤ s ∧ ¬ Race P' ∧ (∀ e, P' ≠ .done (.error e)) ∧ (t = s → P' = .done (.ok n) ∧ m' = mf) ∧
      (t < s → ∃ P'' m'', Step P' m' P'' m'') := by
  obtain ⟨n, mf, s, hr, -⟩ := run_root cfg input key flags (fits_bounds hv hf).1 (fits_bounds hv hf).2 hlt m
  refine ⟨s, n, mf, fun t P' m' hs => ?_⟩
  obtain ⟨hsep, s', rfl, hr'⟩ := steps_run hs _ _ _ _ (sep_root cfg input key flags) hr
  refine ⟨by omega, fun h => no_race h _ hsep, ?_, ?_, ?_⟩
  · rintro e rfl
    rw [Par.run] at hr'
    cases hr'
  · intro ht
    obtain rfl : s' = 0 := by omega
    exact run_zero hr'
  · intro ht
    rcases progress P' m' with ⟨r, rfl⟩ | h
    · rw [Par.run] at hr'
      simp only [Prod.mk.injEq] at hr'
      omega
    · exact h

-- non-vacuity: 20 chunks on AVX2, three chunks without SIMD
example : exAvx2.Valid ∧ exAvx2.Fits (rep 40000 1).length ∧ CHUNK_LEN < (rep 40000 1).length := by
  simp [CHUNK_LEN]
example : exSmall.Valid ∧ exSmall.Fits (rep 5000 1).length ∧ CHUNK_LEN < (rep 5000 1).length := by
  simp [CHUNK_LEN]

/-- There is a schedule that ends. -/
theorem steps_exist (s : Nat) : ∀ {P : Proc} {m mf : Mem} {n : Nat} {F : Foot}, Sep F P → Par.run P m = (.ok n, mf, s) →
    Steps s P m (.done (.ok n)) mf := by
  induction s with
  | zero =>
    intro P m mf n F hs h
    obtain ⟨rfl, rfl⟩ := run_zero h
    exact .refl
  | succ s ih =>
    intro P m mf n F hs h
    rcases progress P m with ⟨r, rfl⟩ | ⟨P', m', hst⟩
    · rw [Par.run] at h
      simp at h
    · obtain ⟨hs', -, s', e, h'⟩ := step_run hst F n _ mf hs h
      obtain rfl : s' = s := by omega
      exact .step hst (ih hs' h')

/-- C28, for any key words and flags: what `hash_internal` can return with threads is what it returns without. -/
theorem C28_internal (cfg : Config) (hv : cfg.Valid) (key : Vector Word 8) (flags : Byte) (input : Bytes)
    (hf : cfg.Fits input.length) (x : R Output) :
    HashInternal cfg input key flags x ↔ x = Model.hash_internal cfg input key flags := by
  constructor
  · intro h
    cases h with
    | small hle => rw [Model.hash_internal, if_pos hle]
    | @large t m m' r hlt hs =>
      obtain ⟨n, mf, s, hr, hfin⟩ := run_root cfg input key flags (fits_bounds hv hf).1 (fits_bounds hv hf).2 hlt m
      obtain ⟨hsep, s', rfl, hr'⟩ := steps_run hs _ _ _ _ (sep_root cfg input key flags) hr
      rw [Par.run] at hr'
      simp only [Prod.mk.injEq, Except.ok.injEq] at hr'
      obtain ⟨rfl, rfl, -⟩ := hr'
      exact hfin
    | @panic t m m' e hlt hs =>
      obtain ⟨n, mf, s, hr, hfin⟩ := run_root cfg input key flags (fits_bounds hv hf).1 (fits_bounds hv hf).2 hlt m
      obtain ⟨hsep, s', rfl, hr'⟩ := steps_run hs _ _ _ _ (sep_root cfg input key flags) hr
      rw [Par.run] at hr'
      cases hr'
  · rintro rfl
    by_cases hle : input.length ≤ CHUNK_LEN
    · rw [Model.hash_internal, if_pos hle]
      exact .small hle
    · obtain ⟨n, mf, s, hr, hfin⟩ := run_root cfg input key flags (fits_bounds hv hf).1 (fits_bounds hv hf).2
        (by omega) (fun _ _ => none)
      rw [← hfin]
      exact .large (by omega) (steps_exist s (sep_root cfg input key flags) hr)

/-- C28.  With threads, the functions that return an `Output` return what they return without. -/
theorem C28_xof (cfg : Config) (hv : cfg.Valid) (m : Spec.Mode) (input : Bytes) (hf : cfg.Fits input.length) (x : R Output) :
    OneShotXof cfg m input x ↔ x = oneShotXof cfg m input := by
  cases m with
  | hash => exact C28_internal cfg hv _ _ input hf x
  | keyedHash k => exact C28_internal cfg hv _ _ input hf x
  | deriveKey k => exact C28_internal cfg hv _ _ input hf x

/-- C28.  With threads, `hash`, `keyed_hash` and `derive_key` return the specified hash, whatever the schedule. -/
theorem C28_hash (cfg : Config) (hv : cfg.Valid) (m : Spec.Mode) (input : Bytes) (hf : cfg.Fits input.length)
    (r : R (Vector Byte 32)) : OneShot cfg m input r ↔ r = .ok (Spec.hash m input) := by
  obtain ⟨o, e, -, -⟩ := oneShotXof_eq cfg m input hv hf
  have he := oneShot_of_xof cfg m input o e
  rw [C01_one_shot_eq_spec cfg hv m input hf] at he
  have : ∀ x, OneShotXof cfg m input x ↔ x = .ok o := fun x => by rw [C28_xof cfg hv m input hf, e]
  rw [he]
  constructor
  · rintro ⟨x, hx, rfl⟩
    rw [(this x).1 hx]
    rfl
  · rintro rfl
    exact ⟨_, (this _).2 rfl, rfl⟩

-- a race is possible in the model: two sides of a join writing the same byte
example : Race (.join (.write [] 0 1 (.done (.ok 0))) (.write [] 0 2 (.done (.ok 0))) fun _ _ => .done (.ok 0)) :=
  .here .write .write (Or.inl rfl)

-- and then the memory depends on the schedule
example : ∃ (P : Proc) (m m1 m2 : Mem), Steps 3 P m (.done (.ok 0)) m1 ∧ Steps 3 P m (.done (.ok 0)) m2 ∧ m1 [] 0 ≠ m2 [] 0 := by
  refine ⟨.join (.write [] 0 1 (.done (.ok 0))) (.write [] 0 2 (.done (.ok 0))) fun _ _ => .done (.ok 0),
    fun _ _ => some 0, _, _, .step (.left (.write rfl)) (.step (.right (.write rfl)) (.step .join .refl)),
    .step (.right (.write rfl)) (.step (.left (.write rfl)) (.step .join .refl)), by decide⟩

end Baokeshed.Props
