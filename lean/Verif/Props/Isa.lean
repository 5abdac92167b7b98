import Verif.Proofs.Isa
import Verif.Proofs.Output

/-!
# C52: no instruction is used that the processor does not have

`Model/Isa.lean` records the functions entered.  The statements speak of the `#[target_feature]` of those.
-/

set_option linter.unusedVariables false

namespace Baokeshed.Props.Isa
open Baokeshed.Model Baokeshed.Proofs Baokeshed.Model.I

/-- The processor has the instruction set (according to `is_x86_feature_detected!`), and the code for it was
compiled in. -/
def Has (cfg : Config) : Isa → Prop
  | .sse41 => cfg.x86 = true ∧ cfg.hasSse41 = true
  | .avx2 => cfg.x86 = true ∧ cfg.hasAvx2 = true

/-- The processor has what the function was compiled for. -/
def Runs (cfg : Config) (c : Ev) : Prop := ∀ i, c.isa = some i → Has cfg i

/-- What every processor does: those with AVX2 have SSE4.1. -/
def Sane (cfg : Config) : Prop := cfg.hasAvx2 = true → cfg.hasSse41 = true

theorem has_of_needs (cfg : Config) (hs : Sane cfg) (i : Isa)
    (h : i ∈ Proofs.I.needs (Platform.detect cfg)) : Has cfg i := by
  unfold Platform.detect at h
  split at h
  next hx =>
    split at h
    next ha =>
      simp only [Proofs.I.needs, List.mem_cons, List.not_mem_nil, or_false] at h
      rcases h with rfl | rfl
      · exact ⟨hx, hs ha⟩
      · exact ⟨hx, ha⟩
    next =>
      split at h
      next h4 =>
        simp only [Proofs.I.needs, List.mem_cons, List.not_mem_nil, or_false] at h
        cases h
        exact ⟨hx, h4⟩
      next => cases h
  next => cases h

/-- C52.  The recording model computes what the model of lib.rs computes. -/
theorem C52_same_results (cfg : Config) (prof : Profile) (m : Spec.Mode) (input : Bytes) (h : Hasher)
    (cs : List HCall) (o : Output) (os : List OutCall) :
    (I.oneShot cfg m input).res = Model.oneShot cfg m input ∧
    (I.oneShotXof cfg m input).res = Model.oneShotXof cfg m input ∧
    (I.Output.run prof os o).res = o.run prof os ∧ (I.Hasher.session cfg prof cs h).res = h.session cfg prof cs :=
  ⟨Proofs.I.oneShot_res .., Proofs.I.oneShotXof_res .., Proofs.I.run_res .., Proofs.I.session_res ..⟩

/-- C52.  The one-shot functions, with any calls on the `Output` they return, enter only functions compiled for
instruction sets that the processor has. -/
theorem C52_one_shot (cfg : Config) (hs : Sane cfg) (prof : Profile) (m : Spec.Mode) (input : Bytes)
    (os : List OutCall) :
    (∀ c ∈ (I.oneShot cfg m input).log, Runs cfg c) ∧
    (∀ c ∈ (I.oneShotRun cfg prof m input os).log, Runs cfg c) :=
  ⟨fun c hc i hi => has_of_needs cfg hs i ((Proofs.I.on_oneShot cfg m input).1 c hc i hi),
    fun c hc i hi => has_of_needs cfg hs i ((Proofs.I.on_oneShotRun cfg prof m input os).1 c hc i hi)⟩

/-- C52.  So does every sequence of calls on a new hasher and on the `Output`s it returns, also if one of them
panics. -/
theorem C52_incremental (cfg : Config) (hs : Sane cfg) (prof : Profile) (m : Spec.Mode) (cs : List HCall) :
    ∀ c ∈ (I.Hasher.session cfg prof cs (newHasher cfg m)).log, Runs cfg c :=
  fun c hc i hi => has_of_needs cfg hs i
    ((Proofs.I.on_session _ cfg prof cs _ (Proofs.I.newHasher_platform cfg m)).1 c hc i hi)

/-- C52.  Likewise a hasher that is updated with any pieces and asked for the hash with `finalize`; the recording version returns what
the function does. -/
theorem C52_finalize (cfg : Config) (hs : Sane cfg) (m : Spec.Mode) (ss : List Bytes) :
    (I.Hasher.updates cfg (newHasher cfg m) ss >>= I.Hasher.finalize).res =
      ((newHasher cfg m).updates cfg ss >>= Hasher.finalize) ∧
    ∀ c ∈ (I.Hasher.updates cfg (newHasher cfg m) ss >>= I.Hasher.finalize).log, Runs cfg c := by
  constructor
  · rw [Proofs.I.res_bind, Proofs.I.updates_res]
    simp only [Proofs.I.finalize_res]
  · have hu : ∀ (h : Hasher), Proofs.I.HasP (Platform.detect cfg) h →
        Proofs.I.On (Platform.detect cfg) (Proofs.I.HasP (Platform.detect cfg)) (I.Hasher.updates cfg h ss) := by
      induction ss with
      | nil => exact fun h hp => .pure hp
      | cons s ss ih => exact fun h hp => (Proofs.I.on_update _ cfg h s hp).bind fun h hp => ih h hp
    have hf := (hu _ (Proofs.I.newHasher_platform cfg m)).bind (f := I.Hasher.finalize) (Q' := fun _ => True) fun h hp =>
      (Proofs.I.on_finalize_xof _ h hp).bind fun o ho => Proofs.I.on_to_hash _ o ho
    exact fun c hc i hi => has_of_needs cfg hs i (hf.1 c hc i hi)

/-- C52.  The code relies on `Sane`, which it does not check: on a processor with AVX2 and without SSE4.1 every
one-shot hash would execute a function compiled for SSE4.1. -/
theorem C52_proviso (cfg : Config) (hv : cfg.Valid) (m : Spec.Mode) (input : Bytes)
    (hf : cfg.Fits input.length) (hx : cfg.x86 = true) (ha : cfg.hasAvx2 = true) (hs : cfg.hasSse41 = false) :
    ∃ c ∈ (I.oneShot cfg m input).log, ¬ Runs cfg c := by
  obtain ⟨o, e, -, -⟩ := oneShotXof_eq cfg m input hv hf
  have hr : (I.oneShotXof cfg m input).res = .ok o := (Proofs.I.oneShotXof_res cfg m input).trans e
  have hp : o.platform = Platform.detect cfg := (Proofs.I.on_oneShotXof cfg m input).2 o hr
  have hd : Platform.detect cfg = .avx2 := by unfold Platform.detect; rw [if_pos hx, if_pos ha]
  rw [hd] at hp
  have el : (I.oneShot cfg m input).log =
      (I.oneShotXof cfg m input).log ++ (I.Output.to_hash o).log := by
    unfold I.oneShot
    generalize I.oneShotXof cfg m input = x at hr
    obtain ⟨r, l⟩ := x
    cases hr
    rfl
  refine ⟨.compress true o.flags, ?_, fun h => absurd ((h .sse41 rfl).2.symm.trans hs) (by decide)⟩
  rw [el, List.mem_append]
  right
  show _ ∈ (I.compress o.platform _ _ _ _ _).log ++ _
  rw [hp]
  exact List.mem_append_left _ (List.mem_singleton.2 rfl)

/-! ## The hypotheses can be met -/

def haswell : Config := ⟨true, true, true, 64⟩
def arm : Config := ⟨false, false, false, 64⟩
def odd : Config := ⟨true, true, false, 64⟩

example : Sane haswell ∧ Sane arm ∧ ¬ Sane odd := by unfold Sane; decide
example : odd.Valid ∧ odd.Fits 5000 := by
  show (16 ≤ 64 ∧ 64 ≤ 64) ∧ 5000 < 2 ^ 63
  decide
/-- on this processor a function for SSE4.1 is entered -/
example (m : Spec.Mode) : ∃ c ∈ (I.Hasher.session haswell .debug [.output [.toHash]] (newHasher haswell m)).log,
    c.isa = some .sse41 := by
  cases m <;> exact ⟨_, List.mem_cons_self .., rfl⟩
/-- on that one none is -/
example (m : Spec.Mode) (input : Bytes) : ∀ c ∈ (I.oneShot arm m input).log, c.isa = none := by
  intro c hc
  have := (C52_one_shot arm (by unfold Sane; decide) .debug m input []).1 c hc
  rcases e : c.isa with _ | i
  · rfl
  · have := this i e
    cases i <;> exact absurd this.1 (by decide)

end Baokeshed.Props.Isa
