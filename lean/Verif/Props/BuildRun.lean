import Verif.Props.Build
import Verif.Props.CLanes

/-!
# C91: what has been built computes the hash, with instructions that the processor has

build.rs decides which files are compiled, and passes macros to c/baokeshed.c.  Here the two models meet: the macros of a
build (Model/Build.lean) select the functions that the C hasher calls (Model/C/Hasher.lean, Model/C/Isa.lean).
-/

set_option linter.unusedVariables false

namespace Baokeshed.Props.BuildRun
open Baokeshed Baokeshed.Model Baokeshed.Model.Build Baokeshed.Props Baokeshed.Props.Build Baokeshed.Props.CLanes

/-! ## Specification -/

/-- The macros with which c/baokeshed.c is compiled. -/
def macros (b : Built) : List String := (b.units.filter fun u => decide (CFile.main ∈ u.files)).flatMap (·.defines)

/-- The compiled C library on a machine `env` (width of `size_t`, byte order, content of uninitialised memory, `assert`s). -/
def program (b : Built) (env : C.Config) : C.Config :=
  { env with
    avx512 := decide ("BAOKESHED_USE_AVX512" ∈ macros b)
    avx2 := decide ("BAOKESHED_USE_AVX2" ∈ macros b)
    sse41 := decide ("BAOKESHED_USE_SSE41" ∈ macros b)
    neon := decide ("BAOKESHED_USE_NEON" ∈ macros b) }

/-- The file for an instruction set. -/
def fileFor : Option CI.Isa → CFile
  | none => .portable
  | some .sse41 => .sse41
  | some .avx2 => .avx2
  | some .avx512 => .avx512
  | some .neon => .neon

/-- The file in which a function is. -/
def fileOf : CI.Ev → CFile
  | .copy _ => .main
  | .compress i _ => fileFor i
  | .hash1 i _ => fileFor i
  | .hash i _ _ => fileFor (some i)
  | .many i => fileFor i

/-- A build contains a file. -/
def Has (b : Built) (f : CFile) : Prop := ∃ u ∈ b.units, f ∈ u.files

/-! ## The macros -/

theorem program_eq {en : Feature → Bool} {h : Host} {t : List Char} {b : Built} (hp : en .c_portable = true)
    (hb : main en h t = .ok b) (env : C.Config) :
    (program b env).avx512 = (varsOf en h).avx512 ∧ (program b env).avx2 = (varsOf en h).avx2 ∧
    (program b env).sse41 = (varsOf en h).sse41 ∧ (program b env).neon = (varsOf en h).neon := by
  rw [main_ok hp hb]
  have key : ∀ (v : Vars) (w a : Bool), macros ⟨unitsOf v w a, v⟩ =
      (if v.sse41 then ["BAOKESHED_USE_SSE41"] else []) ++ (if v.avx2 then ["BAOKESHED_USE_AVX2"] else []) ++
      (if v.avx512 then ["BAOKESHED_USE_AVX512"] else []) ++ (if v.neon then ["BAOKESHED_USE_NEON"] else []) := by
    rintro ⟨s, x, z, n⟩ w a
    revert s x z n w a
    decide +kernel
  unfold program
  dsimp only
  rw [key]
  generalize varsOf en h = v
  obtain ⟨s, x, z, n⟩ := v
  revert s x z n
  decide +kernel

theorem has_iff {en : Feature → Bool} {h : Host} {t : List Char} {b : Built} (hp : en .c_portable = true)
    (hb : main en h t = .ok b) :
    Has b .main ∧ Has b .portable ∧ (Has b .sse41 ↔ (varsOf en h).sse41 = true) ∧ (Has b .avx2 ↔ (varsOf en h).avx2 = true) ∧
      (Has b .avx512 ↔ (varsOf en h).avx512 = true) ∧ (Has b .neon ↔ (varsOf en h).neon = true) := by
  rw [main_ok hp hb]
  have key : ∀ (v : Vars) (w a : Bool), Has ⟨unitsOf v w a, v⟩ .main ∧ Has ⟨unitsOf v w a, v⟩ .portable ∧
      (Has ⟨unitsOf v w a, v⟩ .sse41 ↔ v.sse41 = true) ∧ (Has ⟨unitsOf v w a, v⟩ .avx2 ↔ v.avx2 = true) ∧
      (Has ⟨unitsOf v w a, v⟩ .avx512 ↔ v.avx512 = true) ∧ (Has ⟨unitsOf v w a, v⟩ .neon ↔ v.neon = true) := by
    rintro ⟨s, x, z, n⟩ w a
    unfold Has
    revert s x z n w a
    decide +kernel
  exact key _ _ _

/-! ## C91 -/

/-- C91.  Whatever features are chosen and whatever machine builds: the compiled hasher returns the hash, the same as the Rust
hasher on whatever machine.  (With the NEON code only on little-endian machines, see C53.) -/
theorem C91_hash (en : Feature → Bool) (h : Host) (target : List Char) (b : Built) (hp : en .c_portable = true)
    (hb : main en h target = .ok b) (env : C.Config) (h16 : 16 ≤ env.bits) (he : en .c_neon = true → env.order = .little)
    (rcfg : Config) (mem : Vector Byte 1664) (m : Spec.Mode) (ss : List (Bytes × Bytes)) (ss' : List Bytes)
    (hlt : (fed ss).length < 2 ^ 63) (hs : ss'.flatten = fed ss) :
    ∃ h₀ h r d, C.Ffi.new mem (modeKey m) m.flag = .ok h₀ ∧ feed (program b env) h₀ ss = .ok h ∧
      C.Ffi.finalize (program b env) h = .ok d ∧ (newHasher rcfg m).updates rcfg ss' = .ok r ∧ r.finalize = .ok d ∧
      d = Spec.hash m (fed ss) := by
  have hn : NeonLittle (program b env) := by
    intro q
    rw [(program_eq hp hb env).2.2.2] at q
    exact he q
  obtain ⟨h₀, h', r, e0, e1, e2, d, e3, e4, e5⟩ :=
    C29_wrapper_eq_rust (program b env) h16 rcfg mem m ss ss' hlt hs (.inl hn)
  exact ⟨h₀, h', r, d, e0, e1, e3, e2, e4, e5⟩

/-- C91.  Every function that the compiled hasher enters, in any sequence of calls, is in a file that was compiled. -/
theorem C91_compiled (en : Feature → Bool) (h : Host) (target : List Char) (b : Built) (hp : en .c_portable = true)
    (hen : Closed en) (hh : h.avx2 = true → h.sse41 = true) (hb : main en h target = .ok b) (env : C.Config)
    (cs : List CCall) (hasher : C.hasher) : ∀ c ∈ (cSessionI (program b env) cs hasher).log, Has b (fileOf c) := by
  intro c hc
  have k := C66_built (program b env) cs hasher c hc
  obtain ⟨v1, v2, v3, v4⟩ := program_eq hp hb env
  obtain ⟨f1, f2, f3, f4, f5, f6⟩ := has_iff hp hb
  have key : ∀ o : Option CI.Isa, (∀ i, o = some i → Spec.CLanes.built (program b env) i) →
      Has b (fileFor o) := by
    intro o ho
    rcases o with _ | i
    · exact f2
    · have q := ho i rfl
      cases i with
      | sse41 =>
        refine f3.2 ?_
        rcases q with q | q
        · exact v3 ▸ q
        · rw [v2] at q
          simp only [varsOf, Bool.or_eq_true, Bool.and_eq_true] at q ⊢
          rcases q with q | ⟨hd, q⟩
          · exact .inl (hen .c_avx2 .c_sse41 q (by decide))
          · exact .inr ⟨hd, hh q⟩
      | avx2 => exact f4.2 (v2 ▸ q)
      | avx512 => exact f5.2 (v1 ▸ q)
      | neon => exact f6.2 (v4 ▸ q)
  cases c with
  | copy n => exact f1
  | compress i f => exact key i k
  | hash1 i n => exact key i k
  | many i => exact key i k
  | hash i l n => exact key (some i) k

/-- C91.  So it executes instructions beyond those of every processor only if the user has asked for them with a feature, or the
machine that built has them and detection was asked for. -/
theorem C91_instructions (en : Feature → Bool) (h : Host) (target : List Char) (b : Built) (hp : en .c_portable = true)
    (hen : Closed en) (hh : h.avx2 = true → h.sse41 = true) (hb : main en h target = .ok b) (env : C.Config)
    (cs : List CCall) (hasher : C.hasher) (c : CI.Ev) (hc : c ∈ (cSessionI (program b env) cs hasher).log)
    (i : Build.Isa) (hi : i ∈ (fileOf c).isas) :
    en (feature i) = true ∨ i ≠ .neon ∧ en .c_detect = true ∧ h.has i = true := by
  obtain ⟨u, hu, hf⟩ := C91_compiled en h target b hp hen hh hb env cs hasher c hc
  exact C50_instructions en h target b hb u hu (fileOf c) hf i hi

/-- C91.  With `c_detect` alone, the program runs on the machine that built it. -/
theorem C91_detect_runs (en : Feature → Bool) (h : Host) (target : List Char) (b : Built) (hd : ∀ f, en f = true ↔ f = .c_detect ∨ f = .c_portable)
    (hh : h.avx2 = true → h.sse41 = true) (hb : main en h target = .ok b) (env : C.Config) (cs : List CCall) (hasher : C.hasher)
    (c : CI.Ev) (hc : c ∈ (cSessionI (program b env) cs hasher).log) : ∀ i ∈ (fileOf c).isas, h.has i = true := by
  intro i hi
  have hen : Closed en := by
    intro f g hf hg
    rcases (hd f).1 hf with rfl | rfl
    · exact (hd g).2 (.inr (List.mem_singleton.1 hg))
    · cases hg
  rcases C91_instructions en h target b ((hd _).2 (.inr rfl)) hen hh hb env cs hasher c hc i hi with q | q
  · rcases (hd _).1 q with q | q <;> cases i <;> cases q
  · exact q.2.2

/-- C91.  And single blocks are compressed with the best function that was asked for or that the detecting machine has. -/
theorem C91_best (en : Feature → Bool) (h : Host) (target : List Char) (b : Built) (hp : en .c_portable = true)
    (hb : main en h target = .ok b) (env : C.Config) (cs : List CCall) (hasher : C.hasher) (i : Option CI.Isa) (f : Byte)
    (hc : CI.Ev.compress i f ∈ (cSessionI (program b env) cs hasher).log) :
    (i = some .avx512 ↔ en .c_avx512 = true ∨ en .c_detect = true ∧ h.avx512f = true ∧ h.avx512vl = true) ∧
    (i = none ↔ ¬ (en .c_avx512 = true ∨ en .c_detect = true ∧ h.avx512f = true ∧ h.avx512vl = true) ∧
      ¬ (en .c_sse41 = true ∨ en .c_detect = true ∧ h.sse41 = true)) ∧ i ≠ some .avx2 ∧ i ≠ some .neon := by
  have k := C66_best (program b env) cs hasher i f hc
  obtain ⟨v1, -, v3, -⟩ := program_eq hp hb env
  subst k
  unfold Spec.CLanes.best
  rw [v1, v3]
  have a1 : (varsOf en h).avx512 = true ↔ en .c_avx512 = true ∨ en .c_detect = true ∧ h.avx512f = true ∧ h.avx512vl = true := by
    simp [varsOf, Host.is_avx512_detected]
  have a2 : (varsOf en h).sse41 = true ↔ en .c_sse41 = true ∨ en .c_detect = true ∧ h.sse41 = true := by
    simp [varsOf]
  rw [← a1, ← a2]
  generalize (varsOf en h).avx512 = z
  generalize (varsOf en h).sse41 = s
  revert z s
  decide +kernel

/-! ## The hypotheses can be met -/

def exEnv : C.Config := ⟨false, false, false, false, true, true, 64, fun _ => 7, .little⟩

example : (main (only [.c_portable, .c_detect]) skylake linux).toOption.map (fun b =>
    ((program b exEnv).avx512, (program b exEnv).avx2, (program b exEnv).sse41, (program b exEnv).neon)) =
    some (true, true, true, false) := by decide +kernel
example : (∀ f, only [.c_portable, .c_detect] f = true ↔ f = .c_detect ∨ f = .c_portable) ∧
    (skylake.avx2 = true → skylake.sse41 = true) := by
  refine ⟨fun f => ?_, by decide⟩
  cases f <;> decide
example : (fed [(rep 5000 1, []), (rep 7 2, [3])]).length < 2 ^ 63 ∧ [rep 5000 1, rep 7 2].flatten = fed [(rep 5000 1, []), (rep 7 2, [3])] := by
  simp [fed]

end Baokeshed.Props.BuildRun
