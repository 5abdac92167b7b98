import Verif.Model.Build

/-!
# C50, C51: what the build script builds

The statements below speak of the target triple through its characters, of the linker through the
symbols that object files define and need, and of a CPU through its instruction sets.
-/

set_option linter.unusedVariables false

namespace Baokeshed.Props.Build

open Baokeshed Baokeshed.Model.Build

/-! ## Specification -/

/-- Cargo enables the features that an enabled feature names. -/
def Closed (en : Feature → Bool) : Prop :=
  ∀ f g, en f = true → g ∈ f.deps → en g = true

/-- Everything defined by the object files of a build, with repetitions. -/
def defined (b : Built) : List String :=
  b.units.flatMap fun u => u.files.flatMap CFile.defs

/-- The linker has nothing to complain about: no function has two definitions, and each function that
an object file calls or the crate declares has one. -/
def Links (en : Feature → Bool) (b : Built) : Prop :=
  (defined b).Nodup ∧
  (∀ u ∈ b.units, ∀ f ∈ u.files, ∀ s ∈ f.refs u.defines, s ∈ defined b) ∧
  (∀ s ∈ rustRefs (en .c_portable) b.cfg, s ∈ defined b)

instance (en : Feature → Bool) (b : Built) : Decidable (Links en b) := by
  unfold Links; infer_instance

/-- The part before the first `-`, and the part after it. -/
def before (t : List Char) : List Char := t.takeWhile (· ≠ '-')
def after (t : List Char) : List Char := (t.dropWhile (· ≠ '-')).drop 1

/-- The architecture in a target triple such as `x86_64-unknown-linux-gnu`. -/
def arch (t : List Char) : List Char := before t

/-- Its operating system. -/
def os (t : List Char) : List Char := before (after (after t))

/-- The option with which gcc and clang offer the intrinsics of an instruction set of x86. -/
def option : Isa → Option String
  | .sse41 => some "-msse4.1"
  | .avx2 => some "-mavx2"
  | .avx512f => some "-mavx512f"
  | .avx512vl => some "-mavx512vl"
  | .neon => none

/-- The feature that asks for an instruction set. -/
def feature : Isa → Feature
  | .sse41 => .c_sse41
  | .avx2 => .c_avx2
  | .avx512f => .c_avx512
  | .avx512vl => .c_avx512
  | .neon => .c_neon

/-! ## `split` -/

theorem split_eq (t : List Char) :
    split t = before t :: (if '-' ∈ t then split (after t) else []) := by
  induction t with
  | nil => simp [split, before]
  | cons c cs ih =>
    by_cases h : c = '-'
    · subst h; simp [split, before, after]
    · rw [split, if_neg h, ih]
      have h' : ¬ '-' = c := fun e => h e.symm
      simp [before, after, h, h']

theorem split_zero (t : List Char) : (split t)[0]? = some (arch t) := by
  rw [split_eq]; rfl

theorem mem_after_iff (t : List Char) : '-' ∈ t ↔ 0 < t.count '-' := by
  rw [List.count_pos_iff]

theorem count_after (t : List Char) (h : '-' ∈ t) : t.count '-' = (after t).count '-' + 1 := by
  induction t with
  | nil => cases h
  | cons c cs ih =>
    by_cases hc : c = '-'
    · subst hc; simp [after]
    · have h' : '-' ∈ cs := by
        cases h with
        | head => exact absurd rfl hc
        | tail _ h => exact h
      have := ih h'
      have e : after (c :: cs) = after cs := by simp [after, hc]
      rw [e, List.count_cons_of_ne hc, this]

theorem split_two (t : List Char) :
    (split t)[2]? = if 2 ≤ t.count '-' then some (os t) else none := by
  rw [split_eq]
  by_cases h : '-' ∈ t
  · rw [if_pos h, split_eq]
    have c := count_after t h
    by_cases h2 : '-' ∈ after t
    · have c2 := count_after _ h2
      rw [if_pos h2, split_eq, if_pos (show 2 ≤ t.count '-' by omega)]
      rfl
    · have : (after t).count '-' = 0 := by rwa [List.count_eq_zero]
      rw [if_neg h2, if_neg (by omega)]
      rfl
  · have : t.count '-' = 0 := by rwa [List.count_eq_zero]
    rw [if_neg h, if_neg (by omega)]
    rfl

/-! ## The units -/

/-- The units that build.rs compiles for these variables. -/
def unitsOf (v : Vars) (w a : Bool) : List Model.Build.Unit :=
    [{ files := [.portable, .portable64], flags := newFlags w, defines := [] }] ++
    (if v.sse41 then [sse41Unit w] else []) ++
    (if v.avx2 then [avx2Unit w] else []) ++
    (if v.avx512 then [avx512Unit w] else []) ++
    (if v.neon then [neonUnit w a] else []) ++
    [{ files := [.main], flags := newFlags w,
       defines :=
        (if v.sse41 then ["BAOKESHED_USE_SSE41"] else []) ++
        (if v.avx2 then ["BAOKESHED_USE_AVX2"] else []) ++
        (if v.avx512 then ["BAOKESHED_USE_AVX512"] else []) ++
        (if v.neon then ["BAOKESHED_USE_NEON"] else []) }]

def varOf (v : Vars) : Isa → Bool
  | .sse41 => v.sse41
  | .avx2 => v.avx2
  | .avx512f => v.avx512
  | .avx512vl => v.avx512
  | .neon => v.neon

def varsOf (en : Feature → Bool) (h : Host) : Vars :=
  { sse41 := en .c_sse41 || en .c_detect && h.sse41
    avx2 := en .c_avx2 || en .c_detect && h.avx2
    avx512 := en .c_avx512 || en .c_detect && h.is_avx512_detected
    neon := en .c_neon }

theorem detect_eq (h : Host) (v : Vars) (hx : h.x86 = true) :
    detect_x86_features h v =
      .ok ⟨v.sse41 || h.sse41, v.avx2 || h.avx2, v.avx512 || h.is_avx512_detected, v.neon⟩ := by
  unfold detect_x86_features
  rw [if_pos hx]
  obtain ⟨a, b, c, d⟩ := v
  generalize h.is_avx512_detected = z
  generalize h.sse41 = x
  generalize h.avx2 = y
  cases x <;> cases y <;> cases z <;> simp [pure, Except.pure]

theorem main_eq (en : Feature → Bool) (h : Host) (t : List Char) :
    main en h t =
      if en .c_portable = false then
        .ok ⟨[], ⟨en .c_sse41, en .c_avx2, en .c_avx512, en .c_neon⟩⟩
      else if t.count '-' < 2 then .error .bounds
      else if en .c_detect = true ∧
          ¬((arch t = "x86".toList ∨ arch t = "x86_64".toList) ∧ h.x86 = true) then .error .assert
      else .ok ⟨unitsOf (varsOf en h) (os t = "windows".toList) (arch t = "armv7".toList),
          varsOf en h⟩ := by
  unfold main
  simp only [split_zero, split_two]
  by_cases hp : en .c_portable = false
  · rw [if_pos hp]; simp [hp, pure, Except.pure]
  have hp' : en .c_portable = true := by simpa using hp
  by_cases hc : t.count '-' < 2
  · rw [if_neg hp, if_pos hc, if_neg (show ¬ 2 ≤ t.count '-' by omega)]
    simp only [hp', Bool.not_true, Bool.false_eq_true, if_false]
  rw [if_neg hp, if_neg hc, if_pos (show 2 ≤ t.count '-' by omega)]
  by_cases hd : en .c_detect = true
  · by_cases ha : arch t = "x86".toList ∨ arch t = "x86_64".toList
    · by_cases hx : h.x86 = true
      · rw [if_neg (show ¬ (en .c_detect = true ∧
          ¬((arch t = "x86".toList ∨ arch t = "x86_64".toList) ∧ h.x86 = true)) from fun q => q.2 ⟨ha, hx⟩)]
        have ha' : (decide (arch t = "x86".toList) || decide (arch t = "x86_64".toList)) = true := by
          simpa using ha
        simp only [hp', hd, ha', Bool.not_true, Bool.false_eq_true, if_false, if_true,
          detect_eq _ _ hx]
        simp only [varsOf, hd, Bool.true_and]
        rfl
      · rw [if_pos (show en .c_detect = true ∧
          ¬((arch t = "x86".toList ∨ arch t = "x86_64".toList) ∧ h.x86 = true) from ⟨hd, fun q => hx q.2⟩)]
        have ha' : (decide (arch t = "x86".toList) || decide (arch t = "x86_64".toList)) = true := by
          simpa using ha
        simp only [hp', hd, ha', Bool.not_true, Bool.false_eq_true, if_false, if_true]
        unfold detect_x86_features
        rw [if_neg hx]
        rfl
    · rw [if_pos (show en .c_detect = true ∧
          ¬((arch t = "x86".toList ∨ arch t = "x86_64".toList) ∧ h.x86 = true) from ⟨hd, fun q => ha q.1⟩)]
      have ha' : (decide (arch t = "x86".toList) || decide (arch t = "x86_64".toList)) = false := by
        simpa using ha
      simp only [hp', hd, ha', Bool.not_true, Bool.not_false, Bool.false_eq_true, if_false, if_true]
      rfl
  · rw [if_neg (show ¬ (en .c_detect = true ∧
          ¬((arch t = "x86".toList ∨ arch t = "x86_64".toList) ∧ h.x86 = true)) from fun q => hd q.1)]
    have hd' : en .c_detect = false := by simpa using hd
    simp only [hp', hd', Bool.not_true, Bool.false_eq_true, if_false]
    simp only [varsOf, hd', Bool.false_and, Bool.or_false]
    rfl

theorem unitsOf_links (en : Feature → Bool) (v : Vars) (w a : Bool)
    (hv : v.avx2 = true → v.sse41 = true) : Links en ⟨unitsOf v w a, v⟩ := by
  unfold Links
  obtain ⟨s, x, z, n⟩ := v
  have hv' : x = true → s = true := hv
  generalize en .c_portable = p
  clear hv
  revert hv'
  revert s x z n w a p
  decide +kernel

/-! ## C50 -/

theorem links_nil (en : Feature → Bool) (hen : Closed en) (hp : en .c_portable = false) :
    Links en ⟨[], ⟨en .c_sse41, en .c_avx2, en .c_avx512, en .c_neon⟩⟩ := by
  simp [Links, defined, rustRefs, hp]

theorem main_ok {en : Feature → Bool} {h : Host} {t : List Char} {b : Built}
    (hp : en .c_portable = true) (hb : main en h t = .ok b) :
    b = ⟨unitsOf (varsOf en h) (os t = "windows".toList) (arch t = "armv7".toList), varsOf en h⟩ := by
  rw [main_eq, if_neg (by simp [hp])] at hb
  split at hb
  · cases hb
  · split at hb
    · cases hb
    · exact (Except.ok.inj hb).symm

/-- C50.  Every build that build.rs completes links, provided that a host with AVX2 has SSE4.1 (which
build.rs:20-21 relies on). -/
theorem C50_links (en : Feature → Bool) (h : Host) (target : List Char) (b : Built)
    (hen : Closed en) (hh : h.avx2 = true → h.sse41 = true)
    (hb : main en h target = .ok b) : Links en b := by
  by_cases hp : en .c_portable = true
  · rw [main_ok hp hb]
    refine unitsOf_links en _ _ _ ?_
    intro h2
    simp only [varsOf, Bool.or_eq_true, Bool.and_eq_true] at h2 ⊢
    rcases h2 with h2 | ⟨hd, h2⟩
    · exact .inl (hen .c_avx2 .c_sse41 h2 (by decide))
    · exact .inr ⟨hd, hh h2⟩
  · rw [main_eq, if_pos (by simpa using hp)] at hb
    rw [← Except.ok.inj hb]
    exact links_nil en hen (by simpa using hp)

/-- C50.  The proviso is needed: with `c_detect` alone, a host with AVX2 and without SSE4.1 completes
the build script, and the result does not link. -/
theorem C50_proviso (en : Feature → Bool) (h : Host) (target : List Char) (b : Built)
    (hd : en .c_detect = true) (hp : en .c_portable = true) (hs : en .c_sse41 = false)
    (h2 : h.avx2 = true) (h4 : h.sse41 = false)
    (hb : main en h target = .ok b) : ¬ Links en b := by
  rw [main_ok hp hb]
  have hv : varsOf en h = ⟨false, true, (varsOf en h).avx512, (varsOf en h).neon⟩ := by
    simp [varsOf, hd, hs, h2, h4]
  rw [hv]
  unfold Links
  generalize (varsOf en h).avx512 = z
  generalize (varsOf en h).neon = n
  generalize decide (os target = "windows".toList) = w
  generalize decide (arch target = "armv7".toList) = a
  generalize en .c_portable = p
  revert z n w a p
  decide +kernel

/-- C50.  A build compiles code for an instruction set only if the feature for it is enabled or, with
`c_detect`, if the host has it.  In particular a build with `c_detect` and no other feature uses no
instructions that the host does not have, and never NEON. -/
theorem C50_instructions (en : Feature → Bool) (h : Host) (target : List Char) (b : Built)
    (hb : main en h target = .ok b) (u : Model.Build.Unit) (hu : u ∈ b.units) (f : CFile)
    (hf : f ∈ u.files) (i : Isa) (hi : i ∈ f.isas) :
    en (feature i) = true ∨ i ≠ .neon ∧ en .c_detect = true ∧ h.has i = true := by
  by_cases hp : en .c_portable = true
  · rw [main_ok hp hb] at hu
    have key : ∀ (v : Vars) (w a : Bool), u ∈ unitsOf v w a → varOf v i = true := by
      intro v w a hu
      obtain ⟨s, x, z, n⟩ := v
      simp only [unitsOf, List.mem_append, List.mem_singleton, List.mem_ite_nil_right] at hu
      rcases hu with ((((rfl | ⟨e, rfl⟩) | ⟨e, rfl⟩) | ⟨e, rfl⟩) | ⟨e, rfl⟩) | rfl <;>
        simp [sse41Unit, avx2Unit, avx512Unit, neonUnit] at hf <;>
        (first | subst hf | rcases hf with rfl | rfl) <;>
        simp [CFile.isas] at hi <;>
        (first | subst hi | rcases hi with rfl | rfl) <;> exact e
    have k := key _ _ _ hu
    clear hf hi hu key
    cases i <;>
      simp only [varOf, feature, varsOf, Bool.or_eq_true, Bool.and_eq_true, Host.has,
        Host.is_avx512_detected] at k ⊢
    · exact k.imp_right fun k => ⟨nofun, k⟩
    · exact k.imp_right fun k => ⟨nofun, k⟩
    · exact k.imp_right fun ⟨d, a, _⟩ => ⟨nofun, d, a⟩
    · exact k.imp_right fun ⟨d, _, a⟩ => ⟨nofun, d, a⟩
    · exact .inl k
  · rw [main_eq, if_pos (by simpa using hp)] at hb
    rw [← Except.ok.inj hb] at hu
    cases hu

/-- C50.  Except on Windows, every file is compiled with the options for all instruction sets of x86
whose intrinsics it uses. -/
theorem C50_options (en : Feature → Bool) (h : Host) (target : List Char) (b : Built)
    (hw : os target ≠ "windows".toList)
    (hb : main en h target = .ok b) (u : Model.Build.Unit) (hu : u ∈ b.units) (f : CFile)
    (hf : f ∈ u.files) (i : Isa) (hi : i ∈ f.isas) (o : String) (ho : option i = some o) :
    o ∈ u.flags := by
  by_cases hp : en .c_portable = true
  · rw [main_ok hp hb] at hu
    have hw' : decide (os target = "windows".toList) = false := by simpa using hw
    rw [hw'] at hu
    generalize varsOf en h = v at hu
    simp only [unitsOf, List.mem_append, List.mem_singleton, List.mem_ite_nil_right] at hu
    rcases hu with ((((rfl | ⟨e, rfl⟩) | ⟨e, rfl⟩) | ⟨e, rfl⟩) | ⟨e, rfl⟩) | rfl <;>
      simp [sse41Unit, avx2Unit, avx512Unit, neonUnit] at hf <;>
      (first | subst hf | rcases hf with rfl | rfl) <;>
      simp [CFile.isas] at hi <;>
      (first | subst hi | rcases hi with rfl | rfl) <;>
      simp [option] at ho <;> subst ho <;>
      simp [sse41Unit, avx2Unit, avx512Unit, neonUnit, newFlags]
  · rw [main_eq, if_pos (by simpa using hp)] at hb
    rw [← Except.ok.inj hb] at hu
    cases hu

/-! ## C51 -/

/-- C51.  Exactly when the build script completes. -/
theorem C51_completes (en : Feature → Bool) (h : Host) (target : List Char) :
    (∃ b, main en h target = .ok b) ↔
      en .c_portable = false ∨
      2 ≤ target.count '-' ∧
      (en .c_detect = true →
        (arch target = "x86".toList ∨ arch target = "x86_64".toList) ∧ h.x86 = true) := by
  rw [main_eq]
  by_cases hp : en .c_portable = false
  · rw [if_pos hp]; simp [hp]
  · rw [if_neg hp]
    by_cases hc : target.count '-' < 2
    · rw [if_pos hc]
      simp [hp]
      intro h2; omega
    · rw [if_neg hc]
      by_cases hx : en .c_detect = true ∧
          ¬((arch target = "x86".toList ∨ arch target = "x86_64".toList) ∧ h.x86 = true)
      · rw [if_pos hx]
        constructor
        · rintro ⟨b, hb⟩; cases hb
        · rintro (q | ⟨_, q⟩)
          · exact absurd q hp
          · exact absurd (q hx.1) hx.2
      · rw [if_neg hx]
        refine ⟨fun _ => .inr ⟨by omega, fun hd => ?_⟩, fun _ => ⟨_, rfl⟩⟩
        exact Classical.byContradiction fun q => hx ⟨hd, q⟩

/-- C51.  32-bit x86, whose triples begin with `i386`, `i586` or `i686`, is refused by `c_detect`,
although build.rs:64 means to allow it. -/
theorem C51_x86 (en : Feature → Bool) (h : Host) (d : Char) (rest : List Char)
    (hp : en .c_portable = true) (hd : en .c_detect = true) (ht : 2 ≤ rest.count '-') :
    main en h ('i' :: d :: '8' :: '6' :: '-' :: rest) = .error .assert ∨ d = '-' := by
  by_cases hm : d = '-'
  · exact .inr hm
  · left
    have ha : arch ('i' :: d :: '8' :: '6' :: '-' :: rest) = ['i', d, '8', '6'] := by
      simp [arch, before, hm]
    rw [main_eq, if_neg (by simp [hp]), if_neg (by
      simp only [List.count_cons]; omega), if_pos]
    refine ⟨hd, fun q => ?_⟩
    rw [ha] at q
    rcases q.1 with q | q <;> exact absurd (List.head_eq_of_cons_eq q) (by decide)

/-- C51.  For every target whose operating system is `windows`, also for `x86_64-pc-windows-gnu`, where
the compiler is gcc, no file gets the options of gcc for the instruction sets it uses. -/
theorem C51_windows (en : Feature → Bool) (h : Host) (target : List Char) (b : Built)
    (hw : os target = "windows".toList)
    (hb : main en h target = .ok b) (u : Model.Build.Unit) (hu : u ∈ b.units) (i : Isa) (o : String)
    (ho : option i = some o) : o ∉ u.flags := by
  by_cases hp : en .c_portable = true
  · rw [main_ok hp hb] at hu
    have hw' : decide (os target = "windows".toList) = true := by simpa using hw
    rw [hw'] at hu
    generalize varsOf en h = v at hu
    generalize decide (arch target = "armv7".toList) = a at hu
    simp only [unitsOf, List.mem_append, List.mem_singleton, List.mem_ite_nil_right] at hu
    rcases hu with ((((rfl | ⟨e, rfl⟩) | ⟨e, rfl⟩) | ⟨e, rfl⟩) | ⟨e, rfl⟩) | rfl <;>
      cases i <;> simp [option] at ho <;> subst ho <;> cases a <;>
      simp [sse41Unit, avx2Unit, avx512Unit, neonUnit, newFlags]
  · rw [main_eq, if_pos (by simpa using hp)] at hb
    rw [← Except.ok.inj hb] at hu
    cases hu

/-! ## The hypotheses can be met -/

def linux : List Char := "x86_64-unknown-linux-gnu".toList
def mingw : List Char := "x86_64-pc-windows-gnu".toList
def only (fs : List Feature) : Feature → Bool := fun f => f ∈ fs
def skylake : Host := ⟨true, true, true, true, true⟩
def odd : Host := ⟨true, false, true, false, false⟩

example : Closed (only [.c_portable, .c_sse41, .c_avx2, .c_avx512]) := by
  intro f g; cases f <;> cases g <;> decide
example : Closed (only [.c_portable, .c_detect]) := by
  intro f g; cases f <;> cases g <;> decide
example : (main (only [.c_portable, .c_detect]) skylake linux).toOption.map (·.units.length) =
    some 5 := by decide +kernel
example : (main (only [.c_portable, .c_detect]) odd linux).toOption.map (·.cfg) =
    some ⟨false, true, false, false⟩ := by decide +kernel
example : os linux ≠ "windows".toList ∧ os mingw = "windows".toList ∧ arch linux = "x86_64".toList := by
  decide +kernel
example : (main (only [.c_portable, .c_sse41, .c_avx2]) skylake mingw).toOption.map
    (fun b => b.units.map (·.flags)) = some [[], [], ["/arch:AVX2"], []] := by decide +kernel
example : 2 ≤ "unknown-linux-gnu".toList.count '-' := by decide +kernel
/-- a triple of two parts -/
example : main (only [.c_portable]) skylake "wasm32-wasi".toList = .error .bounds := by rfl

end Baokeshed.Props.Build
