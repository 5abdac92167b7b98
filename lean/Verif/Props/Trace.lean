import Verif.Proofs.TraceApi

/-!
# C15, C16, C17, C39: the calls of the compression function

The `T.` functions (Model/Trace.lean) are the functions of the library, recording in `log` the arguments of
every call of the compression function.  `C39_same_results` says that they return what the library returns.
`Spec.calls m input` (SpecCalls.lean) lists the compressions of the specified tree.
-/

set_option linter.unusedVariables false

namespace Baokeshed.Props
open Baokeshed.Model Baokeshed.Proofs

-- the key that equals the initialisation constants
theorem exIvKey : (Spec.Mode.keyedHash (Spec.cvBytes (Vector.ofFn Spec.iv))).key = Spec.Mode.key .hash := by
  decide +kernel

-- the compressions of the empty input and of the input [1] have different results
theorem exCompress : Spec.compress (Spec.root .hash []) ≠ Spec.compress (Spec.root .hash [1]) := by
  have e1 : Spec.root .hash [] = ⟨Vector.ofFn Spec.iv, Vector.replicate 64 0, 0, 0, 11⟩ := by decide +kernel
  have e2 : Spec.root .hash [1] = ⟨Vector.ofFn Spec.iv, (Vector.replicate 64 0).set 0 1, 1, 0, 11⟩ := by
    decide +kernel
  rw [e1, e2, ← plat_compress .portable, ← plat_compress .portable]
  intro h
  have h0 : (Platform.portable.compress (Vector.ofFn Spec.iv) (Vector.replicate 64 0) 0 0 11)[0] ≠
      (Platform.portable.compress (Vector.ofFn Spec.iv) ((Vector.replicate 64 0).set 0 1) 1 0 11)[0] := by
    decide +kernel
  rw [h] at h0
  exact h0 rfl

attribute [local irreducible] Spec.compress Spec.outBytes Spec.cvBytes Spec.pad

/-! ## C39 -/

/-- C39.  Recording calls changes no result. -/
theorem C39_same_results (cfg : Config) (prof : Profile) (m : Spec.Mode) (input : Bytes) (ss : List Bytes) (h : Hasher)
    (cs : List HCall) (o : Output) (os : List OutCall) :
    (T.oneShot cfg m input).res = oneShot cfg m input ∧ (T.oneShotXof cfg m input).res = oneShotXof cfg m input ∧
    (T.Hasher.updates cfg h ss).res = h.updates cfg ss ∧ (T.Hasher.finalize h).res = h.finalize ∧
    (T.Hasher.finalize_xof h).res = h.finalize_xof ∧ (T.Output.run prof os o).res = o.run prof os ∧
    (T.Hasher.session cfg prof cs h).res = h.session cfg prof cs :=
  ⟨T.oneShot_res .., T.oneShotXof_res .., T.updates_res .., T.finalize_res .., T.finalize_xof_res .., T.run_res ..,
    T.session_res ..⟩

/-- C39.  The one-shot functions perform each compression of the tree exactly once, and no other. -/
theorem C39_one_shot (cfg : Config) (hv : cfg.Valid) (m : Spec.Mode) (input : Bytes) (hf : cfg.Fits input.length) :
    (T.oneShot cfg m input).log.Perm (Spec.calls m input) ∧
    (T.oneShot cfg m input).log.length =
      max 1 ((input.length + 63) / 64) + (max 1 ((input.length + 2047) / 2048) - 1) := by
  have hp : (T.oneShot cfg m input).log.Perm (Spec.calls m input) := by
    obtain ⟨o, e, -, ho⟩ := oneShotXof_eq cfg m input hv hf
    have hl := oneShotXof_log cfg m input hv hf
    rw [T.oneShot, tr_bind _ (tr_eq ((T.oneShotXof_res cfg m input).trans e)), to_hash_log, ho]
    exact hl.append_right _
  refine ⟨hp, ?_⟩
  rw [hp.length_eq, Spec.calls, Spec.inner, List.length_append, below_length, List.length_singleton]
  omega

/-- C39.  So does the incremental hasher, however the input is cut into slices. -/
theorem C39_incremental (cfg : Config) (m : Spec.Mode) (ss : List Bytes) (hl : ss.flatten.length < 2 ^ 64) :
    ∃ h l l', T.Hasher.updates cfg (newHasher cfg m) ss = ⟨.ok h, l⟩ ∧
      T.Hasher.finalize h = ⟨.ok (Spec.hash m ss.flatten), l'⟩ ∧
      (l ++ l').Perm (Spec.calls m ss.flatten) ∧
      (l ++ l').length =
        max 1 ((ss.flatten.length + 63) / 64) + (max 1 ((ss.flatten.length + 2047) / 2048) - 1) := by
  obtain ⟨h, l, e, hw⟩ := (WorkAt.new cfg m).updates ss (by simpa using hl)
  rw [List.nil_append, List.nil_append] at hw
  obtain ⟨o, l1, e1, ho, hp⟩ := hw.finalize_xof
  have hp' : (l ++ (l1 ++ [Spec.root m ss.flatten])).Perm (Spec.calls m ss.flatten) := by
    rw [← List.append_assoc]; exact hp.append_right _
  refine ⟨h, l, l1 ++ [Spec.root m ss.flatten], e, ?_, hp', ?_⟩
  · have h2 := hw.2.finalize
    rw [← T.finalize_res] at h2
    rw [tr_eq h2, T.Hasher.finalize, tr_bind _ e1, to_hash_log, ho]
  · rw [hp'.length_eq, Spec.calls, Spec.inner, List.length_append, below_length, List.length_singleton]
    omega

-- 9 chunks and 11 bytes: 289 blocks and 9 parents
example : exAvx2.Valid ∧ exAvx2.Fits (rep 18443 1).length ∧
    max 1 (((rep 18443 1).length + 63) / 64) + (max 1 (((rep 18443 1).length + 2047) / 2048) - 1) = 298 := by
  simp
example : [rep 2048 1, [], rep 16395 1].flatten.length < 2 ^ 64 := by simp

/-! ## C15 -/

/-- C15.  All compressions of a one-shot function and of the output read afterwards carry the mode in flags 0x30:
nothing for `hash`, 0x10 for `keyed_hash`, 0x20 for `derive_key`. -/
theorem C15_one_shot (cfg : Config) (hv : cfg.Valid) (prof : Profile) (m : Spec.Mode) (input : Bytes)
    (hf : cfg.Fits input.length) (os : List OutCall) (hr : prof = .release ∨ os.count .read ≤ 2 ^ 58 - 1) :
    (∃ rs, (T.oneShotRun cfg prof m input os).res = .ok rs) ∧
    ∀ a ∈ (T.oneShotRun cfg prof m input os).log, a.flags &&& 0x30 = m.flag := by
  obtain ⟨o, e, -, ho⟩ := oneShotXof_eq cfg m input hv hf
  have hl := oneShotXof_log cfg m input hv hf
  have ho0 : o.offset = 0 := (congrArg Spec.Input.offset ho).trans (root_offset m input)
  obtain ⟨o', l, e', -, hfl⟩ := out_run_log prof os o (hr.imp_right fun h => by
    rw [ho0, show (0 : U64).toNat = 0 from rfl]; omega)
  rw [T.oneShotRun, tr_bind _ (tr_eq ((T.oneShotXof_res cfg m input).trans e)), tr_bind _ e']
  refine ⟨⟨_, rfl⟩, ?_⟩
  intro a ha
  simp only [log_pure, List.append_nil, List.mem_append] at ha
  rcases ha with ha | ha
  · exact (inner_flags m input a (hl.mem_iff.1 ha)).1
  · rw [hfl a ha, show o.flags = (Spec.root m input).flags from congrArg Spec.Input.flags ho]
    exact (root_flags m input).1

/-- what the calls in `cs` feed to a hasher -/
def fedBytes (cs : List HCall) : Bytes := cs.flatMap fun | .update s => s | .output _ => []

/-- the calls on outputs in `cs` -/
def outCalls (cs : List HCall) : List OutCall := cs.flatMap fun | .update _ => [] | .output os => os

theorem session_log (cfg : Config) (prof : Profile) (m : Spec.Mode) (cs : List HCall) :
    ∀ (bytes : Bytes) (h : Hasher) (W : List Spec.Input), WorkAt cfg m bytes h W →
    bytes.length + (fedBytes cs).length < 2 ^ 64 → (prof = .release ∨ (outCalls cs).count .read ≤ 2 ^ 58 - 1) →
    ∃ rs l, T.Hasher.session cfg prof cs h = ⟨.ok rs, l⟩ ∧ (∀ a ∈ l, a.flags &&& 0x30 = m.flag) ∧
      rs = List.zipWith outOf (outCalls cs) (l.filter fun a => a.flags &&& 8 ≠ 0) ∧
      (l.filter fun a => a.flags &&& 8 ≠ 0).length = (outCalls cs).length := by
  induction cs with
  | nil => intro bytes h W _ _ _; exact ⟨[], [], rfl, by simp, rfl, rfl⟩
  | cons c cs ih =>
    intro bytes h W hw hlen hr
    cases c with
    | update s =>
      have hfd : (fedBytes (.update s :: cs)).length = s.length + (fedBytes cs).length := by
        rw [fedBytes, List.flatMap_cons, List.length_append]; rfl
      rw [hfd] at hlen
      obtain ⟨h1, l1, e1, hw1⟩ := hw.update s (by omega)
      obtain ⟨rs, l, e, hm, hz, hn⟩ := ih _ h1 _ hw1 (by rw [List.length_append]; omega) hr
      have hin : ∀ a ∈ l1, a.flags &&& 0x30 = m.flag ∧ a.flags &&& 8 = 0 := fun a ha =>
        inner_flags m _ a (hw1.mem (List.mem_append_right _ ha))
      have hf0 : l1.filter (fun a => a.flags &&& 8 ≠ 0) = [] := by
        rw [List.filter_eq_nil_iff]; intro a ha; simpa using (hin a ha).2
      refine ⟨rs, l1 ++ l, by rw [T.Hasher.session, tr_bind _ e1, e], ?_, ?_, ?_⟩
      · intro a ha
        rcases List.mem_append.1 ha with ha | ha
        · exact (hin a ha).1
        · exact hm a ha
      · rw [List.filter_append, hf0]; exact hz
      · rw [List.filter_append, hf0]; exact hn
    | output os =>
      have ho : outCalls (.output os :: cs) = os ++ outCalls cs := rfl
      rw [ho, List.count_append] at hr
      obtain ⟨o, l1, e1, hto, hp⟩ := hw.finalize_xof
      have ho0 : o.offset = 0 := (congrArg Spec.Input.offset hto).trans (root_offset m bytes)
      obtain ⟨o', l2, e2, hl2, hfl⟩ := out_run_log prof os o (hr.imp_right fun h => by
        rw [ho0, show (0 : U64).toNat = 0 from rfl]; omega)
      obtain ⟨rs, l, e, hm, hz, hn⟩ := ih bytes h W hw hlen (hr.imp_right fun h => by omega)
      have hin : ∀ a ∈ l1, a.flags &&& 0x30 = m.flag ∧ a.flags &&& 8 = 0 := fun a ha =>
        inner_flags m _ a (hp.mem_iff.1 (List.mem_append_right _ ha))
      have hrt : ∀ a ∈ l2, a.flags &&& 0x30 = m.flag ∧ a.flags &&& 8 ≠ 0 := fun a ha => by
        rw [hfl a ha, show o.flags = (Spec.root m bytes).flags from congrArg Spec.Input.flags hto]
        exact root_flags m bytes
      have hf0 : l1.filter (fun a => a.flags &&& 8 ≠ 0) = [] := by
        rw [List.filter_eq_nil_iff]; intro a ha; simpa using (hin a ha).2
      have hf1 : l2.filter (fun a => a.flags &&& 8 ≠ 0) = l2 := by
        rw [List.filter_eq_self]; intro a ha; simpa using (hrt a ha).2
      refine ⟨List.zipWith outOf os l2 ++ rs, l1 ++ (l2 ++ l), ?_, ?_, ?_, ?_⟩
      · rw [T.Hasher.session, tr_bind _ e1, tr_bind _ e2]
        dsimp only
        rw [tr_bind _ e, log_pure, List.append_nil]
        rfl
      · intro a ha
        simp only [List.mem_append] at ha
        rcases ha with ha | ha | ha
        · exact (hin a ha).1
        · exact (hrt a ha).1
        · exact hm a ha
      · rw [List.filter_append, List.filter_append, hf0, hf1, List.nil_append, ho, List.zipWith_append hl2.symm, ← hz]
      · rw [List.filter_append, List.filter_append, hf0, hf1, List.nil_append, ho, List.length_append, List.length_append,
          hl2, hn]

/-- C15.  The same for every sequence of `update`s, `finalize_xof`s and reads on a hasher. -/
theorem C15_incremental (cfg : Config) (prof : Profile) (m : Spec.Mode) (cs : List HCall)
    (hl : (fedBytes cs).length < 2 ^ 64) (hr : prof = .release ∨ (outCalls cs).count .read ≤ 2 ^ 58 - 1) :
    (∃ rs, (T.Hasher.session cfg prof cs (newHasher cfg m)).res = .ok rs) ∧
    ∀ a ∈ (T.Hasher.session cfg prof cs (newHasher cfg m)).log, a.flags &&& 0x30 = m.flag := by
  obtain ⟨rs, l, e, hm, -⟩ := session_log cfg prof m cs [] _ [] (WorkAt.new cfg m) (by simpa using hl) hr
  rw [e]
  exact ⟨⟨rs, rfl⟩, hm⟩

/-- the name of the mode -/
def kind : Spec.Mode → Nat
  | .hash => 0
  | .keyedHash _ => 1
  | .deriveKey _ => 2

/-- C15.  No argument tuple is passed to the compression function in two different modes, neither by the one-shot
functions nor by hashers, whatever the keys, inputs, machines and numbers of output blocks. -/
theorem C15_disjoint (cfg cfg' : Config) (hv : cfg.Valid) (hv' : cfg'.Valid) (prof : Profile) (m m' : Spec.Mode)
    (hk : kind m ≠ kind m') (x x' : Bytes) (hf : cfg.Fits x.length) (hf' : cfg'.Fits x'.length)
    (os os' : List OutCall) (hr : os.count .read ≤ 2 ^ 58 - 1) (hr' : os'.count .read ≤ 2 ^ 58 - 1)
    (cs cs' : List HCall) (hl : (fedBytes cs).length < 2 ^ 64) (hl' : (fedBytes cs').length < 2 ^ 64)
    (hc : (outCalls cs).count .read ≤ 2 ^ 58 - 1) (hc' : (outCalls cs').count .read ≤ 2 ^ 58 - 1) :
    ∀ a ∈ (T.oneShotRun cfg prof m x os).log ++ (T.Hasher.session cfg prof cs (newHasher cfg m)).log,
      a ∉ (T.oneShotRun cfg' prof m' x' os').log ++ (T.Hasher.session cfg' prof cs' (newHasher cfg' m')).log := by
  intro a ha ha'
  have h1 : a.flags &&& 0x30 = m.flag := by
    rcases List.mem_append.1 ha with ha | ha
    · exact (C15_one_shot cfg hv prof m x hf os (Or.inr hr)).2 a ha
    · exact (C15_incremental cfg prof m cs hl (Or.inr hc)).2 a ha
  have h2 : a.flags &&& 0x30 = m'.flag := by
    rcases List.mem_append.1 ha' with ha | ha
    · exact (C15_one_shot cfg' hv' prof m' x' hf' os' (Or.inr hr')).2 a ha
    · exact (C15_incremental cfg' prof m' cs' hl' (Or.inr hc')).2 a ha
  have h3 : m.flag = m'.flag := h1.symm.trans h2
  have ne1 : (0 : Byte) ≠ 16 := by decide
  have ne2 : (0 : Byte) ≠ 32 := by decide
  have ne3 : (16 : Byte) ≠ 32 := by decide
  cases m <;> cases m' <;>
    first
    | exact hk rfl
    | exact ne1 h3
    | exact ne2 h3
    | exact ne3 h3
    | exact ne1 h3.symm
    | exact ne2 h3.symm
    | exact ne3 h3.symm

-- `hash` against `keyed_hash` under the key that equals the initialisation constants: the two chaining values
-- used as keys are the same, and the compressions are nevertheless disjoint
example : (Spec.Mode.keyedHash (Spec.cvBytes (Vector.ofFn Spec.iv))).key = Spec.Mode.key .hash ∧
    kind (.keyedHash (Spec.cvBytes (Vector.ofFn Spec.iv))) ≠ kind .hash :=
  ⟨exIvKey, by simp [kind]⟩
example : (fedBytes [.update (rep 5000 1), .output [.read, .toHash], .update (rep 9 2), .output [.read]]).length < 2 ^ 64 ∧
    (outCalls [.update (rep 5000 1), .output [.read, .toHash], .update (rep 9 2), .output [.read]]).count .read = 2 := by
  constructor
  · simp [fedBytes]
  · decide

/-! ## C17 -/

/-- C17.  In a session on a hasher, the compressions with the ROOT flag are, in order, the ones whose results
are returned by the calls on outputs; there are as many as such calls. -/
theorem C17_incremental (cfg : Config) (prof : Profile) (m : Spec.Mode) (cs : List HCall)
    (hl : (fedBytes cs).length < 2 ^ 64) (hr : prof = .release ∨ (outCalls cs).count .read ≤ 2 ^ 58 - 1) :
    let t := T.Hasher.session cfg prof cs (newHasher cfg m)
    let rooted := t.log.filter fun a => a.flags &&& 8 ≠ 0
    t.res = .ok (List.zipWith (fun c a => match c with
      | .read => (Spec.outBytes a).toList
      | .toHash => (Spec.cvBytes (Spec.compress a)).toList) (outCalls cs) rooted) ∧
    rooted.length = (outCalls cs).length := by
  obtain ⟨rs, l, e, -, hz, hn⟩ := session_log cfg prof m cs [] _ [] (WorkAt.new cfg m) (by simpa using hl) hr
  rw [e]
  refine ⟨?_, hn⟩
  rw [hz]
  refine congrArg Except.ok (congrArg (fun f => List.zipWith f _ _) ?_)
  funext c a
  cases c <;> rfl

/-- C17.  The same for the one-shot functions. -/
theorem C17_one_shot (cfg : Config) (hv : cfg.Valid) (prof : Profile) (m : Spec.Mode) (input : Bytes)
    (hf : cfg.Fits input.length) (os : List OutCall) (hr : prof = .release ∨ os.count .read ≤ 2 ^ 58 - 1) :
    let t := T.oneShotRun cfg prof m input os
    let rooted := t.log.filter fun a => a.flags &&& 8 ≠ 0
    t.res = .ok (List.zipWith (fun c a => match c with
      | .read => (Spec.outBytes a).toList
      | .toHash => (Spec.cvBytes (Spec.compress a)).toList) os rooted) ∧
    rooted.length = os.length := by
  obtain ⟨o, e, -, ho⟩ := oneShotXof_eq cfg m input hv hf
  have hl := oneShotXof_log cfg m input hv hf
  have ho0 : o.offset = 0 := (congrArg Spec.Input.offset ho).trans (root_offset m input)
  obtain ⟨o', l, e', hn, hfl⟩ := out_run_log prof os o (hr.imp_right fun h => by
    rw [ho0, show (0 : U64).toNat = 0 from rfl]; omega)
  have hf0 : (T.oneShotXof cfg m input).log.filter (fun a => a.flags &&& 8 ≠ 0) = [] := by
    rw [List.filter_eq_nil_iff]; intro a ha; simpa using (inner_flags m input a (hl.mem_iff.1 ha)).2
  have hf1 : l.filter (fun a => a.flags &&& 8 ≠ 0) = l := by
    rw [List.filter_eq_self]; intro a ha
    have := (root_flags m input).2
    rw [hfl a ha, show o.flags = (Spec.root m input).flags from congrArg Spec.Input.flags ho]
    simpa using this
  rw [T.oneShotRun, tr_bind _ (tr_eq ((T.oneShotXof_res cfg m input).trans e)), tr_bind _ e']
  dsimp only
  rw [log_pure, List.append_nil, List.filter_append, hf0, hf1, List.nil_append]
  refine ⟨congrArg Except.ok (congrArg (fun f => List.zipWith f _ _) ?_), hn⟩
  funext c a
  cases c <;> rfl

/-- C17.  What happens before output is read never carries ROOT: the one-shot `_xof` functions, chains of updates
and `finalize_xof`.  In a whole run no compression for output equals one for a chaining value. -/
theorem C17_internal (cfg : Config) (hv : cfg.Valid) (m : Spec.Mode) (input : Bytes) (hf : cfg.Fits input.length)
    (ss : List Bytes) (hl : ss.flatten.length < 2 ^ 64) :
    (∀ a ∈ (T.oneShotXof cfg m input).log, a.flags &&& 8 = 0) ∧
    ∃ h l, T.Hasher.updates cfg (newHasher cfg m) ss = ⟨.ok h, l⟩ ∧
      (∀ a ∈ l, a.flags &&& 8 = 0) ∧ ∀ a ∈ (T.Hasher.finalize_xof h).log, a.flags &&& 8 = 0 := by
  refine ⟨fun a ha => (inner_flags m input a ((oneShotXof_log cfg m input hv hf).mem_iff.1 ha)).2, ?_⟩
  obtain ⟨h, l, e, hw⟩ := (WorkAt.new cfg m).updates ss (by simpa using hl)
  rw [List.nil_append, List.nil_append] at hw
  obtain ⟨o, l1, e1, ho, hp⟩ := hw.finalize_xof
  refine ⟨h, l, e, fun a ha => (inner_flags m _ a (hw.mem ha)).2, fun a ha => ?_⟩
  rw [e1] at ha
  exact (inner_flags m _ a (hp.mem_iff.1 (List.mem_append_right _ ha))).2

example : exSse41.Valid ∧ exSse41.Fits (rep 4097 1).length ∧ [OutCall.read, .toHash, .read].count .read ≤ 2 ^ 58 - 1 := by
  refine ⟨by simp, by simp, by decide⟩

/-! ## C16 -/

/-- how an input is hashed: with a one-shot function, or in slices by a hasher -/
inductive Way where
  | whole (input : Bytes)
  | slices (ss : List Bytes)

/-- the input -/
def Way.bytes : Way → Bytes
  | .whole input => input
  | .slices ss => ss.flatten

/-- the input can exist on the machine -/
def Way.Ok (cfg : Config) : Way → Prop
  | .whole input => cfg.Valid ∧ cfg.Fits input.length
  | .slices ss => ss.flatten.length < 2 ^ 64

/-- hash it -/
def digest (cfg : Config) (m : Spec.Mode) : Way → T.TR (Vector Byte 32)
  | .whole input => T.oneShot cfg m input
  | .slices ss => do
    let h ← T.Hasher.updates cfg (newHasher cfg m) ss
    T.Hasher.finalize h

theorem digest_eq (cfg : Config) (m : Spec.Mode) (w : Way) (hw : w.Ok cfg) :
    (digest cfg m w).res = .ok (Spec.hash m w.bytes) ∧ (digest cfg m w).log.Perm (Spec.calls m w.bytes) := by
  cases w with
  | whole input =>
    exact ⟨(T.oneShot_res ..).trans (C01_one_shot_eq_spec cfg hw.1 m input hw.2), (C39_one_shot cfg hw.1 m input hw.2).1⟩
  | slices ss =>
    obtain ⟨h, l, l', e, e', hp, -⟩ := C39_incremental cfg m ss hw
    rw [digest, tr_bind _ e, e']
    exact ⟨rfl, hp⟩

/-- C16.  If two hashes are equal, the two modes, keys and inputs are equal, or two of the compressions performed
have different arguments and the same chaining value. -/
theorem C16_collision (cfg cfg' : Config) (m m' : Spec.Mode) (w w' : Way) (hw : w.Ok cfg) (hw' : w'.Ok cfg')
    (h : (digest cfg m w).res = (digest cfg' m' w').res) :
    (m = m' ∧ w.bytes = w'.bytes) ∨
    ∃ a ∈ (digest cfg m w).log, ∃ b ∈ (digest cfg' m' w').log, a ≠ b ∧
      ∀ p p' : Platform, p.compress a.cv a.block a.blockLen a.offset a.flags =
        p'.compress b.cv b.block b.blockLen b.offset b.flags := by
  obtain ⟨e, hp⟩ := digest_eq cfg m w hw
  obtain ⟨e', hp'⟩ := digest_eq cfg' m' w' hw'
  rw [e, e'] at h
  have h : Spec.hash m w.bytes = Spec.hash m' w'.bytes := by injection h
  rcases hash_inj m m' w.bytes w'.bytes h with h | ⟨a, ha, b, hb, hne, hc⟩
  · exact Or.inl h
  · refine Or.inr ⟨a, hp.mem_iff.2 ha, b, hp'.mem_iff.2 hb, hne, fun p p' => ?_⟩
    rw [plat_compress, plat_compress]
    exact hc

/-- C16, the other way round: different inputs, modes or keys have different hashes unless the compression function
collides on the compressions performed. -/
theorem C16_distinct (cfg cfg' : Config) (m m' : Spec.Mode) (w w' : Way) (hw : w.Ok cfg) (hw' : w'.Ok cfg')
    (hne : m ≠ m' ∨ w.bytes ≠ w'.bytes)
    (hc : ∀ a ∈ (digest cfg m w).log, ∀ b ∈ (digest cfg' m' w').log, Spec.compress a = Spec.compress b → a = b) :
    (digest cfg m w).res ≠ (digest cfg' m' w').res := by
  intro h
  rcases C16_collision cfg cfg' m m' w w' hw hw' h with ⟨h1, h2⟩ | ⟨a, ha, b, hb, hab, he⟩
  · rcases hne with h | h
    · exact h h1
    · exact h h2
  · refine hab (hc a ha b hb ?_)
    have := he .portable .portable
    rw [plat_compress, plat_compress] at this
    exact this

-- the empty input in one call against the input [1] in two slices, on two machines
example : (Way.whole []).Ok exAvx2 ∧ (Way.slices [[], [1]]).Ok exSmall ∧
    (Way.whole []).bytes ≠ (Way.slices [[], [1]]).bytes ∧
    ∀ a ∈ (digest exAvx2 .hash (.whole [])).log, ∀ b ∈ (digest exSmall .hash (.slices [[], [1]])).log,
      Spec.compress a = Spec.compress b → a = b := by
  have h1 : (Way.whole []).Ok exAvx2 := ⟨exAvx2_valid, by simp⟩
  have h2 : (Way.slices [[], [1]]).Ok exSmall := by simp [Way.Ok]
  refine ⟨h1, h2, by simp [Way.bytes], fun a ha b hb h => ?_⟩
  have ha := (digest_eq _ _ _ h1).2.mem_iff.1 ha
  have hb := (digest_eq _ _ _ h2).2.mem_iff.1 hb
  simp [Way.bytes, Spec.calls, Spec.inner, Spec.below, Spec.chunkBefore] at ha hb
  rw [ha, hb] at h
  exact absurd h exCompress

end Baokeshed.Props
