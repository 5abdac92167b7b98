import Verif.Proofs.C.Oblivious
import Verif.Props.CTrace
import Verif.Props.Oblivious

/-!
# C63: what the C hasher compresses when depends on lengths only

The analogue of C45 and C58 for the C code, with the recorded compressions of C60.
-/

set_option linter.unusedVariables false

namespace Baokeshed.Props
open Baokeshed.Model Baokeshed.Proofs

/-- The same calls, one after the other, on pieces of the same lengths.  What lies behind the pieces and what the buffers for the
results contain may differ. -/
inductive SameCCalls : List CCall → List CCall → Prop where
  | nil : SameCCalls [] []
  | update (s t b b' : Bytes) {cs ds : List CCall} : s.length = t.length → SameCCalls cs ds →
      SameCCalls (.update s b :: cs) (.update t b' :: ds)
  | finalize (out out' : Bytes) {cs ds : List CCall} : SameCCalls cs ds → SameCCalls (.finalize out :: cs) (.finalize out' :: ds)

/-- The conditions of C29 on a build and a sequence of calls. -/
structure CCallsOk (cfg : C.Config) (cs : List CCall) : Prop where
  bits : 16 ≤ cfg.bits
  lt : (fed (cUpdates cs)).length < 2 ^ 64
  asserts : cfg.asserts = true → (fed (cUpdates cs)).length < 2 ^ 63 + 2048 ∨ ∀ s ∈ cUpdates cs, s.1.length < 2048
  order : NeonLittle cfg ∨ ∀ s ∈ cUpdates cs, s.1.length < 2048
  out : ∀ out ∈ cOuts cs, 32 ≤ out.length

theorem same_short {cs ds : List CCall} (h : SameCCalls cs ds) (hs : ∀ s ∈ cUpdates ds, s.1.length < 2048) :
    ∀ s ∈ cUpdates cs, s.1.length < 2048 := by
  induction h with
  | nil => intro s hs; cases hs
  | update s t b b' e _ ih =>
    intro u hu
    rcases List.mem_cons.1 hu with rfl | hu
    · rw [e]; exact hs (t, b') (List.mem_cons_self ..)
    · exact ih (fun v hv => hs v (List.mem_cons_of_mem _ hv)) u hu
  | finalize out out' _ ih => exact ih hs

theorem ss_session {mk : Byte} {cfg cfg' : C.Config} (hb : cfg.bits = cfg'.bits) {cs ds : List CCall} (h : SameCCalls cs ds)
    (hn : CObl.NL cfg cfg' ∨ ∀ s ∈ cUpdates cs, s.1.length < 2048) : ∀ {g g' : C.hasher}, CObl.SimH mk g g' →
    CObl.SS mk CObl.Any (cSessionT cfg cs g) (cSessionT cfg' ds g') := by
  induction h with
  | nil => intro g g' _; exact CObl.SS.pure trivial
  | update s t b b' e _ ih =>
    intro g g' hg
    rw [cSessionT, cSessionT, ← e]
    refine CObl.SS.bind (CObl.ss_update hb hg _ _ _ (hn.imp_right fun h => h (s, b) (List.mem_cons_self ..))) fun g1 g2 h1 => ?_
    exact ih (hn.imp_right fun h u hu => h u (List.mem_cons_of_mem _ hu)) h1
  | finalize out out' _ ih =>
    intro g g' hg
    rw [cSessionT, cSessionT]
    refine CObl.SS.bind (CObl.ss_finalize hb hg _ _) fun _ _ _ => CObl.SS.bind (ih hn hg) fun _ _ _ => CObl.SS.pure trivial

/-- two runs of the C hasher -/
theorem runs {mk : Byte} (cfg cfg' : C.Config) (hb : cfg.bits = cfg'.bits) (mem mem' : Bytes)
    (hmem : mem.length = C.OUT_LEN * C.MAX_DEPTH) (hmem' : mem'.length = C.OUT_LEN * C.MAX_DEPTH) (m m' : Spec.Mode)
    (hm : m.flag &&& mk = m'.flag &&& mk) (beyond beyond' : Bytes) (cs ds : List CCall) (h : SameCCalls cs ds)
    (hc : CCallsOk cfg cs) (hd : CCallsOk cfg' ds) :
    ∃ h₀ h₁, C.hasher_init mem ((modeKey m).toList ++ beyond) m.flag = .ok h₀ ∧
      C.hasher_init mem' ((modeKey m').toList ++ beyond') m'.flag = .ok h₁ ∧
      ∃ rs l rs' l', cSessionT cfg cs h₀ = ⟨.ok rs, l⟩ ∧ cSessionT cfg' ds h₁ = ⟨.ok rs', l'⟩ ∧
        l.map (CObl.pub mk) = l'.map (CObl.pub mk) := by
  obtain ⟨h0, e0, hw0⟩ := cwork_init mem m beyond
  obtain ⟨h1, e1, hw1⟩ := cwork_init mem' m' beyond'
  refine ⟨h0, h1, e0, e1, ?_⟩
  have s : CObl.SimH mk h0 h1 := by
    rw [C.hasher_init, C.load_key_words_eq, bind_ok] at e0 e1
    cases e0
    cases e1
    exact ⟨⟨rfl, rfl, rfl, hm⟩, rfl⟩
  obtain ⟨rs, l, e, -⟩ := csession_log cfg hc.bits m cs [] h0 [] hw0
    ⟨by simpa using hc.lt, Or.inl (by rw [hmem]; decide), by simpa using hc.asserts, hc.order⟩ hc.out
  obtain ⟨rs', l', e', -⟩ := csession_log cfg' hd.bits m' ds [] h1 [] hw1
    ⟨by simpa using hd.lt, Or.inl (by rw [hmem']; decide), by simpa using hd.asserts, hd.order⟩ hd.out
  have hn : CObl.NL cfg cfg' ∨ ∀ s ∈ cUpdates cs, s.1.length < 2048 := by
    rcases hc.order with h1 | h1
    · rcases hd.order with h2 | h2
      · exact Or.inl ⟨h1, h2⟩
      · exact Or.inr (same_short h h2)
    · exact Or.inr h1
  exact ⟨rs, l, rs', l', e, e', (ss_session hb h hn s _ _ _ _ e e').1⟩

/-- C63.  The compressions performed by any sequence of updates and finalizes on a C hasher, their order, lengths, offsets and
flags, depend on the calls and the lengths of the pieces only: not on the content of the pieces, nor on the key, on what
lies behind them in memory, on what uninitialised memory contains, or on the SIMD instructions the code is built for. -/
theorem C63_same (cfg cfg' : C.Config) (hb : cfg.bits = cfg'.bits) (mem mem' : Bytes)
    (hmem : mem.length = C.OUT_LEN * C.MAX_DEPTH) (hmem' : mem'.length = C.OUT_LEN * C.MAX_DEPTH) (m m' : Spec.Mode)
    (hm : SameKind m m') (beyond beyond' : Bytes) (cs ds : List CCall) (h : SameCCalls cs ds)
    (hc : CCallsOk cfg cs) (hd : CCallsOk cfg' ds) :
    ∃ h₀ h₁, C.hasher_init mem ((modeKey m).toList ++ beyond) m.flag = .ok h₀ ∧
      C.hasher_init mem' ((modeKey m').toList ++ beyond') m'.flag = .ok h₁ ∧
      observed (cSessionT cfg cs h₀) = observed (cSessionT cfg' ds h₁) := by
  obtain ⟨h0, h1, e0, e1, rs, l, rs', l', e, e', hl⟩ := runs (mk := 0xff) cfg cfg' hb mem mem' hmem hmem' m m'
    (by rw [hm.flag]) beyond beyond' cs ds h hc hd
  refine ⟨h0, h1, e0, e1, ?_⟩
  rw [e, e']
  have hp : ∀ n : Spec.Input, CObl.pub 0xff n = (n.blockLen, n.offset, n.flags) := fun n => by
    rw [CObl.pub, show (0xff : Byte) = BitVec.allOnes 8 from rfl, BitVec.and_allOnes]
  refine Prod.ext ?_ rfl
  show l.map _ = l'.map _
  rw [← funext hp]
  exact hl

/-- C63.  The three modes cost the same: the compressions performed in different modes, with any keys, on pieces of the same
lengths, differ in the flags that name the mode, `KEYED_HASH` and `DERIVE_KEY`, only. -/
theorem C63_modes (cfg cfg' : C.Config) (hb : cfg.bits = cfg'.bits) (mem mem' : Bytes)
    (hmem : mem.length = C.OUT_LEN * C.MAX_DEPTH) (hmem' : mem'.length = C.OUT_LEN * C.MAX_DEPTH) (m m' : Spec.Mode)
    (beyond beyond' : Bytes) (cs ds : List CCall) (h : SameCCalls cs ds) (hc : CCallsOk cfg cs) (hd : CCallsOk cfg' ds) :
    ∃ h₀ h₁, C.hasher_init mem ((modeKey m).toList ++ beyond) m.flag = .ok h₀ ∧
      C.hasher_init mem' ((modeKey m').toList ++ beyond') m'.flag = .ok h₁ ∧
      (cSessionT cfg cs h₀).log.map (fun n => (n.blockLen, n.offset, n.flags &&& ~~~(C.KEYED_HASH ||| C.DERIVE_KEY))) =
        (cSessionT cfg' ds h₁).log.map (fun n => (n.blockLen, n.offset, n.flags &&& ~~~(C.KEYED_HASH ||| C.DERIVE_KEY))) := by
  have hz : ∀ m : Spec.Mode, m.flag &&& 0xcf = 0 := fun m => by
    cases m
    · exact (by decide : (0 : Byte) &&& 0xcf = 0)
    · exact (by decide : C.KEYED_HASH &&& 0xcf = 0)
    · exact (by decide : C.DERIVE_KEY &&& 0xcf = 0)
  obtain ⟨h0, h1, e0, e1, rs, l, rs', l', e, e', hl⟩ := runs (mk := 0xcf) cfg cfg' hb mem mem' hmem hmem' m m'
    (by rw [hz, hz]) beyond beyond' cs ds h hc hd
  refine ⟨h0, h1, e0, e1, ?_⟩
  rw [e, e']
  exact hl

/-! The hypotheses can be met, with different contents, keys and builds.  By `C60_each_once` the first update and
finalize already perform 81 compressions. -/

/-- a build without AVX-512, and other values in uninitialised memory -/
def exC2 : C.Config := { exC with avx512 := false, junk := fun _ => 0x55 }

example (k k' : Vector Byte 32) : SameKind (.deriveKey k) (.deriveKey k') ∧ exC.bits = exC2.bits ∧
    SameCCalls [.update (rep 5000 3) [1], .finalize (rep 32 0), .update (rep 7 1) [], .finalize (rep 32 0)]
      [.update (rep 5000 4) [], .finalize (rep 50 1), .update (rep 7 2) [7], .finalize (rep 32 9)] :=
  ⟨.deriveKey k k', rfl, .update _ _ _ _ (by simp) (.finalize _ _ (.update _ _ _ _ (by simp) (.finalize _ _ .nil)))⟩
example : CCallsOk exC [.update (rep 5000 3) [1], .finalize (rep 32 0), .update (rep 7 1) [], .finalize (rep 32 0)] :=
  ⟨by simp [exC], by simp [fed, cUpdates], fun _ => Or.inl (by simp [fed, cUpdates]), Or.inl fun _ => rfl, by simp [cOuts]⟩
example : CCallsOk exC2 [.update (rep 5000 4) [], .finalize (rep 50 1), .update (rep 7 2) [7], .finalize (rep 32 9)] :=
  ⟨by simp [exC2, exC], by simp [fed, cUpdates], fun _ => Or.inl (by simp [fed, cUpdates]), Or.inl fun _ => rfl, by simp [cOuts]⟩

end Baokeshed.Props
