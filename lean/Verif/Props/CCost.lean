import Verif.Props.CTrace
import Verif.Props.Cost

/-!
# C65: what the calls of the C hasher cost

Bounds for the number of compressions.  The functions of Model/C/Trace.lean return what the functions of the model return
(`C60_same_results`).
-/

set_option linter.unusedVariables false

namespace Baokeshed.Props
open Baokeshed.Model Baokeshed.Proofs Baokeshed.Spec

attribute [local irreducible] Spec.compress Spec.outBytes Spec.cvBytes Spec.pad

/-- the hasher has done everything but what `hasher_finalize` still has to do, which is not much -/
theorem cwork_length {cfg : C.Config} (h16 : 16 ≤ cfg.bits) {m : Mode} {M : Nat} {p : Platform} {bytes : Bytes} {h : C.hasher}
    {W : List Spec.Input} (hw : CT.CWork m.key m.flag M p bytes h W) (hlt : bytes.length < 2 ^ 64) (out : Bytes)
    (ho : 32 ≤ out.length) :
    W.length + (CT.hasher_finalize cfg h out).log.length = compressions bytes.length ∧
      (CT.hasher_finalize cfg h out).log.length ≤ depth bytes.length + 1 := by
  obtain ⟨l, e, hp⟩ := CT.finalize_log m.key m.flag h16 bytes h W hw hlt out ho
  obtain ⟨g, -, hg⟩ := hw
  have hp' := (finalize_xof_log m.key m.flag p bytes g W hg hlt).length_eq
  have h1 := Nat.le_trans (finalize_xof_length g) ((CT.Work.ok m.key m.flag hg).memory _ _ hlt).2.1
  have h2 := hp.length_eq
  have h3 := calls_length m bytes
  rw [Spec.calls, List.length_append, List.length_singleton] at h3
  change (Spec.below m.key m.flag 0 bytes).length + 1 = _ at h3
  rw [e]
  simp only [List.length_append, List.length_singleton] at *
  refine ⟨by omega, ?_⟩
  show l.length + 1 ≤ Nat.log2 (bytes.length / 2048) + 1 + 1
  omega

/-- The conditions of C29 for the pieces passed to a hasher in memory `mem`. -/
structure CFedOk (cfg : C.Config) (mem : Bytes) (ss : List (Bytes × Bytes)) : Prop where
  bits : 16 ≤ cfg.bits
  mem : mem.length = C.OUT_LEN * C.MAX_DEPTH
  lt : (fed ss).length < 2 ^ 64
  asserts : cfg.asserts = true → (fed ss).length < 2 ^ 63 + 2048 ∨ ∀ s ∈ ss, s.1.length < 2048
  order : NeonLittle cfg ∨ ∀ s ∈ ss, s.1.length < 2048

theorem CFedOk.feedOk {cfg : C.Config} {mem : Bytes} {ss : List (Bytes × Bytes)} (h : CFedOk cfg mem ss) :
    FeedOk cfg mem.length ([] : Bytes).length ss :=
  ⟨by simpa using h.lt, Or.inl (by rw [h.mem]; decide), by simpa using h.asserts, h.order⟩

theorem cwork_feed {cfg : C.Config} (h16 : 16 ≤ cfg.bits) {m : Mode} {M : Nat} {p : Platform} (ss rest : List (Bytes × Bytes)) :
    ∀ (bytes : Bytes) (h : C.hasher) (W : List Spec.Input), CT.CWork m.key m.flag M p bytes h W →
    FeedOk cfg M bytes.length (ss ++ rest) →
    ∃ h' W', feed cfg h ss = .ok h' ∧ CT.CWork m.key m.flag M p (bytes ++ fed ss) h' W' ∧
      FeedOk cfg M (bytes ++ fed ss).length rest := by
  induction ss with
  | nil =>
    intro bytes h W hw hf
    have e : bytes ++ fed [] = bytes := List.append_nil _
    rw [e]
    exact ⟨h, W, rfl, hw, hf⟩
  | cons s ss ih =>
    intro bytes h W hw hf
    obtain ⟨piece, beyond⟩ := s
    obtain ⟨h1, l1, e1, hw1, hf1⟩ := cwork_update cfg h16 piece beyond _ bytes h W hw hf
    obtain ⟨h', W', e, hw', hf'⟩ := ih _ h1 _ hw1 hf1
    have e2 : C.hasher_update cfg h (piece ++ beyond) piece.length = .ok h1 := by rw [← CT.update_res, e1]
    rw [fed_cons, ← List.append_assoc]
    exact ⟨h', W', by rw [feed, e2, bind_ok]; exact e, hw', hf'⟩

/-- C65.  After `n` bytes in any pieces, `hasher_finalize` performs at most `depth n + 1` compressions, which is at most 54. -/
theorem C65_finalize (cfg : C.Config) (mem : Bytes) (m : Mode) (beyond : Bytes) (ss : List (Bytes × Bytes))
    (hok : CFedOk cfg mem ss) (out : Bytes) (ho : 32 ≤ out.length) :
    ∃ h₀ h, C.hasher_init mem ((modeKey m).toList ++ beyond) m.flag = .ok h₀ ∧ feed cfg h₀ ss = .ok h ∧
      (CT.hasher_finalize cfg h out).log.length ≤ depth (fed ss).length + 1 ∧
      (CT.hasher_finalize cfg h out).log.length ≤ 54 := by
  obtain ⟨h0, e0, hw0⟩ := cwork_init mem m beyond
  obtain ⟨h, W, e, hw, -⟩ := cwork_feed hok.bits ss [] [] h0 [] hw0 (by rw [List.append_nil]; exact hok.feedOk)
  rw [List.nil_append] at hw
  have h1 := (cwork_length hok.bits hw hok.lt out ho).2
  have h2 := (C59_depth _ hok.lt).1
  exact ⟨h0, h, e0, e, h1, by omega⟩

/-- C65.  After `n` bytes, an update with `s` bytes performs at most one compression per block, rounded up, one per chunk,
rounded up, and `depth n` more. -/
theorem C65_update (cfg : C.Config) (mem : Bytes) (m : Mode) (beyond : Bytes) (ss : List (Bytes × Bytes)) (s beyond' : Bytes)
    (hok : CFedOk cfg mem (ss ++ [(s, beyond')])) :
    ∃ h₀ h, C.hasher_init mem ((modeKey m).toList ++ beyond) m.flag = .ok h₀ ∧ feed cfg h₀ ss = .ok h ∧
      (CT.hasher_update cfg h (s ++ beyond') s.length).log.length ≤
        (s.length + 63) / 64 + (s.length + 2047) / 2048 + depth (fed ss).length := by
  obtain ⟨h0, e0, hw0⟩ := cwork_init mem m beyond
  obtain ⟨h, W, e, hw, hf⟩ := cwork_feed hok.bits ss [(s, beyond')] [] h0 [] hw0 hok.feedOk
  rw [List.nil_append] at hw hf
  obtain ⟨h1, l1, e1, hw1, hf1⟩ := cwork_update cfg hok.bits s beyond' [] (fed ss) h W hw hf
  have hlt1 : (fed ss ++ s).length < 2 ^ 64 := by have := hf1.lt; omega
  have hlt : (fed ss).length < 2 ^ 64 := by rw [List.length_append] at hlt1; omega
  obtain ⟨a1, a2⟩ := cwork_length hok.bits hw hlt (rep 32 0) (by simp)
  obtain ⟨b1, b2⟩ := cwork_length hok.bits hw1 hlt1 (rep 32 0) (by simp)
  obtain ⟨l, e2, -⟩ := CT.finalize_log m.key m.flag hok.bits _ h1 _ hw1 hlt1 (rep 32 0) (by simp)
  refine ⟨h0, h, e0, e, ?_⟩
  rw [e1]
  rw [e2] at b1
  simp only [List.length_append, List.length_singleton, compressions] at *
  omega

/-- how often a session finalizes -/
def cFinalizes (cs : List CCall) : Nat := (cOuts cs).length

theorem csession_length (cfg : C.Config) (h16 : 16 ≤ cfg.bits) (m : Mode) {M : Nat} {p : Platform} (cs : List CCall) :
    ∀ (bytes : Bytes) (h : C.hasher) (W : List Spec.Input), CT.CWork m.key m.flag M p bytes h W →
    FeedOk cfg M bytes.length (cUpdates cs) → (∀ out ∈ cOuts cs, 32 ≤ out.length) →
    W.length + (cSessionT cfg cs h).log.length + 1 ≤
      compressions (bytes.length + (fed (cUpdates cs)).length) +
        cFinalizes cs * (depth (bytes.length + (fed (cUpdates cs)).length) + 1) := by
  induction cs with
  | nil =>
    intro bytes h W hw hf _
    have hlt : bytes.length < 2 ^ 64 := by have := hf.lt; omega
    obtain ⟨l, e, hp⟩ := CT.finalize_log m.key m.flag h16 bytes h W hw hlt (rep 32 0) (by simp)
    obtain ⟨h1, -⟩ := cwork_length h16 hw hlt (rep 32 0) (by simp)
    rw [e] at h1
    simp only [List.length_append, List.length_singleton] at h1
    show W.length + 0 + 1 ≤ compressions (bytes.length + 0) + 0 * _
    rw [Nat.add_zero bytes.length]
    omega
  | cons c cs ih =>
    intro bytes h W hw hf ho
    cases c with
    | update piece beyond =>
      change FeedOk cfg M bytes.length ((piece, beyond) :: cUpdates cs) at hf
      obtain ⟨h1, l1, e1, hw1, hf1⟩ := cwork_update cfg h16 piece beyond _ bytes h W hw hf
      have := ih _ h1 _ hw1 hf1 ho
      have hu : (fed (cUpdates (.update piece beyond :: cs))).length = piece.length + (fed (cUpdates cs)).length := by
        show (fed ((piece, beyond) :: cUpdates cs)).length = _
        rw [fed_cons, List.length_append]
      have hc : cFinalizes (.update piece beyond :: cs) = cFinalizes cs := rfl
      rw [hu, hc, ← Nat.add_assoc, cSessionT, tr_bind _ e1]
      simp only [List.length_append] at *
      omega
    | finalize out =>
      have hlt : bytes.length < 2 ^ 64 := by have := hf.lt; omega
      have h3 := (cwork_length h16 hw hlt out (ho out (List.mem_cons_self ..))).2
      have := ih bytes h W hw hf (fun x hx => ho x (List.mem_cons_of_mem _ hx))
      have hd := depth_mono (Nat.le_add_right bytes.length (fed (cUpdates cs)).length)
      have hc : cFinalizes (.finalize out :: cs) = cFinalizes cs + 1 := rfl
      have hu : cUpdates (.finalize out :: cs) = cUpdates cs := rfl
      have : (cSessionT cfg (.finalize out :: cs) h).log.length ≤
          (CT.hasher_finalize cfg h out).log.length + ((cSessionT cfg cs h).log.length + 0) :=
        length_bind (Nat.le_refl _) fun o _ => length_bind (Nat.le_refl _) fun _ _ => Nat.le_refl _
      rw [hc, hu, Nat.add_mul]
      omega

/-- C65.  A session on a fresh hasher, `n` bytes in all in any pieces with `k` calls of `hasher_finalize` anywhere between
them, performs fewer compressions than one hash of `n` bytes and `k` times `depth n + 1` together. -/
theorem C65_session (cfg : C.Config) (mem : Bytes) (m : Mode) (beyond : Bytes) (cs : List CCall)
    (hok : CFedOk cfg mem (cUpdates cs)) (ho : ∀ out ∈ cOuts cs, 32 ≤ out.length) :
    ∃ h₀, C.hasher_init mem ((modeKey m).toList ++ beyond) m.flag = .ok h₀ ∧
      (cSessionT cfg cs h₀).log.length <
        compressions (fed (cUpdates cs)).length + (cOuts cs).length * (depth (fed (cUpdates cs)).length + 1) := by
  obtain ⟨h0, e0, hw0⟩ := cwork_init mem m beyond
  have := csession_length cfg hok.bits m cs [] h0 [] hw0 hok.feedOk ho
  simp only [List.length_nil, Nat.zero_add] at this
  exact ⟨h0, e0, this⟩

-- 5003 bytes in two pieces
example : CFedOk exC (rep 1696 9) [(rep 5000 1, [7]), (rep 3 2, [])] ∧ compressions 5003 = 81 ∧ depth 5003 = 2 :=
  ⟨⟨by simp [exC], by simp [C.OUT_LEN, C.MAX_DEPTH], by simp [fed], fun _ => Or.inl (by simp [fed]), Or.inl fun _ => rfl⟩,
    by decide, by decide⟩

end Baokeshed.Props
