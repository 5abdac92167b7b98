import Verif.Props.Steps
import Verif.Props.Oblivious
import Verif.Props.Trace
import Verif.Proofs.Operations

/-!
# C90: what the library executes does not depend on keys or content

Model/StepsLib.lean repeats the functions of the library on top of the kernels of Model/Steps.lean and records every operation,
every access to an array or a slice with its position, and the outcome of every condition, in order.
-/

namespace Baokeshed.Props
open Baokeshed.Model Baokeshed.Proofs

/-- C90.  The recording versions return what the functions return. -/
theorem C90_same_results (cfg : Config) (prof : Profile) (m : Spec.Mode) :
    (∀ x, (Steps.oneShotXof cfg m x).res = oneShotXof cfg m x) ∧
    (Steps.newHasher cfg m).res = .ok (newHasher cfg m) ∧
    (∀ h x, (Steps.Hasher.update cfg h x).res = h.update cfg x) ∧
    (∀ h, (Steps.Hasher.finalize_xof h).res = h.finalize_xof) ∧
    (∀ o, (Steps.Output.to_hash o).res = .ok o.to_hash) ∧
    (∀ o, (Steps.Output.read prof o).res = o.read prof) ∧
    (∀ x os, (Steps.oneShotRun cfg prof m x os).res = (do
      let o ← oneShotXof cfg m x
      let r ← o.run prof os
      return r.1)) ∧
    ∀ cs, (Steps.sessionRun cfg prof m cs).res = (newHasher cfg m).session cfg prof cs := by
  refine ⟨fun x => Steps.oneShotXof_res cfg m x, ?_, fun h x => Steps.update_res cfg h x, fun h => Steps.finalize_xof_res h,
    fun o => Steps.to_hash_res o, fun o => Steps.read_res prof o, fun x os => ?_, fun cs => ?_⟩
  · cases m <;> rfl
  · rw [Steps.oneShotRun, Steps.bind_res, Steps.oneShotXof_res]
    refine congrArg (Bind.bind _) (funext fun o => ?_)
    rw [Steps.bind_res, Steps.run_res]
    rfl
  · rw [Steps.sessionRun, Steps.bind_res, show (Steps.newHasher cfg m).res = .ok (newHasher cfg m) by cases m <;> rfl,
      Steps.ok_bind, Steps.session_res]

/-- C90.  What a one-shot function and reads of its output execute, every operation, position and condition in order, and whether
there is a panic, depends on the length of the input and the calls only: not on its content and not on the key.  On any machine,
also outside the supported lengths. -/
theorem C90_one_shot (cfg : Config) (prof : Profile) (m m' : Spec.Mode) (hm : SameKind m m') (x y : Bytes)
    (h : x.length = y.length) (os : List OutCall) :
    watched (Steps.oneShotRun cfg prof m x os) = watched (Steps.oneShotRun cfg prof m' y os) :=
  watched_eq (Steps.rec_oneShotRun cfg prof m m' hm.flag h os)

/-- C90.  The same for a new hasher and every sequence of `update`s, `finalize_xof`s and reads on it. -/
theorem C90_session (cfg : Config) (prof : Profile) (m m' : Spec.Mode) (hm : SameKind m m') (cs ds : List HCall)
    (h : SameCalls cs ds) : watched (Steps.sessionRun cfg prof m cs) = watched (Steps.sessionRun cfg prof m' ds) := by
  have hc : Obl.SameCalls cs ds := by
    induction h with
    | nil => exact .nil
    | update s t e _ ih => exact .cons (.update s t e) ih
    | output os _ ih => exact .cons (.output os) ih
  exact watched_eq (Steps.rec_sessionRun cfg prof m m' hm.flag hc)

/-! ## How much is executed -/

/-- compressions below the root of the tree of `n` bytes: the blocks of 64 bytes and the parents, but one -/
def innerCount (n : Nat) : Nat := max 1 ((n + 63) / 64) + (max 1 ((n + 2047) / 2048) - 1) - 1

theorem inner_length (m : Spec.Mode) (x : Bytes) : (Spec.inner m x).length = innerCount x.length := by
  rw [Spec.inner, below_length, innerCount]
  omega

theorem updates_session (cfg : Config) (prof : Profile) (cs : List HCall) (ss : List Bytes) : ∀ (h h' : Hasher) (l : List Spec.Input),
    T.Hasher.updates cfg h ss = ⟨.ok h', l⟩ →
    (T.Hasher.session cfg prof (ss.map .update ++ cs) h).log = l ++ (T.Hasher.session cfg prof cs h').log := by
  induction ss with
  | nil =>
    intro h h' l e
    cases e
    rfl
  | cons s ss ih =>
    intro h h' l e
    rw [T.Hasher.updates] at e
    rw [List.map_cons, List.cons_append, T.Hasher.session]
    rcases k : T.Hasher.update cfg h s with ⟨_ | h1, l1⟩
    · rw [k] at e
      cases e
    · rw [tr_bind _ k] at e
      rw [tr_bind _ rfl]
      rcases k' : T.Hasher.updates cfg h1 ss with ⟨r, l2⟩
      rw [k'] at e
      injection e with e1 e2
      subst e1
      dsimp only
      rw [ih _ _ _ k', ← e2, List.append_assoc]

/-- C90.  On a machine without SSE4.1, hashing and reading `os.length` outputs executes exactly 336 additions and 224 rotations of
32-bit words per block and per parent below the root, and per output read: no compression is done twice, none is left out. -/
theorem C90_operations (cfg : Config) (hv : cfg.Valid) (hp : Platform.detect cfg = .portable) (prof : Profile) (m : Spec.Mode)
    (x : Bytes) (hf : cfg.Fits x.length) (os : List OutCall) (hr : prof = .release ∨ os.count .read ≤ 2 ^ 58 - 1) :
    times "wrapping_add" (Steps.oneShotRun cfg prof m x os).log = 336 * (innerCount x.length + os.length) ∧
    times "rotate_right" (Steps.oneShotRun cfg prof m x os).log = 224 * (innerCount x.length + os.length) := by
  have h : (T.oneShotRun cfg prof m x os).log.length = innerCount x.length + os.length := by
    obtain ⟨o, e, -, ho⟩ := oneShotXof_eq cfg m x hv hf
    have hl := oneShotXof_log cfg m x hv hf
    have ho0 : o.offset = 0 := (congrArg Spec.Input.offset ho).trans (root_offset m x)
    obtain ⟨o', l, e', hn, -⟩ := out_run_log prof os o (hr.imp_right fun h => by
      rw [ho0, show (0 : U64).toNat = 0 from rfl]; omega)
    rw [T.oneShotRun, tr_bind _ (tr_eq ((T.oneShotXof_res cfg m x).trans e)), tr_bind _ e']
    show ((T.oneShotXof cfg m x).log ++ (l ++ [])).length = _
    rw [List.append_nil, List.length_append, hl.length_eq, inner_length, hn]
  have k := (Steps.lk_oneShotRun cfg hp prof m x os).2.1
  rw [h] at k
  exact ⟨congrArg Prod.fst k, congrArg Prod.snd k⟩

/-- C90.  The same with a hasher, however the input is cut into slices. -/
theorem C90_operations_incremental (cfg : Config) (hp : Platform.detect cfg = .portable) (prof : Profile) (m : Spec.Mode)
    (ss : List Bytes) (hl : ss.flatten.length < 2 ^ 64) (os : List OutCall) (hr : prof = .release ∨ os.count .read ≤ 2 ^ 58 - 1) :
    times "wrapping_add" (Steps.sessionRun cfg prof m (ss.map .update ++ [.output os])).log =
      336 * (innerCount ss.flatten.length + os.length) ∧
    times "rotate_right" (Steps.sessionRun cfg prof m (ss.map .update ++ [.output os])).log =
      224 * (innerCount ss.flatten.length + os.length) := by
  have h : (T.Hasher.session cfg prof (ss.map .update ++ [.output os]) (newHasher cfg m)).log.length =
      innerCount ss.flatten.length + os.length := by
    obtain ⟨h, l, e, hw⟩ := (WorkAt.new cfg m).updates ss (by simpa using hl)
    rw [List.nil_append, List.nil_append] at hw
    obtain ⟨o, l1, e1, ho, hq⟩ := hw.finalize_xof
    have ho0 : o.offset = 0 := (congrArg Spec.Input.offset ho).trans (root_offset m _)
    obtain ⟨o', l2, e', hn, -⟩ := out_run_log prof os o (hr.imp_right fun h => by
      rw [ho0, show (0 : U64).toNat = 0 from rfl]; omega)
    rw [updates_session cfg prof _ ss _ _ _ e, T.Hasher.session, tr_bind _ e1, tr_bind _ e']
    show (l ++ (l1 ++ (l2 ++ []))).length = _
    rw [List.append_nil, ← List.append_assoc, List.length_append, hq.length_eq, inner_length, hn]
  have k := (Steps.lk_sessionRun cfg hp prof m (ss.map .update ++ [.output os])).2.1
  rw [h] at k
  exact ⟨congrArg Prod.fst k, congrArg Prod.snd k⟩

/-! The hypotheses can be met. -/

example (k k' : Vector Byte 32) : SameKind (.deriveKey k) (.deriveKey k') ∧ (rep 5000 3).length = (rep 5000 4).length :=
  ⟨.deriveKey k k', by simp⟩
example : SameCalls [.update (rep 5000 3), .output [.read], .update (rep 7 1), .output [.toHash]]
    [.update (rep 5000 4), .output [.read], .update (rep 7 2), .output [.toHash]] :=
  .update _ _ (by simp) (.output _ (.update _ _ (by simp) (.output _ .nil)))
-- an ARM machine, 5000 bytes, two outputs: 79 blocks and 2 parents, one of them the root
example : (⟨false, false, false, 32⟩ : Config).Valid ∧ Platform.detect ⟨false, false, false, 32⟩ = .portable ∧
    (⟨false, false, false, 32⟩ : Config).Fits (rep 5000 3).length ∧ [OutCall.read, .read].count .read ≤ 2 ^ 58 - 1 ∧
    innerCount (rep 5000 3).length + [OutCall.read, .read].length = 82 := by
  refine ⟨by unfold Config.Valid; decide, by decide, ?_, by decide, ?_⟩
  · simp [Config.Fits]
  · simp [innerCount]
example : [rep 2048 1, [], rep 16395 1].flatten.length < 2 ^ 64 ∧ innerCount [rep 2048 1, [], rep 16395 1].flatten.length = 297 := by
  simp [innerCount]

end Baokeshed.Props
