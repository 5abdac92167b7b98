import Verif.Proofs.ParIsa
import Verif.Props.Par
import Verif.Props.Perf
import Verif.Props.Cost

/-!
# C76: with the `rayon` feature the same work is done, in whatever order

`Spec.Order w l`: the events of `w`, some of them side by side, can happen in the order `l`.  Model/Par.lean records compressions,
Model/ParIsa.lean the functions entered and the bytes copied; both return what the functions of the model return.
-/

set_option linter.unusedVariables false

namespace Baokeshed.Props.Ord
open Baokeshed.Model Baokeshed.Proofs Baokeshed.Proofs.Ord Baokeshed.Spec
open Baokeshed.Props.Isa (Runs Sane)

/-- the reason of a panic -/
def reason {α : Type} : R α → Option Panic
  | .ok _ => none
  | .error e => some e

/-- C76.  Whatever the schedule, the one-shot functions perform each compression of the tree exactly once and no other, and the
root last. -/
theorem C76_compressions (cfg : Config) (hv : cfg.Valid) (m : Mode) (input : Bytes) (hf : cfg.Fits input.length) (l : List Input)
    (hl : Order (P.oneShot cfg m input).work.events l) :
    (P.oneShot cfg m input).res = .ok (Spec.hash m input) ∧ ∃ l', l = l' ++ [root m input] ∧ l'.Perm (inner m input) := by
  obtain ⟨h1, h2, -, h3⟩ := C62_work cfg hv m input hf
  refine ⟨h1.trans (C01_one_shot_eq_spec cfg hv m input hf), ?_⟩
  obtain ⟨o, e, -, ho⟩ := oneShotXof_eq cfg m input hv hf
  have hx : (P.oneShotXof cfg m input).res = .ok o := h2.trans e
  have hw : (P.oneShot cfg m input).work = .seq (P.oneShotXof cfg m input).work (.calls [root m input]) := by
    rw [← ho]
    unfold P.oneShot
    generalize P.oneShotXof cfg m input = x at hx
    obtain ⟨r, w⟩ := x
    cases hx
    rfl
  have hp : l.Perm (calls m input) := (events_all _ ▸ Order.perm hl).trans h3
  rw [hw] at hl
  rcases hl with _ | ⟨ha, hb⟩ | _
  next l1 l2 =>
    cases hb
    exact ⟨l1, rfl, (List.perm_append_right_iff _).1 hp⟩

/-- C76.  An observer who learns the block length, the offset and the flags of each compression, in the order in which they happen,
and the reason of a panic, cannot tell two inputs of the same length or two keys apart: whatever they see of one, they can see of
the other.  On any machine, also outside the supported lengths. -/
theorem C76_oblivious (cfg : Config) (m m' : Mode) (hm : SameKind m m') (x y : Bytes) (h : x.length = y.length) :
    reason (P.oneShot cfg m x).res = reason (P.oneShot cfg m' y).res ∧
    ∀ r : List (Byte × U64 × Byte),
      (∃ l, Order (P.oneShot cfg m x).work.events l ∧ l.map (fun n => (n.blockLen, n.offset, n.flags)) = r) ↔
      (∃ l, Order (P.oneShot cfg m' y).work.events l ∧ l.map (fun n => (n.blockLen, n.offset, n.flags)) = r) := by
  obtain ⟨h1, h2⟩ := PO.rel_oneShot cfg m m' hm.flag h
  refine ⟨?_, fun r => ?_⟩
  · revert h2
    generalize (P.oneShot cfg m x).res = a
    generalize (P.oneShot cfg m' y).res = b
    intro h2
    cases a <;> cases b
    · exact congrArg some h2
    · exact h2.elim
    · exact h2.elim
    · rfl
  · rw [← order_map, ← order_map]
    exact Iff.of_eq (congrArg (Order · r) h1)

/-- C76.  A one-shot function followed by any calls on its `Output` returns what it returns without the feature.  If it returns,
then, whatever the schedule, it enters the same functions on as many bytes, equally often, and copies as many bytes; and the order
without the feature is one of the possible ones. -/
theorem C76_same_calls (cfg : Config) (prof : Profile) (m : Mode) (input : Bytes) (os : List OutCall) :
    (PI.oneShotRun cfg prof m input os).res = (I.oneShotRun cfg prof m input os).res ∧
    (PI.oneShot cfg m input).res = Model.oneShot cfg m input ∧
    ∀ rs, (I.oneShotRun cfg prof m input os).res = .ok rs →
      Order (PI.oneShotRun cfg prof m input os).work (I.oneShotRun cfg prof m input os).log ∧
      ∀ l, Order (PI.oneShotRun cfg prof m input os).work l →
        l.Perm (I.oneShotRun cfg prof m input os).log ∧ copied l = input.length % 64 := by
  have h := PI.oneShotRun_same cfg prof m input os
  refine ⟨h.1, (PI.oneShot_same cfg m input).1.trans (Proofs.I.oneShot_res ..), fun rs hr => ?_⟩
  have ha := h.2 rs hr
  refine ⟨ha ▸ Order.all _, fun l hl => ?_⟩
  have hp := ha ▸ Order.perm hl
  refine ⟨hp, ?_⟩
  rw [← (C59_copies cfg prof [] (newHasher cfg m) m input os).2.2 rs hr]
  exact (hp.map _).sum_nat

/-- C76.  On every schedule, also one that ends in a panic, only functions compiled for instruction sets that the processor has are
entered. -/
theorem C76_isa (cfg : Config) (hs : Sane cfg) (prof : Profile) (m : Mode) (input : Bytes) (os : List OutCall) :
    (∀ l, Order (PI.oneShot cfg m input).work l → ∀ c ∈ l, Runs cfg c) ∧
    (∀ l, Order (PI.oneShotRun cfg prof m input os).work l → ∀ c ∈ l, Runs cfg c) :=
  ⟨fun l hl c hc i hi => Isa.has_of_needs cfg hs i
      ((PI.on_oneShot cfg m input).1 c ((Order.perm hl).mem_iff.1 hc) i hi),
    fun l hl c hc i hi => Isa.has_of_needs cfg hs i
      ((PI.on_oneShotRun cfg prof m input os).1 c ((Order.perm hl).mem_iff.1 hc) i hi)⟩

/-- C76.  On every schedule the whole chunks are hashed with the least number of kernel calls the platform allows. -/
theorem C76_lanes (cfg : Config) (hv : cfg.Valid) (m : Mode) (input : Bytes) (hf : cfg.Fits input.length) (l : List I.Ev)
    (hl : Order (PI.oneShot cfg m input).work l) :
    (l.filter chunkKernel).Perm
      (if 2048 < input.length then kernels (Platform.detect cfg) 2048 (input.length / 2048) else []) := by
  have e : (I.oneShot cfg m input).res = .ok (Spec.hash m input) :=
    (Proofs.I.oneShot_res cfg m input).trans (C01_one_shot_eq_spec cfg hv m input hf)
  have hp := (PI.oneShot_same cfg m input).2 _ e ▸ Order.perm hl
  rw [← Lanes.C57_one_shot cfg hv m input hf]
  exact hp.filter _

/-- C76.  On as many bytes the three modes can do the same in the same orders, and panic alike, on any machine. -/
theorem C76_modes (cfg : Config) (prof : Profile) (m m' : Mode) (x y : Bytes) (h : x.length = y.length) (os : List OutCall) :
    reason (PI.oneShotRun cfg prof m x os).res = reason (PI.oneShotRun cfg prof m' y os).res ∧
    ∀ r : List I.Ev,
      (∃ l, Order (PI.oneShotRun cfg prof m x os).work l ∧ l.map unnamed = r) ↔
      (∃ l, Order (PI.oneShotRun cfg prof m' y os).work l ∧ l.map unnamed = r) := by
  obtain ⟨h1, h2⟩ := PI.rel_oneShotRun cfg prof m m' h os
  refine ⟨?_, fun r => ?_⟩
  · revert h2
    generalize (PI.oneShotRun cfg prof m x os).res = a
    generalize (PI.oneShotRun cfg prof m' y os).res = b
    intro h2
    cases a <;> cases b
    · exact congrArg some h2
    · exact h2.elim
    · exact h2.elim
    · rfl
  · rw [← order_map, ← order_map, show unnamed = Perf.pub from funext unnamed_eq]
    exact Iff.of_eq (congrArg (Order · r) h1)

/-! Examples.  Events side by side can happen in either order; those in series cannot. -/

example : Order (.par (.list [1, 2]) (.list [3])) [1, 3, 2] ∧ Order (.par (.list [1, 2]) (.list [3])) [3, 1, 2] :=
  ⟨.par (.list _) (.list _) (.left _ (.right _ (.left _ .nil))), .par (.list _) (.list _) (Merge.append' _ _)⟩
example : ¬ Order (.seq (.list [1, 2]) (.list [3])) [1, 3, 2] := by
  intro h
  generalize e : [1, 3, 2] = l at h
  rcases h with _ | ⟨ha, hb⟩ | _
  cases ha; cases hb; cases e
example : ¬ Order (.par (.list [1, 2]) (.list [3])) [2, 1, 3] := by
  intro h
  rcases h with _ | _ | ⟨ha, hb, hm⟩
  cases ha; cases hb; cases hm

/-- the right half first -/
def swapped (cfg : Config) (key : Vector Word 8) (off : U64) (flags : Byte) (p : Platform) (input out : Bytes) (l : Nat) : Prop :=
  ∃ (ro : U64) (lo rt : Bytes) (c : List I.Ev),
    (I.hash_recurse cfg input key off flags p out).log =
      (I.hash_recurse cfg (input.take l) key off flags p lo).log ++ (I.hash_recurse cfg (input.drop l) key ro flags p rt).log ++ c ∧
    Order (PI.hash_recurse cfg input key off flags p out).work
      ((I.hash_recurse cfg (input.drop l) key ro flags p rt).log ++ (I.hash_recurse cfg (input.take l) key off flags p lo).log ++ c)

theorem bind_ok {α β : Type} {x : PI.PIR α} {f : α → PI.PIR β} {b : β} (h : (x >>= f).res = .ok b) :
    ∃ a, x.res = .ok a ∧ (f a).res = .ok b ∧ (x >>= f).work = .seq x.work (f a).work := by
  obtain ⟨r, w⟩ := x
  cases r with
  | error e => cases h
  | ok a => exact ⟨a, rfl, h, rfl⟩

theorem shape {ε : Type} {L R : Events ε} {x y : List ε} (hL : L.all = x) (hR : R.all = y) (w : Events ε) :
    (Events.seq (.list []) (.seq (.list []) (.seq (.list []) (.seq (.par L R) w)))).all = x ++ y ++ w.all ∧
    Order (.seq (.list []) (.seq (.list []) (.seq (.list []) (.seq (.par L R) w)))) (y ++ x ++ w.all) := by
  subst hL hR
  have h0 : ∀ {b : Events ε} {l : List ε}, Order b l → Order (.seq (.list []) b) l := fun h => .seq (.list []) h
  exact ⟨rfl, h0 (h0 (h0 (.seq (.par (Order.all L) (Order.all R) (Merge.append' _ _)) (Order.all w))))⟩

/-- C76.  The feature has an effect: wherever the input is divided (after `l` bytes), the right half can be done before the left
one. -/
theorem C76_right_first (cfg : Config) (key : Vector Word 8) (off : U64) (flags : Byte) (p : Platform) (input out : Bytes)
    (r : Nat × Bytes) (hr : (I.hash_recurse cfg input key off flags p out).res = .ok r)
    (hn : ¬ input.length ≤ p.simd_degree * 2048) (l : Nat) (hl : left_len cfg.usizeBits input.length = .ok l) :
    swapped cfg key off flags p input out l := by
  have hs := PI.hash_recurse_same cfg key flags p input off out
  have hlog := hs.2 r hr
  have hpr : (PI.hash_recurse cfg input key off flags p out).res = .ok r := hs.1.trans hr
  unfold swapped
  rw [← hlog]
  rw [PI.hash_recurse, if_neg hn] at hpr ⊢
  split at hpr
  next e he => rw [hl] at he; cases he
  next l' he =>
    rw [hl] at he
    obtain rfl := Except.ok.inj he
    dsimp only at hpr ⊢
    obtain ⟨ro, -, h1, e1⟩ := bind_ok hpr
    obtain ⟨_, -, h2, e2⟩ := bind_ok h1
    obtain ⟨⟨lo, rt⟩, -, h3, e3⟩ := bind_ok h2
    obtain ⟨⟨⟨ln, lo'⟩, ⟨rn, rt'⟩⟩, h4, -, e4⟩ := bind_ok h3
    rw [e1, e2, e3, e4]
    have hL := PI.hash_recurse_same cfg key flags p (input.take l) off lo
    have hR := PI.hash_recurse_same cfg key flags p (input.drop l) ro rt
    obtain ⟨⟨a, ha⟩, ⟨b, hb⟩⟩ : (∃ a, (PI.hash_recurse cfg (input.take l) key off flags p lo).res = .ok a) ∧
        (∃ b, (PI.hash_recurse cfg (input.drop l) key ro flags p rt).res = .ok b) := by
      revert h4
      show (do
        let a ← (PI.hash_recurse cfg (input.take l) key off flags p lo).res
        let b ← (PI.hash_recurse cfg (input.drop l) key ro flags p rt).res
        pure (a, b) : R _) = _ → _
      generalize (PI.hash_recurse cfg (input.take l) key off flags p lo).res = x
      generalize (PI.hash_recurse cfg (input.drop l) key ro flags p rt).res = y
      intro h4
      cases x <;> cases y
      · cases h4
      · cases h4
      · cases h4
      · exact ⟨⟨_, rfl⟩, ⟨_, rfl⟩⟩
    obtain ⟨k1, k2⟩ := shape (hL.2 a (hL.1.symm.trans ha)) (hR.2 b (hR.1.symm.trans hb)) _
    exact ⟨ro, lo, rt, _, k1, k2⟩

/-- nine chunks with AVX2 are divided after eight -/
example : Isa.haswell.Valid ∧ Isa.haswell.Fits (rep 18432 1).length ∧ Sane Isa.haswell ∧
    ¬ (rep 18432 1).length ≤ Platform.avx2.simd_degree * 2048 ∧ left_len Isa.haswell.usizeBits (rep 18432 1).length = .ok 16384 := by
  rw [length_rep]
  exact ⟨by show 16 ≤ 64 ∧ 64 ≤ 64; decide, by show 18432 < 2 ^ 63; decide, fun _ => rfl, by decide, by decide⟩

end Baokeshed.Props.Ord
