import Verif.Model.ParIsa
import Verif.Proofs.Par
import Verif.Proofs.Perf

/-! # The one-shot functions with the `rayon` feature: which functions are entered, and in which orders -/

set_option linter.unusedVariables false
set_option linter.unusedSimpArgs false

namespace Baokeshed.Proofs.Ord
open Baokeshed.Spec

/-! ## Orders -/

/-- all events, from left to right -/
def _root_.Baokeshed.Spec.Events.all {ε : Type} : Events ε → List ε
  | .list l => l
  | .seq a b => a.all ++ b.all
  | .par a b => a.all ++ b.all

theorem Merge.perm {ε : Type} {a b l : List ε} (h : Merge a b l) : l.Perm (a ++ b) := by
  induction h with
  | nil => exact .nil
  | left x _ ih => exact .cons x ih
  | right x _ ih => exact (List.Perm.cons x ih).trans List.perm_middle.symm

theorem Merge.nil_right {ε : Type} (a : List ε) : Merge a [] a := by
  induction a with
  | nil => exact .nil
  | cons x a ih => exact .left x ih

theorem Merge.nil_left {ε : Type} (a : List ε) : Merge [] a a := by
  induction a with
  | nil => exact .nil
  | cons x a ih => exact .right x ih

theorem Merge.append {ε : Type} (a b : List ε) : Merge a b (a ++ b) := by
  induction a with
  | nil => exact Merge.nil_left b
  | cons x a ih => exact .left x ih

theorem Merge.append' {ε : Type} (a b : List ε) : Merge a b (b ++ a) := by
  induction b with
  | nil => exact Merge.nil_right a
  | cons x a ih => exact .right x ih

theorem Order.perm {ε : Type} {w : Events ε} {l : List ε} (h : Order w l) : l.Perm w.all := by
  induction h with
  | list l => exact .refl _
  | seq _ _ ih ih' => exact ih.append ih'
  | par _ _ hm ih ih' => exact (Merge.perm hm).trans (ih.append ih')

/-- the order of a build without the feature is one of them -/
theorem Order.all {ε : Type} (w : Events ε) : Order w w.all := by
  induction w with
  | list l => exact .list l
  | seq a b iha ihb => exact .seq iha ihb
  | par a b iha ihb => exact .par iha ihb (Merge.append _ _)

theorem events_all (w : Work) : w.events.all = w.all := by
  induction w with
  | calls l => rfl
  | seq a b iha ihb => exact congr (congrArg _ iha) ihb
  | par a b iha ihb => exact congr (congrArg _ iha) ihb

theorem Merge.map {ε ζ : Type} (f : ε → ζ) {a b l : List ε} (h : Merge a b l) : Merge (a.map f) (b.map f) (l.map f) := by
  induction h with
  | nil => exact .nil
  | left x _ ih => exact .left _ ih
  | right x _ ih => exact .right _ ih

theorem Merge.unmap {ε ζ : Type} (f : ε → ζ) {x y r : List ζ} (h : Merge x y r) : ∀ {a b : List ε}, a.map f = x → b.map f = y →
    ∃ l, Merge a b l ∧ l.map f = r := by
  induction h with
  | nil =>
    intro a b ha hb
    rw [List.map_eq_nil_iff] at ha hb
    subst ha hb
    exact ⟨[], .nil, rfl⟩
  | left v _ ih =>
    intro a b ha hb
    rcases a with _ | ⟨u, a⟩
    · cases ha
    · rw [List.map_cons, List.cons.injEq] at ha
      obtain ⟨l, hm, e⟩ := ih ha.2 hb
      exact ⟨u :: l, .left u hm, by rw [List.map_cons, ha.1, e]⟩
  | right v _ ih =>
    intro a b ha hb
    rcases b with _ | ⟨u, b⟩
    · cases hb
    · rw [List.map_cons, List.cons.injEq] at hb
      obtain ⟨l, hm, e⟩ := ih ha hb.2
      exact ⟨u :: l, .right u hm, by rw [List.map_cons, hb.1, e]⟩

/-- The orders of what can be seen are what can be seen of the orders. -/
theorem order_map {ε ζ : Type} (f : ε → ζ) (w : Events ε) (r : List ζ) :
    Order (w.map f) r ↔ ∃ l, Order w l ∧ l.map f = r := by
  constructor
  · induction w generalizing r with
    | list l =>
      intro h
      cases h
      exact ⟨l, .list l, rfl⟩
    | seq a b iha ihb =>
      intro h
      rcases h with _ | ⟨h1, h2⟩ | _
      obtain ⟨l1, o1, rfl⟩ := iha _ h1
      obtain ⟨l2, o2, rfl⟩ := ihb _ h2
      exact ⟨l1 ++ l2, .seq o1 o2, List.map_append⟩
    | par a b iha ihb =>
      intro h
      rcases h with _ | _ | ⟨h1, h2, hm⟩
      obtain ⟨l1, o1, rfl⟩ := iha _ h1
      obtain ⟨l2, o2, rfl⟩ := ihb _ h2
      obtain ⟨l, hl, rfl⟩ := Merge.unmap f hm rfl rfl
      exact ⟨l, .par o1 o2 hl, rfl⟩
  · rintro ⟨l, h, rfl⟩
    induction h with
    | list l => exact .list _
    | seq _ _ ih ih' => rw [List.map_append]; exact .seq ih ih'
    | par _ _ hm ih ih' => exact .par ih ih' (Merge.map f hm)

end Baokeshed.Proofs.Ord

namespace Baokeshed.Proofs.PI
open Baokeshed.Model Baokeshed.Model.PI Baokeshed.Model.I Baokeshed.Proofs Baokeshed.Proofs.I Baokeshed.Proofs.Ord
open Baokeshed.Spec (Events Order)

/-! ## Same results, same events -/

/-- the same result and, if there is one, the same compressions -/
def Same {α} (x : PIR α) (y : IR α) : Prop :=
  x.res = y.res ∧ ∀ a, y.res = .ok a → x.work.all = y.log

theorem same_bind {α β} {x : PIR α} {y : IR α} {f : α → PIR β} {g : α → IR β} (h : Same x y)
    (hf : ∀ a, Same (f a) (g a)) : Same (x >>= f) (y >>= g) := by
  obtain ⟨rx, wx⟩ := x
  obtain ⟨ry, ly⟩ := y
  obtain ⟨h1, h2⟩ := h
  dsimp only at h1 h2
  subst h1
  cases rx with
  | error e => exact ⟨rfl, fun a h => by cases h⟩
  | ok a =>
    refine ⟨(hf a).1, fun b hb => ?_⟩
    show wx.all ++ (f a).work.all = ly ++ (g a).log
    rw [h2 a rfl, (hf a).2 b hb]

theorem same_ir {α} (y : IR α) : Same (liftM y : PIR α) y := ⟨rfl, fun _ _ => rfl⟩

theorem same_r {α} (r : R α) : Same (liftM r : PIR α) (liftM r : IR α) := ⟨rfl, fun _ _ => rfl⟩

theorem same_pure {α} (a : α) : Same (pure a : PIR α) (pure a : IR α) := ⟨rfl, fun _ _ => rfl⟩

theorem same_join {α β γ} {x : PIR α} {y : IR α} {x' : PIR β} {y' : IR β} {f : α × β → PIR γ} {g : α → β → IR γ}
    (h : Same x y) (h' : Same x' y') (hf : ∀ a b, Same (f (a, b)) (g a b)) :
    Same (PI.join x x' >>= f) (y >>= fun a => y' >>= fun b => g a b) := by
  obtain ⟨rx, wx⟩ := x
  obtain ⟨rx', wx'⟩ := x'
  obtain ⟨ry, ly⟩ := y
  obtain ⟨ry', ly'⟩ := y'
  obtain ⟨h1, h2⟩ := h
  obtain ⟨h1', h2'⟩ := h'
  dsimp only at h1 h2 h1' h2'
  subst h1 h1'
  cases rx with
  | error e => exact ⟨rfl, fun a h => by cases h⟩
  | ok a =>
    cases rx' with
    | error e => exact ⟨rfl, fun a h => by cases h⟩
    | ok b =>
      refine ⟨(hf a b).1, fun c hc => ?_⟩
      show (wx.all ++ wx'.all) ++ (f (a, b)).work.all = ly ++ (ly' ++ (g a b).log)
      rw [h2 a rfl, h2' b rfl, (hf a b).2 c hc, List.append_assoc]

theorem hash_recurse_same (cfg : Config) (key : Vector Word 8) (flags : Byte) (p : Platform) (input : Bytes) :
    ∀ (off : U64) (out : Bytes),
    Same (PI.hash_recurse cfg input key off flags p out) (I.hash_recurse cfg input key off flags p out) := by
  induction hn : input.length using Nat.strongRecOn generalizing input with
  | ind n ih =>
  subst hn
  intro off out
  rw [PI.hash_recurse, I.hash_recurse]
  split
  · exact same_ir _
  · split
    next e he =>
      split
      next e' he' => rw [he] at he'; cases he'; exact ⟨rfl, fun a h => by cases h⟩
      next l he' => rw [he] at he'; cases he'
    next l he =>
      split
      next e' he' => rw [he] at he'; cases he'
      next l' he' =>
        rw [he] at he'; obtain rfl := Except.ok.inj he'
        have h1 := left_len_lt he
        have h2 := left_len_pos he
        dsimp only
        refine same_bind (same_r _) fun ro => same_bind (same_r _) fun _ => same_bind (same_r _) fun s => ?_
        obtain ⟨lo, rt⟩ := s
        refine same_join (ih (input.take l).length (by rw [List.length_take]; omega) _ rfl _ _)
          (ih (input.drop l).length (by rw [List.length_drop]; omega) _ rfl _ _) fun a b => ?_
        obtain ⟨ln, lo⟩ := a
        obtain ⟨rn, ro'⟩ := b
        dsimp only
        refine same_bind (same_r _) fun _ => same_bind (same_r _) fun _ => ?_
        split
        · exact same_bind (same_r _) fun _ => same_bind (same_r _) fun _ => same_pure _
        · exact same_bind (same_r _) fun _ => same_ir _

theorem hash_internal_same (cfg : Config) (input : Bytes) (key : Vector Word 8) (flags : Byte) :
    Same (PI.hash_internal cfg input key flags) (I.hash_internal cfg input key flags) := by
  rw [PI.hash_internal, I.hash_internal]
  dsimp only
  split
  · exact same_ir _
  · exact same_bind (hash_recurse_same ..) fun _ => same_bind (same_r _) fun _ => same_ir _

theorem oneShotXof_same (cfg : Config) (m : Spec.Mode) (input : Bytes) :
    Same (PI.oneShotXof cfg m input) (I.oneShotXof cfg m input) := by
  cases m <;> exact hash_internal_same ..

theorem oneShot_same (cfg : Config) (m : Spec.Mode) (input : Bytes) :
    Same (PI.oneShot cfg m input) (I.oneShot cfg m input) :=
  same_bind (oneShotXof_same ..) fun _ => same_ir _

theorem oneShotRun_same (cfg : Config) (prof : Profile) (m : Spec.Mode) (input : Bytes) (os : List OutCall) :
    Same (PI.oneShotRun cfg prof m input os) (I.oneShotRun cfg prof m input os) :=
  same_bind (oneShotXof_same ..) fun _ => same_bind (same_ir _) fun _ => same_pure _

/-! ## Instruction sets, also in case of a panic -/

/-- `x` uses only what `p` needs, and its result has the property `Q` -/
def OnP {α : Type} (p : Platform) (Q : α → Prop) (x : PIR α) : Prop :=
  (∀ c ∈ x.work.all, ∀ i, c.isa = some i → i ∈ needs p) ∧ ∀ a, x.res = .ok a → Q a

theorem OnP.bind {α β : Type} {p : Platform} {Q : α → Prop} {Q' : β → Prop} {x : PIR α} {f : α → PIR β}
    (hx : OnP p Q x) (hf : ∀ a, Q a → OnP p Q' (f a)) : OnP p Q' (x >>= f) := by
  obtain ⟨r, l⟩ := x
  cases r with
  | error e => exact ⟨hx.1, fun a h => by cases h⟩
  | ok a =>
    have h := hf a (hx.2 a rfl)
    refine ⟨fun i hi => ?_, h.2⟩
    rcases List.mem_append.1 hi with hi | hi
    · exact hx.1 i hi
    · exact h.1 i hi

theorem OnP.pure {α : Type} {p : Platform} {Q : α → Prop} {a : α} (h : Q a) : OnP p Q (Pure.pure a : PIR α) :=
  ⟨(fun i hi => by cases hi), (fun b hb => by cases hb; exact h)⟩

theorem OnP.any {α : Type} {p : Platform} (r : R α) : OnP p (fun _ => True) (liftM r : PIR α) :=
  ⟨(fun i hi => by cases hi), fun _ _ => trivial⟩

theorem OnP.of {α : Type} {p : Platform} {Q : α → Prop} {x : IR α} (h : On p Q x) : OnP p Q (liftM x : PIR α) := h

theorem OnP.join {α β : Type} {p : Platform} {x : PIR α} {y : PIR β} (hx : OnP p (fun _ => True) x)
    (hy : OnP p (fun _ => True) y) : OnP p (fun _ => True) (PI.join x y) :=
  ⟨fun c hc => (List.mem_append.1 hc).elim (hx.1 c) (hy.1 c), fun _ _ => trivial⟩

theorem on_hash_recurse (p : Platform) (cfg : Config) (input : Bytes) (key : Vector Word 8) (off : U64) (flags : Byte)
    (out : Bytes) : OnP p (fun _ => True) (PI.hash_recurse cfg input key off flags p out) := by
  induction hn : input.length using Nat.strongRecOn generalizing input off out with
  | ind n ih =>
  rw [PI.hash_recurse]
  split
  · exact .of (on_hash_chunks_parallel p ..)
  · split
    next e he => exact ⟨(fun i hi => by cases hi), fun a h => by cases h⟩
    next l hl =>
      have h1 := left_len_lt hl
      have h2 := left_len_pos hl
      refine (OnP.any _).bind fun _ _ => (OnP.any _).bind fun _ _ => (OnP.any _).bind fun s _ =>
        (OnP.join (ih (input.take l).length (by simp; omega) (input.take l) _ _ rfl)
          (ih (input.drop l).length (by simp; omega) (input.drop l) _ _ rfl)).bind fun r2 _ =>
        (OnP.any _).bind fun _ _ => (OnP.any _).bind fun _ _ => ?_
      dsimp only
      split
      · exact (OnP.any _).bind fun _ _ => (OnP.any _).bind fun _ _ => .pure trivial
      · exact (OnP.any _).bind fun _ _ => .of (on_hash_parents_parallel p ..)

theorem on_hash_internal (cfg : Config) (input : Bytes) (key : Vector Word 8) (flags : Byte) :
    OnP (Platform.detect cfg) (OutP (Platform.detect cfg)) (PI.hash_internal cfg input key flags) := by
  unfold PI.hash_internal
  dsimp only
  split
  · exact .of (on_hash_one_chunk _ ..)
  · exact (on_hash_recurse _ ..).bind fun _ _ => (OnP.any _).bind fun _ _ => .of (on_condense_root _ ..)

theorem on_oneShotRun (cfg : Config) (prof : Profile) (m : Spec.Mode) (input : Bytes) (os : List OutCall) :
    OnP (Platform.detect cfg) (fun _ => True) (PI.oneShotRun cfg prof m input os) := by
  have h : OnP (Platform.detect cfg) (OutP (Platform.detect cfg)) (PI.oneShotXof cfg m input) := by
    cases m <;> exact on_hash_internal ..
  exact h.bind fun o ho => (OnP.of (on_run _ prof os o ho)).bind fun _ _ => .pure trivial

theorem on_oneShot (cfg : Config) (m : Spec.Mode) (input : Bytes) :
    OnP (Platform.detect cfg) (fun _ => True) (PI.oneShot cfg m input) := by
  have h : OnP (Platform.detect cfg) (OutP (Platform.detect cfg)) (PI.oneShotXof cfg m input) := by
    cases m <;> exact on_hash_internal ..
  exact h.bind fun o ho => .of (on_to_hash _ o ho)

/-! ## Two runs on inputs of equal lengths -/

open Baokeshed.Proofs.Perf (pub Low)
open Baokeshed.Proofs.Obl (RelR SameLen Any rel_assert rel_writeAt rel_sliceTo rel_splitAtR SimP)

def Rel {α β} (Q : α → β → Prop) (x : PIR α) (y : PIR β) : Prop :=
  x.work.map pub = y.work.map pub ∧ RelR Q x.res y.res

theorem Rel.mono {α β} {Q Q' : α → β → Prop} (h : ∀ a b, Q a b → Q' a b) {x : PIR α} {y : PIR β} (hr : Rel Q x y) :
    Rel Q' x y := ⟨hr.1, hr.2.mono h⟩

theorem Rel.bind {α β α' β'} {Q : α → β → Prop} {Q' : α' → β' → Prop} {x : PIR α} {y : PIR β} {f : α → PIR α'} {g : β → PIR β'}
    (h : Rel Q x y) (hf : ∀ a b, Q a b → Rel Q' (f a) (g b)) : Rel Q' (x >>= f) (y >>= g) := by
  obtain ⟨rx, lx⟩ := x
  obtain ⟨ry, ly⟩ := y
  obtain ⟨h1, h2⟩ := h
  cases rx <;> cases ry
  · exact ⟨h1, h2⟩
  · exact h2.elim
  · exact h2.elim
  · obtain ⟨k1, k2⟩ := hf _ _ h2
    refine ⟨?_, k2⟩
    exact (congrArg (Events.seq · _) h1).trans (congrArg (Events.seq _) k1)

theorem Rel.pure {α β} {Q : α → β → Prop} {a : α} {b : β} (h : Q a b) : Rel Q (Pure.pure a : PIR α) (Pure.pure b : PIR β) :=
  ⟨rfl, h⟩

theorem Rel.lift {α β} {Q : α → β → Prop} {x : R α} {y : R β} (h : RelR Q x y) :
    Rel Q (liftM x : PIR α) (liftM y : PIR β) := ⟨rfl, h⟩

theorem Rel.liftBind {α β α' β'} {Q : α → β → Prop} {Q' : α' → β' → Prop} {x : R α} {y : R β} {f : α → PIR α'} {g : β → PIR β'}
    (h : RelR Q x y) (hf : ∀ a b, Q a b → Rel Q' (f a) (g b)) : Rel Q' ((liftM x : PIR α) >>= f) ((liftM y : PIR β) >>= g) :=
  Rel.bind (Rel.lift h) hf

theorem Rel.ite {α β} {Q : α → β → Prop} {c c' : Prop} [Decidable c] [Decidable c'] {x y : PIR α} {x' y' : PIR β}
    (hc : c ↔ c') (h : c → c' → Rel Q x x') (h' : ¬ c → ¬ c' → Rel Q y y') :
    Rel Q (if c then x else y) (if c' then x' else y') := by
  by_cases k : c
  · rw [if_pos k, if_pos (hc.1 k)]; exact h k (hc.1 k)
  · rw [if_neg k, if_neg (fun t => k (hc.2 t))]; exact h' k (fun t => k (hc.2 t))

theorem Rel.error {α β} {Q : α → β → Prop} (e : Panic) : Rel Q (⟨.error e, .list []⟩ : PIR α) (⟨.error e, .list []⟩ : PIR β) := ⟨rfl, rfl⟩

theorem Rel.join {α β α' β'} {Q : α → β → Prop} {Q' : α' → β' → Prop} {x : PIR α} {y : PIR β} {x' : PIR α'} {y' : PIR β'}
    (h : Rel Q x y) (h' : Rel Q' x' y') : Rel (fun a b => Q a.1 b.1 ∧ Q' a.2 b.2) (PI.join x x') (PI.join y y') :=
  ⟨(congrArg (Events.par · _) h.1).trans (congrArg (Events.par _) h'.1), RelR.bind h.2 fun _ _ q => RelR.bind h'.2 fun _ _ q' => RelR.pure ⟨q, q'⟩⟩

theorem Rel.of {α β} {Q : α → β → Prop} {x : IR α} {y : IR β} (h : Perf.Rel Q x y) : Rel Q (liftM x : PIR α) (liftM y : PIR β) :=
  ⟨congrArg Events.list h.1, h.2⟩

theorem rel_hash_recurse (cfg : Config) (p : Platform) {f f' : Byte} (hf : Low f f') (k k' : Vector Word 8) :
    ∀ {x y : Bytes}, x.length = y.length → ∀ (off : U64) {out out' : Bytes}, SameLen out out' →
    Rel SimP (PI.hash_recurse cfg x k off f p out) (PI.hash_recurse cfg y k' off f' p out') := by
  intro x
  induction hn : x.length using Nat.strongRecOn generalizing x with
  | _ n ih =>
    intro y h off out out' ho
    subst hn
    rw [PI.hash_recurse, PI.hash_recurse]
    refine Rel.ite (by rw [h]) (fun _ _ => .of (Perf.rel_hash_chunks_parallel cfg p h _ _ _ hf ho)) (fun _ _ => ?_)
    have hy : left_len cfg.usizeBits y.length = left_len cfg.usizeBits x.length := by rw [h]
    split
    · rename_i e he
      split
      · rename_i e' he'
        rw [hy, he] at he'
        injection he' with he'
        subst he'
        exact Rel.error _
      · rename_i l he'
        rw [hy, he] at he'
        cases he'
    · rename_i l he
      split
      · rename_i e' he'
        rw [hy, he] at he'
        cases he'
      · rename_i l' he'
        rw [hy, he] at he'
        injection he' with he'
        subst he'
        have l1 := left_len_lt he
        have l2 := left_len_pos he
        have hl : (x.take l).length = (y.take l).length := by simp only [List.length_take, h]
        have hr : (x.drop l).length = (y.drop l).length := by simp only [List.length_drop, h]
        dsimp only
        rw [hl]
        refine Rel.liftBind (RelR.refl _) fun a _ e => ?_
        subst e
        refine Rel.liftBind (rel_assert Iff.rfl) fun _ _ _ => ?_
        refine Rel.liftBind (rel_splitAtR rfl _) fun s s' hs => ?_
        refine Rel.bind (Rel.join (ih _ (by simp only [List.length_take]; omega) rfl hl _ hs.1)
          (ih _ (by simp only [List.length_drop]; omega) rfl hr _ hs.2)) fun uv uv' huv => ?_
        obtain ⟨u, v⟩ := uv
        obtain ⟨u', v'⟩ := uv'
        obtain ⟨hu, hv⟩ := huv
        obtain ⟨u1, u2⟩ := u
        obtain ⟨u1', u2'⟩ := u'
        obtain ⟨v1, v2⟩ := v
        obtain ⟨v1', v2'⟩ := v'
        obtain ⟨hu1, hu2⟩ := hu
        obtain ⟨hv1, hv2⟩ := hv
        dsimp only at hu1 hu2 hv1 hv2 ⊢
        subst hu1 hv1
        have ha : SameLen (u2 ++ v2) (u2' ++ v2') := by
          show List.length _ = List.length _
          rw [List.length_append, List.length_append, hu2, hv2]
        refine Rel.liftBind (rel_assert Iff.rfl) fun _ _ _ => ?_
        refine Rel.liftBind (rel_assert Iff.rfl) fun _ _ _ => ?_
        refine Rel.ite Iff.rfl (fun _ _ => ?_) (fun _ _ => ?_)
        · refine Rel.liftBind (rel_sliceTo ha _) fun _ _ hc => ?_
          refine Rel.liftBind (rel_writeAt ho _ hc) fun _ _ e => ?_
          exact Rel.pure ⟨rfl, e⟩
        · refine Rel.liftBind (rel_sliceTo ha _) fun _ _ hc => ?_
          exact .of (Perf.rel_hash_parents_parallel cfg p hc _ _ _ _ ho)

theorem rel_hash_internal (cfg : Config) {f f' : Byte} (hf : Low f f') (k k' : Vector Word 8) {x y : Bytes} (h : SameLen x y) :
    Rel Perf.SimO (PI.hash_internal cfg x k f) (PI.hash_internal cfg y k' f') := by
  unfold PI.hash_internal
  dsimp only
  refine Rel.ite (by rw [show x.length = y.length from h]) (fun _ _ => .of (Perf.rel_hash_one_chunk _ _ _ h _ _ _ _ hf)) (fun _ _ => ?_)
  refine Rel.bind (rel_hash_recurse cfg _ hf k k' h _ rfl) fun a b hab => ?_
  obtain ⟨a1, a2⟩ := a
  obtain ⟨b1, b2⟩ := b
  obtain ⟨h1, h2⟩ := hab
  dsimp only at h1 h2 ⊢
  subst h1
  refine Rel.liftBind (rel_sliceTo h2 _) fun _ _ hc => ?_
  exact .of (Perf.rel_condense_root cfg _ hf k k' hc)

theorem rel_oneShotRun (cfg : Config) (prof : Profile) (m m' : Spec.Mode) {x y : Bytes} (h : SameLen x y)
    (os : List OutCall) : Rel Any (PI.oneShotRun cfg prof m x os) (PI.oneShotRun cfg prof m' y os) := by
  have e : Rel Perf.SimO (PI.oneShotXof cfg m x) (PI.oneShotXof cfg m' y) := by
    cases m <;> cases m' <;> exact rel_hash_internal cfg (by unfold Low; decide) _ _ h
  unfold PI.oneShotRun
  refine Rel.bind e fun _ _ ho => ?_
  exact Rel.bind (.of (Perf.rel_run prof os ho)) fun _ _ _ => Rel.pure trivial

end Baokeshed.Proofs.PI

namespace Baokeshed.Proofs.PO
open Baokeshed.Model Baokeshed.Model.P Baokeshed.Model.T Baokeshed.Proofs
open Baokeshed.Spec (Events Order)

/-! ## The compressions of two runs on inputs of equal lengths -/

open Baokeshed.Proofs.Obl (pub RelR SameLen Any rel_assert rel_writeAt rel_sliceTo rel_splitAtR SimP)

def Rel {α β} (Q : α → β → Prop) (x : PR α) (y : PR β) : Prop :=
  x.work.events.map pub = y.work.events.map pub ∧ RelR Q x.res y.res

theorem Rel.mono {α β} {Q Q' : α → β → Prop} (h : ∀ a b, Q a b → Q' a b) {x : PR α} {y : PR β} (hr : Rel Q x y) :
    Rel Q' x y := ⟨hr.1, hr.2.mono h⟩

theorem Rel.bind {α β α' β'} {Q : α → β → Prop} {Q' : α' → β' → Prop} {x : PR α} {y : PR β} {f : α → PR α'} {g : β → PR β'}
    (h : Rel Q x y) (hf : ∀ a b, Q a b → Rel Q' (f a) (g b)) : Rel Q' (x >>= f) (y >>= g) := by
  obtain ⟨rx, lx⟩ := x
  obtain ⟨ry, ly⟩ := y
  obtain ⟨h1, h2⟩ := h
  cases rx <;> cases ry
  · exact ⟨h1, h2⟩
  · exact h2.elim
  · exact h2.elim
  · obtain ⟨k1, k2⟩ := hf _ _ h2
    refine ⟨?_, k2⟩
    exact (congrArg (Events.seq · _) h1).trans (congrArg (Events.seq _) k1)

theorem Rel.pure {α β} {Q : α → β → Prop} {a : α} {b : β} (h : Q a b) : Rel Q (Pure.pure a : PR α) (Pure.pure b : PR β) :=
  ⟨rfl, h⟩

theorem Rel.lift {α β} {Q : α → β → Prop} {x : R α} {y : R β} (h : RelR Q x y) :
    Rel Q (liftM x : PR α) (liftM y : PR β) := ⟨rfl, h⟩

theorem Rel.liftBind {α β α' β'} {Q : α → β → Prop} {Q' : α' → β' → Prop} {x : R α} {y : R β} {f : α → PR α'} {g : β → PR β'}
    (h : RelR Q x y) (hf : ∀ a b, Q a b → Rel Q' (f a) (g b)) : Rel Q' ((liftM x : PR α) >>= f) ((liftM y : PR β) >>= g) :=
  Rel.bind (Rel.lift h) hf

theorem Rel.ite {α β} {Q : α → β → Prop} {c c' : Prop} [Decidable c] [Decidable c'] {x y : PR α} {x' y' : PR β}
    (hc : c ↔ c') (h : c → c' → Rel Q x x') (h' : ¬ c → ¬ c' → Rel Q y y') :
    Rel Q (if c then x else y) (if c' then x' else y') := by
  by_cases k : c
  · rw [if_pos k, if_pos (hc.1 k)]; exact h k (hc.1 k)
  · rw [if_neg k, if_neg (fun t => k (hc.2 t))]; exact h' k (fun t => k (hc.2 t))

theorem Rel.error {α β} {Q : α → β → Prop} (e : Panic) : Rel Q (⟨.error e, .calls []⟩ : PR α) (⟨.error e, .calls []⟩ : PR β) := ⟨rfl, rfl⟩

theorem Rel.join {α β α' β'} {Q : α → β → Prop} {Q' : α' → β' → Prop} {x : PR α} {y : PR β} {x' : PR α'} {y' : PR β'}
    (h : Rel Q x y) (h' : Rel Q' x' y') : Rel (fun a b => Q a.1 b.1 ∧ Q' a.2 b.2) (P.join x x') (P.join y y') :=
  ⟨(congrArg (Events.par · _) h.1).trans (congrArg (Events.par _) h'.1), RelR.bind h.2 fun _ _ q => RelR.bind h'.2 fun _ _ q' => RelR.pure ⟨q, q'⟩⟩

theorem Rel.of {α β} {Q : α → β → Prop} {x : TR α} {y : TR β} (h : Obl.Rel Q x y) : Rel Q (liftM x : PR α) (liftM y : PR β) :=
  ⟨congrArg Events.list h.1, h.2⟩

theorem rel_hash_recurse (cfg : Config) (p : Platform) (f : Byte) (k k' : Vector Word 8) :
    ∀ {x y : Bytes}, x.length = y.length → ∀ (off : U64) {out out' : Bytes}, SameLen out out' →
    Rel SimP (P.hash_recurse cfg x k off f p out) (P.hash_recurse cfg y k' off f p out') := by
  intro x
  induction hn : x.length using Nat.strongRecOn generalizing x with
  | _ n ih =>
    intro y h off out out' ho
    subst hn
    rw [P.hash_recurse, P.hash_recurse]
    refine Rel.ite (by rw [h]) (fun _ _ => .of (Obl.rel_hash_chunks_parallel cfg p h _ _ _ _ ho)) (fun _ _ => ?_)
    have hy : left_len cfg.usizeBits y.length = left_len cfg.usizeBits x.length := by rw [h]
    split
    · rename_i e he
      split
      · rename_i e' he'
        rw [hy, he] at he'
        injection he' with he'
        subst he'
        exact Rel.error _
      · rename_i l he'
        rw [hy, he] at he'
        cases he'
    · rename_i l he
      split
      · rename_i e' he'
        rw [hy, he] at he'
        cases he'
      · rename_i l' he'
        rw [hy, he] at he'
        injection he' with he'
        subst he'
        have l1 := left_len_lt he
        have l2 := left_len_pos he
        have hl : (x.take l).length = (y.take l).length := by simp only [List.length_take, h]
        have hr : (x.drop l).length = (y.drop l).length := by simp only [List.length_drop, h]
        dsimp only
        rw [hl]
        refine Rel.liftBind (RelR.refl _) fun a _ e => ?_
        subst e
        refine Rel.liftBind (rel_assert Iff.rfl) fun _ _ _ => ?_
        refine Rel.liftBind (rel_splitAtR rfl _) fun s s' hs => ?_
        refine Rel.bind (Rel.join (ih _ (by simp only [List.length_take]; omega) rfl hl _ hs.1)
          (ih _ (by simp only [List.length_drop]; omega) rfl hr _ hs.2)) fun uv uv' huv => ?_
        obtain ⟨u, v⟩ := uv
        obtain ⟨u', v'⟩ := uv'
        obtain ⟨hu, hv⟩ := huv
        obtain ⟨u1, u2⟩ := u
        obtain ⟨u1', u2'⟩ := u'
        obtain ⟨v1, v2⟩ := v
        obtain ⟨v1', v2'⟩ := v'
        obtain ⟨hu1, hu2⟩ := hu
        obtain ⟨hv1, hv2⟩ := hv
        dsimp only at hu1 hu2 hv1 hv2 ⊢
        subst hu1 hv1
        have ha : SameLen (u2 ++ v2) (u2' ++ v2') := by
          show List.length _ = List.length _
          rw [List.length_append, List.length_append, hu2, hv2]
        refine Rel.liftBind (rel_assert Iff.rfl) fun _ _ _ => ?_
        refine Rel.liftBind (rel_assert Iff.rfl) fun _ _ _ => ?_
        refine Rel.ite Iff.rfl (fun _ _ => ?_) (fun _ _ => ?_)
        · refine Rel.liftBind (rel_sliceTo ha _) fun _ _ hc => ?_
          refine Rel.liftBind (rel_writeAt ho _ hc) fun _ _ e => ?_
          exact Rel.pure ⟨rfl, e⟩
        · refine Rel.liftBind (rel_sliceTo ha _) fun _ _ hc => ?_
          exact .of (Obl.rel_hash_parents_parallel cfg p hc _ _ _ ho)

theorem rel_hash_internal (cfg : Config) (f : Byte) (k k' : Vector Word 8) {x y : Bytes} (h : SameLen x y) :
    Rel Obl.SimO (P.hash_internal cfg x k f) (P.hash_internal cfg y k' f) := by
  unfold P.hash_internal
  dsimp only
  refine Rel.ite (by rw [show x.length = y.length from h]) (fun _ _ => .of (Obl.rel_hash_one_chunk _ _ _ h _ _ _ _ _)) (fun _ _ => ?_)
  refine Rel.bind (rel_hash_recurse cfg _ _ k k' h _ rfl) fun a b hab => ?_
  obtain ⟨a1, a2⟩ := a
  obtain ⟨b1, b2⟩ := b
  obtain ⟨h1, h2⟩ := hab
  dsimp only at h1 h2 ⊢
  subst h1
  refine Rel.liftBind (rel_sliceTo h2 _) fun _ _ hc => ?_
  exact .of (Obl.rel_condense_root cfg _ _ k k' hc)

theorem rel_oneShot (cfg : Config) (m m' : Spec.Mode) (hm : m.flag = m'.flag) {x y : Bytes} (h : SameLen x y) :
    Rel Any (P.oneShot cfg m x) (P.oneShot cfg m' y) := by
  have e : Rel Obl.SimO (P.oneShotXof cfg m x) (P.oneShotXof cfg m' y) := by
    cases m <;> cases m' <;> first | exact rel_hash_internal cfg _ _ _ h | (exfalso; revert hm; simp only [Spec.Mode.flag]; decide)
  unfold P.oneShot
  exact Rel.bind e fun _ _ ho => .of (Obl.rel_to_hash ho)

end Baokeshed.Proofs.PO
