import Verif.Proofs.Caught
import Verif.SpecSim

/-!
# Two worlds that are hard to tell apart

The argument for any way of making root nodes from requests.
-/

set_option linter.unusedVariables false

namespace Baokeshed.Proofs.Indiff
open Baokeshed.Spec

variable {X Y M V α : Type} [DecidableEq X]

/-- the request's root node and the nodes below it, the part of an answer that is passed on, the values a node was given, and how
root nodes are recognised -/
structure Sys (X Y M V : Type) where
  root : X → Prop
  rt : (X → Y) → M → X
  inner : (X → Y) → M → List X
  low : Y → V
  slots : X → List V
  see : List (X × Y) → X → Option M

/-- the table is right about nodes that are not roots -/
def Sys.Ok (S : Sys X Y M V) (F : X → Y) (tbl : List (X × Y)) : Prop := ∀ p ∈ tbl, ¬ S.root p.1 → F p.1 = p.2

structure Sys.Good (S : Sys X Y M V) : Prop where
  rt_root : ∀ F μ, S.root (S.rt F μ)
  inner_root : ∀ F μ, ∀ n ∈ S.inner F μ, ¬ S.root n
  loc : ∀ F F' μ, (∀ n ∈ S.inner F μ, F n = F' n) → S.rt F' μ = S.rt F μ ∧ S.inner F' μ = S.inner F μ
  sound : ∀ F tbl a μ, S.Ok F tbl → S.see tbl a = some μ → S.rt F μ = a ∧ ∀ n ∈ S.inner F μ, n ∈ tbl.map Prod.fst
  complete : ∀ F tbl μ, S.Ok F tbl → (∀ n ∈ S.inner F μ, n ∈ tbl.map Prod.fst) →
    (∀ a ∈ tbl.map Prod.fst, ∀ b ∈ tbl.map Prod.fst, ¬ S.root a → ¬ S.root b → S.low (F a) = S.low (F b) → a = b) →
    S.see tbl (S.rt F μ) ≠ none
  inj : ∀ F μ μ', S.rt F μ = S.rt F μ' →
    (∀ a ∈ S.inner F μ, ∀ b ∈ S.inner F μ', S.low (F a) = S.low (F b) → a = b) → μ = μ'
  descent : ∀ F μ (C Q : List X), (∀ b ∈ C, ∀ n ∈ Q, S.low (F n) ∈ S.slots b → n ∈ C) →
    (∀ n ∈ Q, S.low (F n) ∈ S.slots (S.rt F μ) → n ∈ C) → (∀ n ∈ S.inner F μ, n ∈ Q) → ∀ n ∈ S.inner F μ, n ∈ C

/-- reality -/
def real (S : Sys X Y M V) (F : X → Y) : X ⊕ M → Y
  | .inl a => F a
  | .inr μ => F (S.rt F μ)

/-- Where the answer for node `a` comes from: as before, or as `s` says. -/
def src (tab : X → Option (X ⊕ M)) (a : X) (s : X ⊕ M) : X ⊕ M := (tab a).getD s

/-- A run that notes for every node where its answer comes from.  `pick a s` is the answer for node `a` if it comes from `s`. -/
def book (S : Sys X Y M V) (F : X → Y) (pick : X → X ⊕ M → Y) :
    Algo (X ⊕ M) Y α → List (X × Y) → (X → Option (X ⊕ M)) → α × (X → Option (X ⊕ M))
  | .done a, _, tab => (a, tab)
  | .ask (.inl a) k, tbl, tab =>
    let s := src tab a (match S.see tbl a with | some μ => .inr μ | none => .inl a)
    let y := pick a s
    book S F pick (k y) (match tbl.lookup a with | some _ => tbl | none => tbl ++ [(a, y)]) (Function.update tab a (some s))
  | .ask (.inr μ) k, tbl, tab =>
    let a := S.rt F μ
    let s := src tab a (.inr μ)
    let y := pick a s
    book S F pick (k y) tbl (Function.update tab a (some s))

omit [DecidableEq X] in
theorem src_some {tab : X → Option (X ⊕ M)} {a : X} {s s' : X ⊕ M} (h : tab a = some s) : src tab a s' = s := by
  rw [src, h]; rfl

omit [DecidableEq X] in
theorem src_none {tab : X → Option (X ⊕ M)} {a : X} {s' : X ⊕ M} (h : tab a = none) : src tab a s' = s' := by
  rw [src, h]; rfl

theorem update_mono {tab : X → Option (X ⊕ M)} {a b : X} {s s' : X ⊕ M} (h : tab b = some s) :
    Function.update tab a (some (src tab a s')) b = some s := by
  by_cases e : b = a
  · subst e; rw [Function.update_self, src_some h]
  · rw [Function.update_of_ne e, h]

theorem book_mono (S : Sys X Y M V) (F : X → Y) (pick : X → X ⊕ M → Y) (A : Algo (X ⊕ M) Y α) (tbl : List (X × Y))
    (tab : X → Option (X ⊕ M)) {b : X} {s : X ⊕ M} (h : tab b = some s) : (book S F pick A tbl tab).2 b = some s := by
  induction A generalizing tbl tab with
  | done a => exact h
  | ask q k ih =>
    cases q with
    | inl a => rw [book]; exact ih _ _ _ (update_mono h)
    | inr μ => rw [book]; exact ih _ _ _ (update_mono h)

/-- The table of sources is right. -/
def Valid (S : Sys X Y M V) (F : X → Y) (tab : X → Option (X ⊕ M)) : Prop :=
  ∀ a s, tab a = some s → s = .inl a ∨ ∃ μ, s = .inr μ ∧ S.rt F μ = a

theorem valid_update {S : Sys X Y M V} {F : X → Y} {tab : X → Option (X ⊕ M)} (h : Valid S F tab) {a : X} {s : X ⊕ M}
    (hs : s = .inl a ∨ ∃ μ, s = .inr μ ∧ S.rt F μ = a) : Valid S F (Function.update tab a (some (src tab a s))) := by
  intro b s' e
  by_cases hb : b = a
  · subst hb
    rw [Function.update_self] at e
    obtain rfl := Option.some.inj e
    cases ht : tab b with
    | none => rw [src_none ht]; exact hs
    | some t => rw [src_some ht]; exact h b t ht
  · rw [Function.update_of_ne hb] at e
    exact h b s' e

theorem book_valid {S : Sys X Y M V} (hS : S.Good) (G : X ⊕ M → Y) (A : Algo (X ⊕ M) Y α) (tbl : List (X × Y))
    (tab : X → Option (X ⊕ M)) (hv : Valid S (fun a => G (.inl a)) tab) (hok : S.Ok (fun a => G (.inl a)) tbl) :
    Valid S (fun a => G (.inl a)) (book S (fun a => G (.inl a)) (fun _ s => G s) A tbl tab).2 := by
  induction A generalizing tbl tab with
  | done a => exact hv
  | ask q k ih =>
    cases q with
    | inl a =>
      rw [book]
      have hs : (match S.see tbl a with | some μ => Sum.inr μ | none => Sum.inl a : X ⊕ M) = .inl a ∨
          ∃ μ, (match S.see tbl a with | some μ => Sum.inr μ | none => Sum.inl a : X ⊕ M) = .inr μ ∧ S.rt (fun a => G (.inl a)) μ = a := by
        cases hd : S.see tbl a with
        | none => exact .inl rfl
        | some μ => exact .inr ⟨μ, rfl, (hS.sound _ tbl a μ hok hd).1⟩
      generalize (match S.see tbl a with | some μ => Sum.inr μ | none => Sum.inl a : X ⊕ M) = s at hs
      have hv' := valid_update hv hs
      refine ih _ _ _ hv' ?_
      cases hl : tbl.lookup a with
      | some y => exact hok
      | none =>
        intro p hp hr
        rcases List.mem_append.1 hp with hp | hp
        · exact hok p hp hr
        · rw [List.mem_singleton.1 hp]
          rw [List.mem_singleton.1 hp] at hr
          rcases hv' a _ (Function.update_self ..) with e | ⟨μ, e, h⟩
          · dsimp only; rw [e]
          · exact absurd (h ▸ hS.rt_root _ μ) hr
    | inr μ =>
      rw [book]
      exact ih _ _ _ (valid_update hv (.inr ⟨μ, rfl, rfl⟩)) hok

/-- without the bookkeeping -/
theorem book_real (S : Sys X Y M V) (F : X → Y) (A : Algo (X ⊕ M) Y α) (tbl : List (X × Y)) (tab : X → Option (X ⊕ M)) :
    (book S F (fun a _ => F a) A tbl tab).1 = A.result (real S F) := by
  induction A generalizing tbl tab with
  | done a => rfl
  | ask q k ih =>
    cases q with
    | inl a => rw [book, Algo.result]; exact ih _ _ _
    | inr μ => rw [book, Algo.result]; exact ih _ _ _

theorem book_same (S : Sys X Y M V) (F F' : X → Y) (pick pick' : X → X ⊕ M → Y) (hrt : ∀ μ, S.rt F' μ = S.rt F μ)
    (A : Algo (X ⊕ M) Y α) (tbl : List (X × Y)) (tab : X → Option (X ⊕ M))
    (h : ∀ a s, (book S F pick A tbl tab).2 a = some s → pick' a s = pick a s) :
    book S F' pick' A tbl tab = book S F pick A tbl tab := by
  induction A generalizing tbl tab with
  | done a => rfl
  | ask q k ih =>
    cases q with
    | inl a =>
      rw [book] at h
      rw [book, book]
      have := h a _ (book_mono S F pick _ _ _ (Function.update_self ..))
      rw [this]
      exact ih _ _ _ h
    | inr μ =>
      rw [book] at h
      rw [book, book]
      rw [hrt μ]
      have := h _ _ (book_mono S F pick _ _ _ (Function.update_self ..))
      rw [this]
      exact ih _ _ _ h

open scoped Classical in
/-- exchange the answers of nodes with the answers of their sources -/
noncomputable def swap (tab : X → Option (X ⊕ M)) (rt : M → X) : X ⊕ M → X ⊕ M
  | .inl a => (tab a).getD (.inl a)
  | .inr μ => if tab (rt μ) = some (.inr μ) then .inl (rt μ) else .inr μ

theorem swap_swap (tab : X → Option (X ⊕ M)) (rt : M → X) (h : ∀ a s, tab a = some s → s = .inl a ∨ ∃ μ, s = .inr μ ∧ rt μ = a)
    (q : X ⊕ M) : swap tab rt (swap tab rt q) = q := by
  cases q with
  | inl a =>
    cases ht : tab a with
    | none => simp [swap, ht]
    | some s =>
      rcases h a s ht with rfl | ⟨μ, rfl, rfl⟩
      · simp [swap, ht]
      · simp [swap, ht]
  | inr μ =>
    by_cases e : tab (rt μ) = some (.inr μ)
    · simp [swap, e]
    · simp [swap, e]

/-- the run in between -/
def mid (S : Sys X Y M V) (G : X ⊕ M → Y) (A : Algo (X ⊕ M) Y α) : α × (X → Option (X ⊕ M)) :=
  book S (fun a => G (.inl a)) (fun _ s => G s) A [] fun _ => none

theorem mid_valid {S : Sys X Y M V} (hS : S.Good) (G : X ⊕ M → Y) (A : Algo (X ⊕ M) Y α) :
    Valid S (fun a => G (.inl a)) (mid S G A).2 :=
  book_valid hS G A [] _ (fun a s h => by cases h) (fun p hp => absurd hp List.not_mem_nil)

/-- the exchange -/
noncomputable def flip (S : Sys X Y M V) (A : Algo (X ⊕ M) Y α) (G : X ⊕ M → Y) : X ⊕ M → Y := fun q =>
  G (swap (mid S G A).2 (S.rt fun a => G (.inl a)) q)

theorem flip_rt {S : Sys X Y M V} (hS : S.Good) (A : Algo (X ⊕ M) Y α) (G : X ⊕ M → Y) (μ : M) :
    S.rt (fun a => flip S A G (.inl a)) μ = S.rt (fun a => G (.inl a)) μ := by
  refine (hS.loc _ _ μ fun n hn => ?_).1
  have hr := hS.inner_root _ μ n hn
  have hv := mid_valid hS G A n
  dsimp only [flip, swap]
  cases ht : (mid S G A).2 n with
  | none => rfl
  | some s =>
    rcases hv s ht with rfl | ⟨ν, rfl, e⟩
    · rfl
    · exact absurd (e ▸ hS.rt_root _ ν) hr

theorem flip_book {S : Sys X Y M V} (hS : S.Good) (A : Algo (X ⊕ M) Y α) (G : X ⊕ M → Y) :
    book S (fun a => flip S A G (.inl a)) (fun a _ => flip S A G (.inl a)) A [] (fun _ => none) = mid S G A := by
  refine book_same S _ _ _ _ (flip_rt hS A G) A [] _ fun a s h => ?_
  dsimp only [flip, swap]
  rw [show (mid S G A).2 a = some s from h]
  rfl

theorem flip_inj {S : Sys X Y M V} (hS : S.Good) (A : Algo (X ⊕ M) Y α) : Function.Injective (flip S A) := by
  intro G G' e
  have h1 := flip_book hS A G
  have h2 := flip_book hS A G'
  rw [e, h2] at h1
  have hrt : (S.rt fun a => G (.inl a)) = S.rt fun a => G' (.inl a) := by
    funext μ
    rw [← flip_rt hS A G, ← flip_rt hS A G', e]
  have hv := mid_valid hS G A
  funext q
  have := congrFun e (swap (mid S G A).2 (S.rt fun a => G (.inl a)) q)
  simp only [flip] at this
  rw [← hrt, h1, swap_swap _ _ hv q] at this
  exact this

theorem flip_result {S : Sys X Y M V} (hS : S.Good) (A : Algo (X ⊕ M) Y α) (G : X ⊕ M → Y) :
    A.result (real S fun a => flip S A G (.inl a)) = (mid S G A).1 := by
  rw [← flip_book hS A G, book_real]

/-! ## the run in between and the run with the simulator -/

/-- the questions that the simulator answers itself, and afterwards the nodes below all requests -/
def after (below : M → Algo X Y X) : List M → Algo X Y Unit
  | [] => .done ()
  | μ :: ms => (below μ).bind fun _ => after below ms

def asks (S : Sys X Y M V) (below : M → Algo X Y X) (R : M → Y) : Algo (X ⊕ M) Y α → List (X × Y) → List M → Algo X Y Unit
  | .done _, _, ms => after below ms
  | .ask (.inl a) k, tbl, ms =>
    match tbl.lookup a with
    | some y => asks S below R (k y) tbl ms
    | none =>
      match S.see tbl a with
      | some μ => asks S below R (k (R μ)) (tbl ++ [(a, R μ)]) ms
      | none => .ask a fun y => asks S below R (k y) (tbl ++ [(a, y)]) ms
  | .ask (.inr μ) k, tbl, ms => asks S below R (k (R μ)) tbl (μ :: ms)

omit [DecidableEq X] in
theorem asked_bind {β : Type} (F : X → Y) (A : Algo X Y α) (f : α → Algo X Y β) :
    (A.bind f).asked F = A.asked F ++ (f (A.result F)).asked F := by
  induction A with
  | done a => rfl
  | ask x k ih => rw [Algo.bind, Algo.asked, Algo.asked, Algo.result, List.cons_append, ih]

omit [DecidableEq X] in
theorem mem_after (below : M → Algo X Y X) (F : X → Y) (ms : List M) (μ : M) (h : μ ∈ ms) :
    ∀ n ∈ (below μ).asked F, n ∈ (after below ms).asked F := by
  classical
  induction ms with
  | nil => cases h
  | cons ν ms ih =>
    intro n hn
    rw [after, asked_bind, List.mem_append]
    rcases List.mem_cons.1 h with rfl | h
    · exact .inl hn
    · exact .inr (ih h n hn)

theorem mem_asks (S : Sys X Y M V) (below : M → Algo X Y X) (R : M → Y) (F : X → Y) (A : Algo (X ⊕ M) Y α) (tbl : List (X × Y))
    (ms : List M) (μ : M) (h : μ ∈ ms) : ∀ n ∈ (below μ).asked F, n ∈ (asks S below R A tbl ms).asked F := by
  induction A generalizing tbl ms with
  | done a => exact mem_after below F ms μ h
  | ask q k ih =>
    intro n hn
    cases q with
    | inl a =>
      rw [asks]
      cases hl : tbl.lookup a with
      | some y => exact ih _ _ _ h n hn
      | none =>
        cases hd : S.see tbl a with
        | some ν => exact ih _ _ _ h n hn
        | none => exact List.mem_cons_of_mem _ (ih _ _ _ h n hn)
    | inr ν => rw [asks]; exact ih _ _ _ (List.mem_cons_of_mem _ h) n hn

/-- what may go wrong: an answer that is passed on twice, or that was passed on before it was given -/
def hit (S : Sys X Y M V) (h : List (X × Y)) (x : X) (y : Y) : Prop :=
  (∃ p ∈ h, S.low y = S.low p.2) ∨ (∃ p ∈ h, S.low y ∈ S.slots p.1) ∨ S.low y ∈ S.slots x

theorem fresh (S : Sys X Y M V) (F : X → Y) (B : Algo X Y Unit) (hn : ¬ Caught (hit S) F B []) :
    (∀ a ∈ B.asked F, ∀ b ∈ B.asked F, S.low (F a) = S.low (F b) → a = b) ∧
    ∀ l1 b l2, B.asked F = l1 ++ b :: l2 → ∀ n ∈ B.asked F, S.low (F n) ∈ S.slots b → n ∈ l1 := by
  have hc := fun l1 l2 x => not_caught B [] hn l1 l2 x (Nat.zero_le _)
  simp only [List.nil_append] at hc
  constructor
  · suffices h : ∀ a b, a ≠ b → S.low (F a) = S.low (F b) → ∀ l1 l2, B.asked F = l1 ++ b :: l2 → b ∉ l1 → a ∉ l1 by
      intro a ha b hb e
      by_contra hne
      obtain ⟨l1, l2, e1, h1⟩ := List.eq_append_cons_of_mem ha
      obtain ⟨m1, m2, e2, h2⟩ := List.eq_append_cons_of_mem hb
      have n1 := h a b hne e m1 m2 e2 h2
      have n2 := h b a (Ne.symm hne) e.symm l1 l2 e1 h1
      have e3 := e1.symm.trans e2
      rcases Nat.lt_trichotomy l1.length m1.length with hl | hl | hl
      · apply n1
        have : (l1 ++ a :: l2)[l1.length]? = some a := by simp
        rw [e3, List.getElem?_append_left hl] at this
        exact List.mem_of_getElem? this
      · obtain ⟨-, h⟩ := List.append_inj e3 hl
        exact hne (List.cons.inj h).1
      · apply n2
        have : (m1 ++ b :: m2)[m1.length]? = some b := by simp
        rw [← e3, List.getElem?_append_left hl] at this
        exact List.mem_of_getElem? this
    intro a b hne e l1 l2 he hb ha
    exact hc l1 l2 b he hb (.inl ⟨(a, F a), List.mem_map.2 ⟨a, ha, rfl⟩, e.symm⟩)
  · intro l1 b l2 he n hmem hs
    by_contra hnl
    obtain ⟨m1, m2, e2, h2⟩ := List.eq_append_cons_of_mem hmem
    have e3 := he.symm.trans e2
    refine hc m1 m2 n e2 h2 (.inr ?_)
    rcases Nat.lt_trichotomy l1.length m1.length with hl | hl | hl
    · left
      refine ⟨(b, F b), List.mem_map.2 ⟨b, ?_, rfl⟩, hs⟩
      have : (l1 ++ b :: l2)[l1.length]? = some b := by simp
      rw [e3, List.getElem?_append_left hl] at this
      exact List.mem_of_getElem? this
    · right
      obtain ⟨-, h⟩ := List.append_inj e3 hl
      rw [(List.cons.inj h).1] at hs; exact hs
    · exfalso
      apply hnl
      have : (m1 ++ n :: m2)[m1.length]? = some n := by simp
      rw [← e3, List.getElem?_append_left hl] at this
      exact List.mem_of_getElem? this

theorem mem_keys {tbl : List (X × Y)} {a : X} {y : Y} (h : tbl.lookup a = some y) : a ∈ tbl.map Prod.fst := by
  induction tbl with
  | nil => cases h
  | cons p t ih =>
    rw [List.lookup_cons] at h
    by_cases e : (a == p.1) = true
    · rw [List.map_cons, eq_of_beq e]; exact List.mem_cons_self
    · rw [Bool.eq_false_iff.2 e] at h
      exact List.mem_cons_of_mem _ (ih h)

theorem lookup_snoc_ne {tbl : List (X × Y)} {a b : X} {y : Y} (h : b ≠ a) : (tbl ++ [(a, y)]).lookup b = tbl.lookup b := by
  induction tbl with
  | nil => rw [List.nil_append, List.lookup_cons, beq_false_of_ne h]
  | cons p t ih => rw [List.cons_append, List.lookup_cons, List.lookup_cons, ih]

theorem lookup_snoc_self {tbl : List (X × Y)} {a : X} {y : Y} (h : tbl.lookup a = none) : (tbl ++ [(a, y)]).lookup a = some y := by
  induction tbl with
  | nil => simp
  | cons p t ih =>
    rw [List.lookup_cons] at h
    rw [List.cons_append, List.lookup_cons]
    by_cases e : (a == p.1) = true
    · rw [e] at h; cases h
    · rw [Bool.eq_false_iff.2 e] at h
      rw [Bool.eq_false_iff.2 e]; exact ih h

/-- what is known during both runs: `hist` are all questions of `asks`, `pre` those so far -/
structure Inv (S : Sys X Y M V) (G : X ⊕ M → Y) (hist pre : List X) (tbl : List (X × Y)) (tab : X → Option (X ⊕ M)) : Prop where
  ok : S.Ok (fun a => G (.inl a)) tbl
  keys : ∀ n ∈ pre, n ∈ tbl.map Prod.fst
  known : ∀ n ∈ tbl.map Prod.fst, ¬ S.root n → n ∈ pre
  src : ∀ a s, tab a = some s →
    (s = .inl a ∧ (S.root a → ∃ l1 l2, hist = l1 ++ a :: l2 ∧
      ∀ μ, S.rt (fun a => G (.inl a)) μ = a → ¬ ∀ n ∈ S.inner (fun a => G (.inl a)) μ, n ∈ l1)) ∨
    ∃ μ, s = .inr μ ∧ S.rt (fun a => G (.inl a)) μ = a ∧ ∀ n ∈ S.inner (fun a => G (.inl a)) μ, n ∈ hist
  same : ∀ a y, tbl.lookup a = some y → ∃ s, tab a = some s ∧ G s = y
  new : ∀ a, tbl.lookup a = none → tab a = none ∨ ∃ μ, tab a = some (.inr μ)

theorem agree {S : Sys X Y M V} (hS : S.Good) (below : M → Algo X Y X) (hbelow : ∀ F μ, (below μ).asked F = S.inner F μ)
    (G : X ⊕ M → Y) (hist : List X)
    (n1 : ∀ a ∈ hist, ∀ b ∈ hist, S.low (G (.inl a)) = S.low (G (.inl b)) → a = b)
    (n2 : ∀ l1 b l2, hist = l1 ++ b :: l2 → ∀ n ∈ hist, S.low (G (.inl n)) ∈ S.slots b → n ∈ l1)
    (A : Algo (X ⊕ M) Y α) (tbl : List (X × Y)) (tab : X → Option (X ⊕ M)) (ms : List M) (pre : List X)
    (hh : hist = pre ++ (asks S below (fun μ => G (.inr μ)) A tbl ms).asked fun a => G (.inl a))
    (hi : Inv S G hist pre tbl tab) :
    (book S (fun a => G (.inl a)) (fun _ s => G s) A tbl tab).1 = simulated S.see (fun a => G (.inl a)) (fun μ => G (.inr μ)) A tbl := by
  -- everything below a node was asked before it
  have hdesc : ∀ l1 a l2, hist = l1 ++ a :: l2 → ∀ μ, S.rt (fun a => G (.inl a)) μ = a →
      (∀ n ∈ S.inner (fun a => G (.inl a)) μ, n ∈ hist) → ∀ n ∈ S.inner (fun a => G (.inl a)) μ, n ∈ l1 := by
    intro l1 a l2 he μ hμ hin
    refine hS.descent _ μ l1 hist ?_ ?_ hin
    · intro b hb n hn hs
      obtain ⟨m1, m2, e, -⟩ := List.eq_append_cons_of_mem hb
      have := n2 m1 b (m2 ++ a :: l2) (by rw [he, e]; simp) n hn hs
      rw [e]; exact List.mem_append_left _ this
    · rw [hμ]; exact n2 l1 a l2 he
  induction A generalizing tbl tab ms pre with
  | done a => rfl
  | ask q k ih =>
    have hpre : ∀ n ∈ pre, n ∈ hist := fun n hn => by rw [hh]; exact List.mem_append_left _ hn
    -- two requests with the same root node
    have hone : ∀ μ ν, S.rt (fun a => G (.inl a)) μ = S.rt (fun a => G (.inl a)) ν →
        (∀ n ∈ S.inner (fun a => G (.inl a)) μ, n ∈ hist) → (∀ n ∈ S.inner (fun a => G (.inl a)) ν, n ∈ hist) → μ = ν :=
      fun μ ν e h1 h2 => hS.inj _ μ ν e fun a ha b hb => n1 a (h1 a ha) b (h2 b hb)
    cases q with
    | inr μ =>
      rw [book, simulated]
      rw [asks] at hh
      have hin : ∀ n ∈ S.inner (fun a => G (.inl a)) μ, n ∈ hist := fun n hn => by
        rw [hh]
        exact List.mem_append_right _ (mem_asks S below _ _ _ _ _ μ List.mem_cons_self n (by rw [hbelow]; exact hn))
      have hs : src tab (S.rt (fun a => G (.inl a)) μ) (.inr μ) = .inr μ := by
        cases ht : tab (S.rt (fun a => G (.inl a)) μ) with
        | none => exact src_none ht
        | some s =>
          rw [src_some ht]
          rcases hi.src _ _ ht with ⟨-, h⟩ | ⟨ν, rfl, e, h⟩
          · obtain ⟨l1, l2, e, h⟩ := h (hS.rt_root _ μ)
            exact absurd (hdesc l1 _ l2 e μ rfl hin) (h μ rfl)
          · rw [hone ν μ e h hin]
      rw [hs]
      refine ih _ tbl _ (μ :: ms) pre hh ⟨hi.ok, hi.keys, hi.known, ?_, ?_, ?_⟩
      · intro a s h
        by_cases ha : a = S.rt (fun a => G (.inl a)) μ
        · rw [ha, Function.update_self] at h
          exact .inr ⟨μ, (Option.some.inj h).symm, ha.symm, hin⟩
        · rw [Function.update_of_ne ha] at h
          exact hi.src a s h
      · intro a y h
        obtain ⟨s, h1, h2⟩ := hi.same a y h
        by_cases ha : a = S.rt (fun a => G (.inl a)) μ
        · subst ha
          rw [src_some h1] at hs
          exact ⟨s, by rw [Function.update_self, hs], h2⟩
        · exact ⟨s, by rw [Function.update_of_ne ha, h1], h2⟩
      · intro a h
        by_cases ha : a = S.rt (fun a => G (.inl a)) μ
        · right; exact ⟨μ, by rw [ha, Function.update_self]⟩
        · rw [Function.update_of_ne ha]; exact hi.new a h
    | inl a =>
      rw [book, simulated]
      rw [asks] at hh
      cases hl : tbl.lookup a with
      | some y =>
        rw [hl] at hh
        obtain ⟨s, h1, h2⟩ := hi.same a y hl
        dsimp only at hh ⊢
        rw [src_some h1, h2]
        have : Function.update tab a (some s) = tab := by rw [← h1, Function.update_eq_self]
        rw [this]
        exact ih _ tbl tab ms pre hh hi
      | none =>
        rw [hl] at hh
        dsimp only at hh ⊢
        -- the simulator does not recognise what it could
        have hcomp : S.see tbl a = none → ∀ μ, S.rt (fun a => G (.inl a)) μ = a → ¬ ∀ n ∈ S.inner (fun a => G (.inl a)) μ, n ∈ pre := by
          intro hd μ hμ hin
          subst hμ
          refine hS.complete _ tbl μ hi.ok (fun n hn => hi.keys n (hin n hn)) ?_ hd
          intro x hx z hz hrx hrz e
          exact n1 x (hpre x (hi.known x hx hrx)) z (hpre z (hi.known z hz hrz)) e
        have hseen : ∀ μ, S.see tbl a = some μ → S.rt (fun a => G (.inl a)) μ = a ∧ ∀ n ∈ S.inner (fun a => G (.inl a)) μ, n ∈ hist := by
          intro μ hd
          obtain ⟨h1, h2⟩ := hS.sound _ tbl a μ hi.ok hd
          exact ⟨h1, fun n hn => hpre n (hi.known n (h2 n hn) (hS.inner_root _ μ n hn))⟩
        have hkey : ∀ y n, n ∈ (tbl ++ [(a, y)]).map Prod.fst ↔ n ∈ tbl.map Prod.fst ∨ n = a := by
          intro y n; simp
        have hstep : ∀ s, (tab a = none ∨ tab a = some s) →
            (s = .inl a ∧ (S.root a → ∃ l1 l2, hist = l1 ++ a :: l2 ∧
              ∀ μ, S.rt (fun a => G (.inl a)) μ = a → ¬ ∀ n ∈ S.inner (fun a => G (.inl a)) μ, n ∈ l1) ∨
            ∃ μ, s = .inr μ ∧ S.rt (fun a => G (.inl a)) μ = a ∧ ∀ n ∈ S.inner (fun a => G (.inl a)) μ, n ∈ hist) →
            ∀ pre', (∀ n, n ∈ pre' → n ∈ pre ∨ n = a) → (∀ n, n ∈ pre → n ∈ pre') → (¬ S.root a → a ∈ pre') →
            Inv S G hist pre' (tbl ++ [(a, G s)]) (Function.update tab a (some s)) := by
          intro s ht hs pre' hp1 hp2 hp3
          refine ⟨?_, ?_, ?_, ?_, ?_, ?_⟩
          · intro p hp hr
            rcases List.mem_append.1 hp with hp | hp
            · exact hi.ok p hp hr
            · rw [List.mem_singleton.1 hp] at hr ⊢
              rcases hs with ⟨rfl, -⟩ | ⟨μ, -, e, -⟩
              · rfl
              · exact absurd (e ▸ hS.rt_root _ μ) hr
          · intro n hn
            rw [hkey]
            rcases hp1 n hn with h | h
            · exact .inl (hi.keys n h)
            · exact .inr h
          · intro n hn hr
            rcases (hkey _ n).1 hn with h | rfl
            · exact hp2 n (hi.known n h hr)
            · exact hp3 hr
          · intro b s' h
            by_cases hb : b = a
            · subst hb
              rw [Function.update_self] at h
              rw [← Option.some.inj h]; exact hs
            · rw [Function.update_of_ne hb] at h
              exact hi.src b s' h
          · intro b y h
            by_cases hb : b = a
            · subst hb
              rw [lookup_snoc_self hl] at h
              exact ⟨s, Function.update_self .., Option.some.inj h⟩
            · rw [lookup_snoc_ne hb] at h
              obtain ⟨s', h1, h2⟩ := hi.same b y h
              exact ⟨s', by rw [Function.update_of_ne hb, h1], h2⟩
          · intro b h
            by_cases hb : b = a
            · subst hb
              rw [lookup_snoc_self hl] at h; cases h
            · rw [lookup_snoc_ne hb] at h
              rw [Function.update_of_ne hb]; exact hi.new b h
        rcases hi.new a hl with ht | ⟨μ, ht⟩
        · cases hd : S.see tbl a with
          | some μ =>
            rw [hd] at hh
            obtain ⟨h1, h2⟩ := hseen μ hd
            dsimp only at hh ⊢
            rw [src_none ht]
            exact ih _ _ _ ms pre hh (hstep (.inr μ) (.inl ht) (.inr ⟨μ, rfl, h1, h2⟩) pre (fun n hn => .inl hn) (fun n hn => hn)
              (fun hr => absurd (h1 ▸ hS.rt_root _ μ) hr))
          | none =>
            rw [hd] at hh
            dsimp only at hh ⊢
            rw [src_none ht]
            rw [Algo.asked] at hh
            refine ih _ _ _ ms (pre ++ [a]) (by rw [hh]; simp) (hstep (.inl a) (.inl ht) (.inl ⟨rfl, fun _ => ⟨pre, _, hh, hcomp hd⟩⟩) _
              (fun n hn => by simpa using hn) (fun n hn => List.mem_append_left _ hn) (fun _ => by simp))
        · obtain ⟨h1, h2⟩ : S.rt (fun a => G (.inl a)) μ = a ∧ ∀ n ∈ S.inner (fun a => G (.inl a)) μ, n ∈ hist := by
            rcases hi.src _ _ ht with ⟨h, -⟩ | ⟨ν, h, h1, h2⟩
            · cases h
            · rw [Sum.inr.inj h]; exact ⟨h1, h2⟩
          have hd : S.see tbl a = some μ := by
            cases hd : S.see tbl a with
            | some ν =>
              obtain ⟨h3, h4⟩ := hseen ν hd
              rw [hone ν μ (h3.trans h1.symm) h4 h2]
            | none =>
              rw [hd] at hh
              exact absurd (hdesc pre a _ hh μ h1 h2) (hcomp hd μ h1)
          rw [hd] at hh ⊢
          dsimp only at hh ⊢
          rw [src_some ht]
          exact ih _ _ _ ms pre hh (hstep (.inr μ) (.inr ht) (.inr ⟨μ, rfl, h1, h2⟩) pre (fun n hn => .inl hn) (fun n hn => hn)
            (fun hr => absurd (h1 ▸ hS.rt_root _ μ) hr))

/-- If nothing goes wrong, the run in between is the run with the simulator. -/
theorem mid_simulated {S : Sys X Y M V} (hS : S.Good) (below : M → Algo X Y X) (hbelow : ∀ F μ, (below μ).asked F = S.inner F μ)
    (A : Algo (X ⊕ M) Y α) (G : X ⊕ M → Y)
    (hn : ¬ Caught (hit S) (fun a => G (.inl a)) (asks S below (fun μ => G (.inr μ)) A [] []) []) :
    (mid S G A).1 = simulated S.see (fun a => G (.inl a)) (fun μ => G (.inr μ)) A [] := by
  obtain ⟨n1, n2⟩ := fresh S _ _ hn
  refine agree hS below hbelow G _ n1 n2 A [] _ [] [] rfl ⟨?_, ?_, ?_, ?_, ?_, ?_⟩
  · intro p hp; cases hp
  · intro n hn; cases hn
  · intro n hn; cases hn
  · intro a s h; cases h
  · intro a y h; cases h
  · intro a h; exact .inl rfl

end Baokeshed.Proofs.Indiff
