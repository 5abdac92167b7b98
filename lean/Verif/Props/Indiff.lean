import Verif.Proofs.Simulator
import Verif.Props.Secret
import Mathlib.Tactic.Ring

/-!
# C83: the output is like that of a random function

Two worlds, in both of which an algorithm asks for compressions and for blocks of output, in all modes, with all keys, in any order.
In one the compression function is random and the output is made from it.  In the other the output is random, and a simulator makes
up the compressions (`SpecSim.lean`).
-/

set_option linter.unusedVariables false
set_option exponentiation.threshold 600

namespace Baokeshed.Props
open Baokeshed.Model Baokeshed.Proofs

attribute [local irreducible] Spec.compress Spec.outBytes Spec.cvBytes Spec.pad

/-- compressions, and the output made from them -/
def library {N : Nat} (F : Comp) : Spec.Input ⊕ Spec.Want N → Spec.Full
  | .inl a => F a
  | .inr w => wordsWith F w.1.1 w.1.2.1 w.1.2.2

/-- compressions made up by the simulator with the help of `F`, and the output `R`: the result of an algorithm -/
def pretended {N : Nat} {α : Type} (F : Comp) (R : Spec.Want N → Spec.Full) (A : Spec.Algo (Spec.Input ⊕ Spec.Want N) Spec.Full α) : α :=
  Spec.simulated (Spec.seen N) F R A []

/-- the number of questions for compressions -/
def calls {N : Nat} (l : List (Spec.Input ⊕ Spec.Want N)) : Nat := (l.filterMap Sum.getLeft?).length

/-- the number of compressions for the output that is asked for -/
def spent {N : Nat} (l : List (Spec.Input ⊕ Spec.Want N)) : Nat :=
  ((l.filterMap Sum.getRight?).map fun w => Spec.compressions w.1.2.1.length).sum

/-- C83.  With the compression function itself, the output is that of the library (C06). -/
theorem C83_library {N : Nat} (w : Spec.Want N) :
    Spec.cvBytes (library realComp (.inr w)).1 ++ Spec.cvBytes (library realComp (.inr w)).2 = Spec.streamBlock w.1.1 w.1.2.1 w.1.2.2 := by
  rw [← C81_stream]
  exact (C82_answer realComp w.1.1 w.1.2.1 w.1.2.2).1.symm

/-! ## counting -/

instance : Finite Spec.Mode :=
  Finite.of_injective (β := Bool × Bool × Vector Byte 32) (fun m => match m with
    | .hash => (false, false, Vector.replicate 32 0)
    | .keyedHash k => (true, false, k)
    | .deriveKey k => (true, true, k)) fun a b h => by
    cases a <;> cases b <;> simp_all

instance (N : Nat) : Finite (Spec.Want N) :=
  Finite.of_injective (β := Spec.Mode × { p : Bytes × Nat // p.1.length ≤ N ∧ p.2 < 2 ^ 58 }) (fun w => (w.1.1, ⟨w.1.2, w.2⟩)) fun a b h => by
    simp only [Prod.mk.injEq, Subtype.mk.injEq] at h
    exact Subtype.ext (Prod.ext h.1 h.2)

theorem card_first (v : Bytes) : Nat.card { y : Spec.Full // (Spec.cvBytes y.1).toList = v } ≤ 2 ^ 256 := by
  rw [← card_words]
  refine Nat.card_le_card_of_injective (fun y : { y : Spec.Full // (Spec.cvBytes y.1).toList = v } => y.1.2) fun a b h => ?_
  exact Subtype.ext (Prod.ext (cvBytes_inj (Vector.toList_inj.1 (a.2.trans b.2.symm))) h)

theorem root_cost (F : Comp) (m : Spec.Mode) (x : Bytes) : ((Spec.rootAsk m x).asked F).length ≤ Spec.compressions x.length := by
  have h := C81_questions F m x
  rw [(Gen.hash_asks F m x).2, List.length_append] at h
  rw [(Gen.root_asks F m x).2]
  have : Spec.compressions x.length = max 1 ((x.length + 63) / 64) + (max 1 ((x.length + 2047) / 2048) - 1) := rfl
  omega

theorem library_eq {N : Nat} (F : Comp) : library (N := N) F = Indiff.real (Gen.sys N) F := by
  funext q
  rcases q with a | w
  · rfl
  · show wordsWith F _ _ _ = _
    rw [wordsWith, Gen.result_bind, (Gen.root_asks F _ _).1]
    rfl

theorem sum_steps (t : Nat) : 2 * ∑ i ∈ Finset.range t, (3 * i + 2) * 2 ^ 256 = (3 * t ^ 2 + t) * 2 ^ 256 := by
  rw [← Finset.sum_mul, ← Nat.mul_assoc]
  congr 1
  induction t with
  | zero => rfl
  | succ t ih => rw [Finset.sum_range_succ, Nat.mul_add, ih]; ring

theorem pretended_le {N : Nat} (hN : N < 2 ^ 64) {α : Type} (A : Spec.Algo (Spec.Input ⊕ Spec.Want N) Spec.Full α) (P : α → Prop) (t : Nat)
    (ht : ∀ G, calls (A.asked G) + spent (A.asked G) ≤ t) :
    prob (fun F : Comp => P (A.result (library F))) ≤
      prob (fun w : Comp × (Spec.Want N → Spec.Full) => P (pretended w.1 w.2 A)) + ((3 * t ^ 2 + t : Nat) : ℚ) / 2 ^ 257 := by
  have h := Indiff.indiff (Gen.sys_good hN) (fun w => Spec.rootAsk w.1.1 w.1.2.1) (fun F w => (Gen.root_asks F _ _).2)
    (fun w => Spec.compressions w.1.2.1.length) (fun F w => root_cost F _ _) (2 ^ 256) card_first Gen.slots_length A P t ht
  simp only [← library_eq] at h
  have e1 : Nat.card { G : Spec.Input ⊕ Spec.Want N → Spec.Full // P (A.result (library fun a => G (.inl a))) } =
      Nat.card { F : Comp // P (A.result (library F)) } * Nat.card (Spec.Want N → Spec.Full) := by
    rw [← Nat.card_prod]
    refine Nat.card_congr ⟨fun G => (⟨fun a => G.1 (.inl a), G.2⟩, fun w => G.1 (.inr w)), fun p => ⟨Sum.elim p.1.1 p.2, p.1.2⟩, ?_, ?_⟩
    · intro G; exact Subtype.ext (Sum.elim_comp_inl_inr G.1)
    · intro p; rfl
  have e2 : Nat.card { G : Spec.Input ⊕ Spec.Want N → Spec.Full //
        P (Spec.simulated (Gen.sys N).see (fun a => G (.inl a)) (fun μ => G (.inr μ)) A []) } =
      Nat.card { w : Comp × (Spec.Want N → Spec.Full) // P (pretended w.1 w.2 A) } := by
    refine Nat.card_congr ⟨fun G => ⟨(fun a => G.1 (.inl a), fun w => G.1 (.inr w)), G.2⟩, fun p => ⟨Sum.elim p.1.1 p.1.2, p.2⟩, ?_, ?_⟩
    · intro G; exact Subtype.ext (Sum.elim_comp_inl_inr G.1)
    · intro p; rfl
  have hG : Nat.card (Spec.Input ⊕ Spec.Want N → Spec.Full) = Nat.card Comp * Nat.card (Spec.Want N → Spec.Full) := by
    rw [← Nat.card_prod]
    exact Nat.card_congr (Equiv.sumArrowEquivProdArrow _ _ _)
  rw [e1, e2, hG, card_full] at h
  have h := Nat.mul_le_mul_left 2 h
  rw [Nat.mul_add, ← Nat.mul_assoc 2 (∑ i ∈ _, _), sum_steps] at h
  rw [prob, prob, Nat.card_prod]
  have p1 : 0 < Nat.card Comp := Nat.card_pos
  have p2 : 0 < Nat.card (Spec.Want N → Spec.Full) := Nat.card_pos
  generalize 3 * t ^ 2 + t = e at *
  generalize Nat.card { F : Comp // P (A.result (library F)) } = a at *
  generalize Nat.card { w : Comp × (Spec.Want N → Spec.Full) // P (pretended w.1 w.2 A) } = b at *
  generalize Nat.card Comp = C at *
  generalize Nat.card (Spec.Want N → Spec.Full) = M at *
  have h : (2 * (a * M * (2 ^ 256 * 2 ^ 256)) : ℚ) ≤ 2 * (b * (2 ^ 256 * 2 ^ 256)) + e * 2 ^ 256 * (C * M) := by exact_mod_cast h
  have p1 : (0 : ℚ) < C := by exact_mod_cast p1
  have p2 : (0 : ℚ) < M := by exact_mod_cast p2
  rw [show (2 : ℚ) ^ 257 = 2 * 2 ^ 256 from pow_succ' 2 256]
  have p3 : (0 : ℚ) < 2 ^ 256 := by positivity
  push_cast
  generalize (2 : ℚ) ^ 256 = z at *
  have h' : 2 * a * M * z ≤ 2 * b * z + e * (C * M) := by
    refine le_of_mul_le_mul_right ?_ p3
    linarith
  rw [div_add_div _ _ (by positivity) (by positivity), div_le_div_iff₀ (by positivity) (by positivity)]
  have := mul_le_mul_of_nonneg_right h' (le_of_lt p1)
  linarith

/-- C83.  Whatever an algorithm finds out, it finds out with nearly the same probability in the world where the compression function is
random and the output is made from it as in the world where the output is random and the compressions are made up.  `q`: questions for
compressions.  `s`: compressions for the output that is asked for. -/
theorem C83_indifferentiable {N : Nat} (hN : N < 2 ^ 64) {α : Type} (A : Spec.Algo (Spec.Input ⊕ Spec.Want N) Spec.Full α) (P : α → Prop)
    (q s : Nat) (hq : ∀ G, calls (A.asked G) ≤ q) (hs : ∀ G, spent (A.asked G) ≤ s) :
    |prob (fun F : Comp => P (A.result (library F))) -
      prob (fun w : Comp × (Spec.Want N → Spec.Full) => P (pretended w.1 w.2 A))| ≤ ((3 * (q + s) ^ 2 + (q + s) : Nat) : ℚ) / 2 ^ 257 := by
  have ht : ∀ G, calls (A.asked G) + spent (A.asked G) ≤ q + s := fun G => Nat.add_le_add (hq G) (hs G)
  have h1 := pretended_le hN A P (q + s) ht
  have h2 := pretended_le hN A (fun a => ¬ P a) (q + s) ht
  rw [prob_not, prob_not (fun w : Comp × (Spec.Want N → Spec.Full) => P (pretended w.1 w.2 A))] at h2
  generalize ((3 * (q + s) ^ 2 + (q + s) : Nat) : ℚ) / 2 ^ 257 = e at *
  rw [abs_le]
  constructor <;> linarith

/-! ## what the simulator does -/

/-- ask only for compressions -/
def onlyCalls {M α : Type} : Spec.Asking α → Spec.Algo (Spec.Input ⊕ M) Spec.Full α
  | .done a => .done a
  | .ask a k => .ask (.inl a) fun y => onlyCalls (k y)

/-- the hash and the other blocks, made from compressions -/
def madeBlock {M : Type} (m : Spec.Mode) (x : Bytes) (k : Nat) : Spec.Algo (Spec.Input ⊕ M) Spec.Full Spec.Full :=
  onlyCalls (Spec.rootAsk m x >>= fun n => .ask { n with offset := BitVec.ofNat 64 (64 * k) } .done)

theorem seen_no_root {N : Nat} (tbl : List (Spec.Input × Spec.Full)) (a : Spec.Input) (ha : a.flags &&& Spec.rootFlag = 0) :
    Spec.seen N tbl a = none := by
  cases h : Spec.seen N tbl a with
  | none => rfl
  | some w =>
    obtain ⟨-, e⟩ := Gen.recognise_sound (Gen.seen_some h)
    exact absurd (by rw [e]; exact ha) (Gen.root_root _ w.1.1 w.1.2.1 w.1.2.2)

theorem onlyCalls_bind {M α β : Type} (A : Spec.Asking α) (f : α → Spec.Asking β) :
    onlyCalls (M := M) (A >>= f) = onlyCalls A >>= fun a => onlyCalls (f a) := by
  induction A with
  | done a => rfl
  | ask a k ih => exact congrArg _ (funext fun y => ih y)

/-- questions without `ROOT` -/
theorem simulated_calls {N : Nat} (F : Comp) (R : Spec.Want N → Spec.Full) {α β : Type} (B : Spec.Asking α)
    (f : α → Spec.Algo (Spec.Input ⊕ Spec.Want N) Spec.Full β) (hB : ∀ a ∈ B.asked F, a.flags &&& Spec.rootFlag = 0) :
    ∀ tbl : List (Spec.Input × Spec.Full), (∀ p ∈ tbl, F p.1 = p.2) →
    ∃ tbl', (∀ p ∈ tbl', F p.1 = p.2) ∧ (∀ a, a ∈ tbl'.map Prod.fst ↔ a ∈ tbl.map Prod.fst ∨ a ∈ B.asked F) ∧
      Spec.simulated (Spec.seen N) F R (onlyCalls B >>= f) tbl = Spec.simulated (Spec.seen N) F R (f (B.result F)) tbl' := by
  induction B with
  | done a => intro tbl h; exact ⟨tbl, h, fun a => by simp [Spec.Algo.asked], rfl⟩
  | ask a k ih =>
    intro tbl h
    have h0 : a.flags &&& Spec.rootFlag = 0 := hB a List.mem_cons_self
    have hk := fun b hb => hB b (List.mem_cons_of_mem _ hb)
    have e : Spec.simulated (Spec.seen N) F R (onlyCalls (.ask a k) >>= f) tbl =
        Spec.simulated (Spec.seen N) F R (.ask (.inl a) fun y => onlyCalls (k y) >>= f) tbl := rfl
    rw [e, Spec.simulated]
    cases hl : tbl.lookup a with
    | some y =>
      have hm := Gen.lookup_mem hl
      have ey : F a = y := h _ hm
      subst ey
      obtain ⟨tbl', h1, h2, h3⟩ := ih (F a) hk tbl h
      refine ⟨tbl', h1, fun b => ?_, h3⟩
      rw [h2 b, Spec.Algo.asked, List.mem_cons]
      constructor
      · rintro (h | h)
        · exact .inl h
        · exact .inr (.inr h)
      · rintro (h | rfl | h)
        · exact .inl h
        · exact .inl (List.mem_map.2 ⟨_, hm, rfl⟩)
        · exact .inr h
    | none =>
      dsimp only
      rw [seen_no_root tbl a h0]
      obtain ⟨tbl', h1, h2, h3⟩ := ih (F a) hk (tbl ++ [(a, F a)]) (fun p hp => by
        rcases List.mem_append.1 hp with hp | hp
        · exact h p hp
        · rw [List.mem_singleton.1 hp])
      refine ⟨tbl', h1, fun b => ?_, h3⟩
      rw [h2 b, Spec.Algo.asked, List.mem_cons]
      simp only [List.map_append, List.map_cons, List.map_nil, List.mem_append, List.mem_singleton, or_assoc]

/-- C83.  Who makes a block of output from the made-up compressions gets the random block that is the output, unless two of the compressions
give the same chaining value. -/
theorem C83_consistent {N : Nat} (hN : N < 2 ^ 64) (F : Comp) (R : Spec.Want N → Spec.Full) (w : Spec.Want N)
    (hc : ∀ a ∈ (Spec.rootAsk w.1.1 w.1.2.1).asked F, ∀ b ∈ (Spec.rootAsk w.1.1 w.1.2.1).asked F, (F a).1 = (F b).1 → a = b) :
    pretended F R (madeBlock w.1.1 w.1.2.1 w.1.2.2) = pretended F R (.ask (.inr w) .done) := by
  obtain ⟨r1, r2⟩ := Gen.root_asks F w.1.1 w.1.2.1
  have hno : ∀ a ∈ (Spec.rootAsk w.1.1 w.1.2.1).asked F, a.flags &&& Spec.rootFlag = 0 := by
    rw [r2]
    exact fun a ha => Gen.below_flags _ (modeFlag _) _ _ 0 a ha
  obtain ⟨tbl, h1, h2, h3⟩ := simulated_calls F R (Spec.rootAsk w.1.1 w.1.2.1)
    (fun n => onlyCalls (.ask { n with offset := BitVec.ofNat 64 (64 * w.1.2.2) } .done)) hno [] (fun p hp => absurd hp List.not_mem_nil)
  rw [pretended, madeBlock, onlyCalls_bind, h3, r1]
  have hkeys : ∀ a ∈ tbl.map Prod.fst, a ∈ (Spec.rootAsk w.1.1 w.1.2.1).asked F := fun a ha => by
    rcases (h2 a).1 ha with h | h
    · cases h
    · exact h
  have hsee : Spec.seen N tbl (Gen.rootAt (Gen.low F) w.1.1 w.1.2.1 w.1.2.2) = some w := by
    have := Gen.recognise_complete (N := N) (F := F) (tbl := tbl) (fun p hp _ => h1 p hp) w.1.1 w.1.2.1 w.1.2.2 (by have := w.2.1; omega) w.2.2
      (fun n hn => (h2 n).2 (.inr (by rw [r2]; exact hn))) (fun a ha b hb _ _ e => hc a (hkeys a ha) b (hkeys b hb) e)
    rw [Spec.seen, this, Option.bind_some, dif_pos w.2]
  have hlook : tbl.lookup (Gen.rootAt (Gen.low F) w.1.1 w.1.2.1 w.1.2.2) = none := by
    cases hl : tbl.lookup (Gen.rootAt (Gen.low F) w.1.1 w.1.2.1 w.1.2.2) with
    | none => rfl
    | some y =>
      exact absurd (hno _ (hkeys _ (List.mem_map.2 ⟨_, Gen.lookup_mem hl, rfl⟩))) (Gen.root_root _ _ _ _)
  show Spec.simulated (Spec.seen N) F R (.ask (.inl (Gen.rootAt (Gen.low F) w.1.1 w.1.2.1 w.1.2.2)) fun y => .done y) tbl = _
  rw [Spec.simulated, hlook]
  dsimp only
  rw [hsee]
  rfl

/-! ## examples -/

/-- the request for the hash of the empty input -/
def exWant : Spec.Want 5000 := ⟨(.hash, [], 0), Nat.zero_le _, Nat.two_pow_pos 58⟩

/-- An algorithm that asks for the hash of the empty input, makes the hash itself, and compares. -/
def exCompare : Spec.Algo (Spec.Input ⊕ Spec.Want 5000) Spec.Full Prop :=
  .ask (.inr exWant) fun y => madeBlock .hash [] 0 >>= fun z => .done (y = z)

theorem exCompare_asks : exCompare = .ask (.inr exWant) fun y =>
    .ask (.inl { cv := Spec.Mode.hash.key, block := Spec.pad [], blockLen := 0, offset := 0, flags := 0 ||| Spec.chunkStart ||| Spec.chunkEnd ||| Spec.rootFlag })
      fun z => .done (y = z) := by
  rw [exCompare, madeBlock, Spec.rootAsk, Spec.subtreeAsk, dif_pos (by decide), Spec.chunkAsk, dif_pos (by decide)]
  rfl

theorem exCompare_scope (G : Spec.Input ⊕ Spec.Want 5000 → Spec.Full) : calls (exCompare.asked G) ≤ 1 ∧ spent (exCompare.asked G) ≤ 1 := by
  rw [exCompare_asks]
  exact ⟨Nat.le_refl 1, by show Spec.compressions 0 + 0 ≤ 1; decide⟩

/-- it finds no difference if the output is made from the compressions, -/
theorem exCompare_real (F : Comp) : exCompare.result (library F) := by
  have h : exCompare.result (library F) = (wordsWith F .hash [] 0 =
      F { cv := Spec.Mode.hash.key, block := Spec.pad [], blockLen := 0, offset := 0, flags := 0 ||| Spec.chunkStart ||| Spec.chunkEnd ||| Spec.rootFlag }) := by
    rw [exCompare_asks]; rfl
  rw [h, wordsWith, Spec.rootAsk, Spec.subtreeAsk, dif_pos (by decide), Spec.chunkAsk, dif_pos (by decide)]
  rfl

/-- and hardly ever with the simulator; -/
example : 1 - 14 / 2 ^ 257 ≤ prob (fun w : Comp × (Spec.Want 5000 → Spec.Full) => pretended w.1 w.2 exCompare) := by
  have h := C83_indifferentiable (by decide) exCompare id 1 1 (fun G => (exCompare_scope G).1) (fun G => (exCompare_scope G).2)
  simp only [id] at h
  have h1 : prob (fun F : Comp => exCompare.result (library F)) = 1 := by
    rw [prob, Nat.card_congr (Equiv.subtypeUnivEquiv fun F => exCompare_real F)]
    exact div_self (Nat.cast_ne_zero.2 (Nat.pos_iff_ne_zero.1 Nat.card_pos))
  rw [h1, abs_le] at h
  have h2 := h.2
  norm_num at h2 ⊢
  linarith

/-- but nearly always if nobody recognises the root nodes: C83 would be false with a simulator that does not. -/
example : prob (fun w : Comp × (Spec.Want 5000 → Spec.Full) => Spec.simulated (fun _ _ => none) w.1 w.2 exCompare []) = 1 / 2 ^ 512 := by
  rw [exCompare_asks]
  generalize ({ cv := Spec.Mode.hash.key, block := Spec.pad [], blockLen := 0, offset := 0, flags := 0 ||| Spec.chunkStart ||| Spec.chunkEnd ||| Spec.rootFlag } : Spec.Input) = a
  have h := count_guess (X := Spec.Input ⊕ Spec.Want 5000) (fun y : Spec.Full => y) (fun y z => z) (fun _ _ => rfl) (fun _ => rfl) (fun _ _ _ => rfl)
    (.ask (.inl a) fun z => .done (.inr exWant, z))
  have e1 : Nat.card { w : Comp × (Spec.Want 5000 → Spec.Full) //
        Spec.simulated (fun _ _ => none) w.1 w.2 (.ask (.inr exWant) fun y => .ask (.inl a) fun z => .done (y = z)) [] } =
      Nat.card { G : Spec.Input ⊕ Spec.Want 5000 → Spec.Full // G (.inr exWant) = G (.inl a) } :=
    Nat.card_congr ⟨fun p => ⟨Sum.elim p.1.1 p.1.2, p.2⟩, fun G => ⟨(fun a => G.1 (.inl a), fun w => G.1 (.inr w)), G.2⟩, fun p => rfl,
      fun G => Subtype.ext (Sum.elim_comp_inl_inr G.1)⟩
  have hG : Nat.card (Spec.Input ⊕ Spec.Want 5000 → Spec.Full) = Nat.card (Comp × (Spec.Want 5000 → Spec.Full)) :=
    Nat.card_congr (Equiv.sumArrowEquivProdArrow _ _ _)
  simp only [Spec.Algo.result, Spec.Algo.asked, List.mem_singleton, reduceCtorEq, not_false_eq_true, true_and] at h
  rw [prob, e1, ← hG, div_eq_div_iff (Nat.cast_ne_zero.2 (Nat.pos_iff_ne_zero.1 Nat.card_pos)) (by positivity), one_mul]
  rw [card_full, Nat.card_congr (Equiv.subtypeUnivEquiv fun _ => trivial)] at h
  rw [show (512 : Nat) = 256 + 256 from rfl, pow_add]
  exact_mod_cast h

/-- An algorithm whose questions depend on answers: 3000 bytes, a parent node over the output, 64 bytes made of both, another block of
the same output. -/
def exMixed : Spec.Algo (Spec.Input ⊕ Spec.Want 5000) Spec.Full (Spec.Full × Spec.Full) :=
  .ask (.inr ⟨(.hash, List.replicate 3000 1, 0), by rw [List.length_replicate]; decide, Nat.two_pow_pos 58⟩) fun y =>
  .ask (.inl (Spec.parent y.1 0 y.1 y.2)) fun z =>
  .ask (.inr ⟨(.keyedHash (Spec.cvBytes z.1), (Spec.cvBytes y.1 ++ Spec.cvBytes z.2).toList, 7), by rw [Vector.length_toList]; decide, by show 7 < 2 ^ 58; decide⟩) fun t =>
  .ask (.inr ⟨(.hash, List.replicate 3000 1, 1), by rw [List.length_replicate]; decide, by decide⟩) fun u =>
  .done (t, u)

example (P : Spec.Full × Spec.Full → Prop) : |prob (fun F : Comp => P (exMixed.result (library F))) -
    prob (fun w : Comp × (Spec.Want 5000 → Spec.Full) => P (pretended w.1 w.2 exMixed))| ≤ 28910 / 2 ^ 257 := by
  have h := C83_indifferentiable (by decide) exMixed P 1 97 (fun G => Nat.le_refl 1) (fun G => by
    show Spec.compressions (List.replicate 3000 (1 : Byte)).length + (Spec.compressions (Vector.toList _).length +
      (Spec.compressions (List.replicate 3000 (1 : Byte)).length + 0)) ≤ 97
    rw [List.length_replicate, Vector.length_toList]
    decide)
  norm_num at h ⊢
  exact h

/-- with 2^80 compressions in total for each purpose: differences below 1 / 2^93 -/
example {N : Nat} (hN : N < 2 ^ 64) {α : Type} (A : Spec.Algo (Spec.Input ⊕ Spec.Want N) Spec.Full α) (P : α → Prop)
    (hq : ∀ G, calls (A.asked G) ≤ 2 ^ 80) (hs : ∀ G, spent (A.asked G) ≤ 2 ^ 80) :
    |prob (fun F : Comp => P (A.result (library F))) - prob (fun w : Comp × (Spec.Want N → Spec.Full) => P (pretended w.1 w.2 A))| ≤ 1 / 2 ^ 93 := by
  refine le_trans (C83_indifferentiable hN A P _ _ hq hs) ?_
  norm_num

/-- the hypothesis of `C83_consistent`, for an input of two blocks: there is one compression below the root node -/
example (F : Comp) (x : Bytes) (hx : x.length = 100) : ∀ a ∈ (Spec.rootAsk .hash x).asked F, ∀ b ∈ (Spec.rootAsk .hash x).asked F,
    (F a).1 = (F b).1 → a = b := by
  have h : ((Spec.rootAsk .hash x).asked F).length = 1 := by
    have := C81_questions F .hash x
    rw [(Gen.hash_asks F .hash x).2, List.length_append, hx, ← (Gen.root_asks F .hash x).2] at this
    exact Nat.succ.inj this
  obtain ⟨n, hn⟩ := List.length_eq_one_iff.1 h
  rw [hn]
  intro a ha b hb _
  rw [List.mem_singleton.1 ha, List.mem_singleton.1 hb]

end Baokeshed.Props
