import Verif.Props.Users
import Verif.Props.Hash

/-!
# C93: checking hashes with secret keys

Holders of random keys answer requests, as in C86, and also check hashes: somebody sends an input and 32 bytes, and learns whether the
32 bytes are the hash of the input.  The comparison is that of `Hash`.
-/

set_option linter.unusedVariables false
set_option exponentiation.threshold 600

namespace Baokeshed.Props
open Baokeshed.Model Baokeshed.Proofs

attribute [local irreducible] Spec.compress Spec.outBytes Spec.cvBytes Spec.pad

section
variable {U : Type} {N : Nat} {Z : Type}

/-- What is sent for a check: to which holder, in which mode, the input, and what is said to be the hash (or a part of the output). -/
abbrev Attempt (U : Type) (N : Nat) (Z : Type) := (U × Bool × { x : Bytes // x.length ≤ N }) × Z

/-- the request that would give the hash -/
def Attempt.request (t : Attempt U N Z) : Spec.Input ⊕ (U × Request N) := .inr (t.1.1, hashRequest t.1.2)

/-- the number of compressions for a check -/
def Attempt.cost (t : Attempt U N Z) : Nat := Spec.compressions t.1.2.2.1.length

/-- the mode, with the key of the holder -/
def Attempt.mode (k : U → Vector Byte 32) (t : Attempt U N Z) : Spec.Mode :=
  if t.1.2.1 then .deriveKey (k t.1.1) else .keyedHash (k t.1.1)

/-- the input -/
def Attempt.input (t : Attempt U N Z) : Bytes := t.1.2.2.1

/-- An attacker who asks and who has hashes checked.  What the attacker does next depends on all answers so far. -/
inductive Session (U : Type) (N : Nat) (Z : Type) where
  | done
  | ask (x : Spec.Input ⊕ (U × Request N)) (next : Spec.Full → Session U N Z)
  | check (t : Attempt U N Z) (next : Bool → Session U N Z)

namespace Session

/-- the questions, if `G` answers questions and `V` checks -/
def asks (G : Spec.Input ⊕ (U × Request N) → Spec.Full) (V : Attempt U N Z → Bool) : Session U N Z → List (Spec.Input ⊕ (U × Request N))
  | done => []
  | ask x next => x :: (next (G x)).asks G V
  | check t next => (next (V t)).asks G V

/-- what is sent for checks -/
def checks (G : Spec.Input ⊕ (U × Request N) → Spec.Full) (V : Attempt U N Z → Bool) : Session U N Z → List (Attempt U N Z)
  | done => []
  | ask x next => (next (G x)).checks G V
  | check t next => t :: (next (V t)).checks G V

/-- Some check succeeds although block 0 of the output, with the hash, had not been requested before.  `l` are the questions so far. -/
def forged (G : Spec.Input ⊕ (U × Request N) → Spec.Full) (V : Attempt U N Z → Bool) :
    Session U N Z → List (Spec.Input ⊕ (U × Request N)) → Prop
  | done, _ => False
  | ask x next, l => (next (G x)).forged G V (x :: l)
  | check t next, l => (V t = true ∧ t.request ∉ l) ∨ (next (V t)).forged G V l

/-- The attacker asks for at most `q` compressions and makes at most `v` attempts, and the holders perform at most `s` compressions, for
requests and checks together, whatever the answers are. -/
structure Within (S : Session U N Z) (q s v : Nat) : Prop where
  direct : ∀ G V, directs (S.asks G V) ≤ q
  held : ∀ G V, helds (S.asks G V) + ((S.checks G V).map Attempt.cost).sum ≤ s
  attempts : ∀ G V, (S.checks G V).length ≤ v

end Session

/-- the check that the holder of a key performs: compute the hash, and compare -/
def verifies (F : Comp) (k : U → Vector Byte 32) (t : Attempt U N (Vector Byte 32)) : Bool :=
  Hash.eq (hashWith F (t.mode k) t.input) t.2

/-- the check of `n` bytes: compute the output, and compare its first `n` bytes -/
def verifiesBytes (n : Nat) (F : Comp) (k : U → Vector Byte 32) (t : Attempt U N (Vector Byte n)) : Bool :=
  (blockWith F (t.mode k) t.input 0).toList.take n == t.2.toList

/-- the check with answers to requests; `get` is what is compared -/
def compares [DecidableEq Z] (get : Spec.Full → Z) (G : Spec.Input ⊕ (U × Request N) → Spec.Full) (t : Attempt U N Z) : Bool :=
  decide (get (G t.request) = t.2)

theorem compares_iff [DecidableEq Z] (get : Spec.Full → Z) (G : Spec.Input ⊕ (U × Request N) → Spec.Full) (t : Attempt U N Z) :
    compares get G t = true ↔ get (G t.request) = t.2 := decide_eq_true_iff

theorem eq_iff (a b : Vector Byte 32) : Hash.eq a b = true ↔ a = b := by
  rw [C19_eq]
  exact ⟨fun h => Vector.ext h, fun h i hi => by rw [h]⟩

/-! ## one attacker who asks only -/

/-- ask where something is to be checked -/
def Session.simple [DecidableEq Z] (get : Spec.Full → Z) :
    Session U N Z → List (Spec.Input ⊕ (U × Request N)) → Spec.Algo (Spec.Input ⊕ (U × Request N)) Spec.Full Prop
  | done, _ => .done False
  | ask x next, l => .ask x fun y => (next y).simple get (x :: l)
  | check t next, l => .ask t.request fun y =>
      ((next (decide (get y = t.2))).simple get l) >>= fun p =>
        .done ((decide (get y = t.2) = true ∧ t.request ∉ l) ∨ p)

theorem simple_eq [DecidableEq Z] (get : Spec.Full → Z) (G : Spec.Input ⊕ (U × Request N) → Spec.Full) (S : Session U N Z)
    (l : List (Spec.Input ⊕ (U × Request N))) :
    (S.simple get l).result G = S.forged G (compares get G) l ∧
    directs ((S.simple get l).asked G) = directs (S.asks G (compares get G)) ∧
    helds ((S.simple get l).asked G) = helds (S.asks G (compares get G)) + ((S.checks G (compares get G)).map Attempt.cost).sum := by
  induction S generalizing l with
  | done => exact ⟨rfl, rfl, rfl⟩
  | ask x next ih =>
    obtain ⟨h1, h2, h3⟩ := ih (G x) (x :: l)
    refine ⟨h1, ?_, ?_⟩
    · simp only [Session.simple, Spec.Algo.asked, Session.asks]
      rcases x with x | x
      · exact congrArg (· + 1) h2
      · exact h2
    · simp only [Session.simple, Spec.Algo.asked, Session.asks, Session.checks]
      rcases x with x | x
      · exact h3
      · exact (congrArg (_ + ·) h3).trans (Nat.add_assoc _ _ _).symm
  | check t next ih =>
    obtain ⟨h1, h2, h3⟩ := ih (compares get G t) l
    simp only [Session.simple, Spec.Algo.result, Spec.Algo.asked, Session.asks, Session.checks, Session.forged]
    rw [Gen.result_bind, Gen.asked_bind]
    simp only [Spec.Algo.result, Spec.Algo.asked, List.append_nil]
    refine ⟨?_, h2, ?_⟩
    · rw [← h1]
      rfl
    · rw [List.map_cons, List.sum_cons]
      refine Eq.trans (congrArg (t.cost + ·) h3) ?_
      omega

/-! ## the attempt with a given number -/

open Classical in
/-- Attempts that had not been requested before are numbered.  All before number `i` fail; number `i` is the result. -/
noncomputable def Session.trial (get : Spec.Full → Z) : Session U N Z → Nat → List (Spec.Input ⊕ (U × Request N)) →
    Spec.Algo (Spec.Input ⊕ (U × Request N)) Spec.Full (Option (Attempt U N Z))
  | done, _, _ => .done none
  | ask x next, i, l => .ask x fun y => (next y).trial get i (x :: l)
  | check t next, i, l =>
      if t.request ∈ l then .ask t.request fun y => (next (decide (get y = t.2))).trial get i l
      else match i with
        | 0 => .done (some t)
        | i + 1 => (next false).trial get i l

theorem trial_of_forged [DecidableEq Z] (get : Spec.Full → Z) (G : Spec.Input ⊕ (U × Request N) → Spec.Full) (S : Session U N Z)
    (l : List (Spec.Input ⊕ (U × Request N))) (h : S.forged G (compares get G) l) :
    ∃ i t, i < (S.checks G (compares get G)).length ∧ (S.trial get i l).result G = some t ∧ compares get G t = true ∧ t.request ∉ l ∧
      t.request ∉ (S.trial get i l).asked G := by
  induction S generalizing l with
  | done => exact absurd h id
  | ask x next ih =>
    obtain ⟨i, t, h1, h2, h3, h4, h5⟩ := ih (G x) (x :: l) h
    rw [List.mem_cons, not_or] at h4
    refine ⟨i, t, h1, h2, h3, h4.2, ?_⟩
    simp only [Session.trial, Spec.Algo.asked]
    rw [List.mem_cons, not_or]
    exact ⟨h4.1, h5⟩
  | check t next ih =>
    by_cases hm : t.request ∈ l
    · have h : (next (compares get G t)).forged G (compares get G) l := h.resolve_left fun hl => hl.2 hm
      obtain ⟨i, u, h1, h2, h3, h4, h5⟩ := ih _ l h
      have hd : ∀ inst : Decidable (get (G t.request) = t.2), @decide _ inst = compares get G t := fun inst => by
        rw [compares]
        congr
      refine ⟨i, u, Nat.lt_succ_of_lt h1, ?_, h3, h4, ?_⟩
      · simp only [Session.trial, if_pos hm, Spec.Algo.result, hd]
        exact h2
      · simp only [Session.trial, if_pos hm, Spec.Algo.asked, hd]
        rw [List.mem_cons, not_or]
        exact ⟨fun e => h4 (e ▸ hm), h5⟩
    · by_cases hv : compares get G t = true
      · refine ⟨0, t, Nat.succ_pos _, ?_, hv, hm, ?_⟩
        · simp only [Session.trial, if_neg hm, Spec.Algo.result]
        · simp only [Session.trial, if_neg hm, Spec.Algo.asked]
          exact List.not_mem_nil
      · have h : (next (compares get G t)).forged G (compares get G) l := h.resolve_left fun hl => hv hl.1
        have hf : compares get G t = false := Bool.not_eq_true _ ▸ hv
        obtain ⟨i, u, h1, h2, h3, h4, h5⟩ := ih _ l h
        rw [hf] at h1 h2 h5
        refine ⟨i + 1, u, ?_, ?_, h3, h4, ?_⟩
        · simp only [Session.checks, hf]
          exact Nat.succ_lt_succ h1
        · simp only [Session.trial, if_neg hm]
          exact h2
        · simp only [Session.trial, if_neg hm]
          exact h5

theorem prob_mono {Ω : Type} [Finite Ω] (p p' : Ω → Prop) (h : ∀ w, p w → p' w) : prob p ≤ prob p' := by
  rw [prob, prob]
  refine div_le_div_of_nonneg_right ?_ (Nat.cast_nonneg _)
  exact Nat.cast_le.2 (Nat.card_le_card_of_injective (fun w => (⟨w.1, h _ w.2⟩ : { w // p' w })) fun a b e => Subtype.ext (Subtype.mk.inj e))

theorem prob_or {Ω : Type} [Finite Ω] (p p' : Ω → Prop) : prob (fun w => p w ∨ p' w) ≤ prob p + prob p' := by
  classical
  have := Fintype.ofFinite Ω
  rw [prob, prob, prob, ← add_div]
  refine div_le_div_of_nonneg_right ?_ (Nat.cast_nonneg _)
  rw [Nat.card_eq_fintype_card, Nat.card_eq_fintype_card, Nat.card_eq_fintype_card]
  exact_mod_cast Fintype.card_subtype_or p p'

theorem prob_exists {Ω : Type} [Finite Ω] (p : Nat → Ω → Prop) (e : ℚ) (h : ∀ i, prob (p i) ≤ e) (v : Nat) :
    prob (fun w => ∃ i, i < v ∧ p i w) ≤ v * e := by
  induction v with
  | zero =>
    have : IsEmpty { w : Ω // ∃ i, i < 0 ∧ p i w } := ⟨fun ⟨_, i, hi, _⟩ => absurd hi (Nat.not_lt_zero i)⟩
    rw [prob, Nat.card_eq_zero.2 (Or.inl this)]
    simp
  | succ v ih =>
    refine le_trans (prob_mono _ (fun w => (∃ i, i < v ∧ p i w) ∨ p v w) ?_) (le_trans (prob_or _ _) ?_)
    · rintro w ⟨i, hi, hp⟩
      rcases Nat.lt_succ_iff_lt_or_eq.1 hi with hi | rfl
      · exact .inl ⟨i, hi, hp⟩
      · exact .inr hp
    · have := h v
      push_cast
      linarith

variable [Finite U] [Finite Z] [Nonempty Z] [DecidableEq Z]

/-- one attempt against random answers -/
theorem trial_le (get : Spec.Full → Z) (set : Spec.Full → Z → Spec.Full) (l1 : ∀ y z, get (set y z) = z) (l2 : ∀ y, set y (get y) = y)
    (l3 : ∀ y z z', set (set y z) z' = set y z') (A : Spec.Algo (Spec.Input ⊕ (U × Request N)) Spec.Full (Option (Attempt U N Z))) :
    prob (fun G : Spec.Input ⊕ (U × Request N) → Spec.Full => ∃ t, A.result G = some t ∧ compares get G t = true ∧ t.request ∉ A.asked G) ≤
      1 / (Nat.card Z : ℚ) := by
  have p1 : (0 : ℚ) < (Nat.card Z : ℚ) := by exact_mod_cast Nat.card_pos
  rcases isEmpty_or_nonempty (Attempt U N Z) with he | ⟨⟨d⟩⟩
  · have : IsEmpty { G : Spec.Input ⊕ (U × Request N) → Spec.Full // ∃ t, A.result G = some t ∧ compares get G t = true ∧
        t.request ∉ A.asked G } := ⟨fun ⟨_, t, _⟩ => he.elim t⟩
    rw [prob, Nat.card_eq_zero.2 (Or.inl this), Nat.cast_zero, zero_div]
    positivity
  · have hc := count_guess get set l1 l2 l3 (A >>= fun a => .done ((a.getD d).request, (a.getD d).2))
    simp only [Gen.result_bind, Gen.asked_bind, Spec.Algo.result, Spec.Algo.asked, List.append_nil] at hc
    have hle : Nat.card { G : Spec.Input ⊕ (U × Request N) → Spec.Full // ((A.result G).getD d).request ∉ A.asked G } ≤
        Nat.card (Spec.Input ⊕ (U × Request N) → Spec.Full) := Nat.card_le_card_of_injective _ Subtype.val_injective
    rw [← hc] at hle
    refine le_trans (prob_mono _ (fun G => ((A.result G).getD d).request ∉ A.asked G ∧
      get (G ((A.result G).getD d).request) = ((A.result G).getD d).2) ?_) ?_
    · rintro G ⟨t, h1, h2, h3⟩
      rw [h1]
      exact ⟨h3, (compares_iff get G t).1 h2⟩
    · have p2 : (0 : ℚ) < (Nat.card (Spec.Input ⊕ (U × Request N) → Spec.Full) : ℚ) := by exact_mod_cast Nat.card_pos
      rw [prob, div_le_div_iff₀ p2 p1, one_mul]
      exact_mod_cast hle

theorem attempts_le (hN : N < 2 ^ 64) (get : Spec.Full → Z) (set : Spec.Full → Z → Spec.Full) (l1 : ∀ y z, get (set y z) = z)
    (l2 : ∀ y, set y (get y) = y) (l3 : ∀ y z z', set (set y z) z' = set y z') (S : Session U N Z) (q s v : Nat) (hS : S.Within q s v) :
    prob (fun w : Comp × (U → Vector Byte 32) => S.forged (holders w.1 w.2) (compares get (holders w.1 w.2)) []) ≤
      v / (Nat.card Z : ℚ) + ((2 * q * s + s * (s - 1) : Nat) : ℚ) / 2 ^ 257 := by
  have h := users_le hN (S.simple get []) id q s (fun G => (simple_eq get G S []).2.1 ▸ hS.direct _ _)
    (fun G => (simple_eq get G S []).2.2 ▸ hS.held _ _)
  simp only [id, fun G => (simple_eq get G S []).1] at h
  refine le_trans h (add_le_add_left ?_ _)
  refine le_trans (prob_mono _ (fun G => ∃ i, i < v ∧ ∃ t, (S.trial get i []).result G = some t ∧ compares get G t = true ∧
    t.request ∉ (S.trial get i []).asked G) ?_) ?_
  · intro G hG
    obtain ⟨i, t, h1, h2, h3, _, h5⟩ := trial_of_forged get G S [] hG
    exact ⟨i, Nat.lt_of_lt_of_le h1 (hS.attempts _ _), t, h2, h3, h5⟩
  · exact le_trans (prob_exists _ (1 / (Nat.card Z : ℚ)) (fun i => trial_le get set l1 l2 l3 _) v) (le_of_eq (mul_one_div _ _))

omit [Finite U] [Finite Z] [Nonempty Z] [DecidableEq Z]

theorem verifies_eq (F : Comp) (k : U → Vector Byte 32) :
    verifies (N := N) F k = compares (fun y => Spec.cvBytes y.1) (holders F k) := by
  funext t
  rw [Bool.eq_iff_iff, compares_iff, verifies, eq_iff, (C82_answer F _ _ 0).2]
  exact Iff.rfl

/-- C93.  Attackers request outputs of the holders of random keys and have hashes checked, in any order.  They ask for `q` compressions
and make `v` attempts, and the holders perform `s` compressions.  The probability that some attempt succeeds although its hash was not
requested before is hardly more than `v` / 2^256: to learn which attempts failed does not help. -/
theorem C93_attempts [Finite U] (hN : N < 2 ^ 64) (S : Session U N (Vector Byte 32)) (q s v : Nat) (hS : S.Within q s v) :
    prob (fun w : Comp × (U → Vector Byte 32) => S.forged (holders w.1 w.2) (verifies w.1 w.2) []) ≤
      v / 2 ^ 256 + ((2 * q * s + s * (s - 1) : Nat) : ℚ) / 2 ^ 257 := by
  have hr : ∀ z : Vector Byte 32, Spec.cvBytes (words_from_key_bytes z) = z := fun z => by
    rw [← bytes_from_state_words_eq, C34_key_roundtrip]
  have hr' : ∀ w : Vector Word 8, words_from_key_bytes (Spec.cvBytes w) = w := fun w => by
    rw [← bytes_from_state_words_eq, C34_words_roundtrip]
  have h := attempts_le hN (fun y : Spec.Full => Spec.cvBytes y.1) (fun y z => (words_from_key_bytes z, y.2)) (fun y z => hr z)
    (fun y => Prod.ext (hr' y.1) rfl) (fun _ _ _ => rfl) S q s v hS
  simp only [← verifies_eq] at h
  rw [card_key] at h
  push_cast at h ⊢
  exact h

/-! ## shorter and longer parts of the output -/

instance (n : Nat) : Finite (Vector Byte n) :=
  Finite.of_injective (β := Fin n → Byte) (fun v i => v[i.val]) fun a b h => Vector.ext fun i hi => congrFun h ⟨i, hi⟩

theorem card_bytes (n : Nat) : Nat.card (Vector Byte n) = 2 ^ (8 * n) := by
  have e : Vector Byte n ≃ (Fin n → Byte) := ⟨fun v i => v[i.val], fun f => Vector.ofFn f, fun v => by ext i hi; simp, fun f => by ext i; simp⟩
  have e' : Byte ≃ Fin (2 ^ 8) := ⟨BitVec.toFin, BitVec.ofFin, fun _ => rfl, fun _ => rfl⟩
  rw [Nat.card_congr e, Nat.card_fun, Nat.card_congr e', Nat.card_eq_fintype_card, Nat.card_eq_fintype_card, Fintype.card_fin, Fintype.card_fin,
    ← Nat.pow_mul]

/-- the 64 bytes of an answer -/
def fullBytes (y : Spec.Full) : Vector Byte 64 := Spec.cvBytes y.1 ++ Spec.cvBytes y.2

/-- and back -/
def ofBytes (b : Vector Byte 64) : Spec.Full :=
  (words_from_key_bytes (Vector.ofFn fun i : Fin 32 => b[i.val]), words_from_key_bytes (Vector.ofFn fun i : Fin 32 => b[32 + i.val]))

theorem fullBytes_ofBytes (b : Vector Byte 64) : fullBytes (ofBytes b) = b := by
  have hr : ∀ z : Vector Byte 32, Spec.cvBytes (words_from_key_bytes z) = z := fun z => by
    rw [← bytes_from_state_words_eq, C34_key_roundtrip]
  rw [fullBytes, ofBytes, hr, hr]
  refine Vector.ext fun i hi => ?_
  rw [Vector.getElem_append]
  split
  · rw [Vector.getElem_ofFn]
  · rw [Vector.getElem_ofFn]
    congr 1
    show 32 + (i - 32) = i
    omega

theorem ofBytes_fullBytes (y : Spec.Full) : ofBytes (fullBytes y) = y := by
  have hr' : ∀ w : Vector Word 8, words_from_key_bytes (Spec.cvBytes w) = w := fun w => by
    rw [← bytes_from_state_words_eq, C34_words_roundtrip]
  rw [ofBytes, fullBytes]
  refine Prod.ext ?_ ?_
  · refine Eq.trans (congrArg words_from_key_bytes ?_) (hr' y.1)
    refine Vector.ext fun i hi => ?_
    rw [Vector.getElem_ofFn, Vector.getElem_append_left]
  · refine Eq.trans (congrArg words_from_key_bytes ?_) (hr' y.2)
    refine Vector.ext fun i hi => ?_
    rw [Vector.getElem_ofFn, Vector.getElem_append_right (by omega) (by omega)]
    congr 1
    show 32 + i - 32 = i
    omega

/-- the first bytes of an answer -/
def firstBytes (n : Nat) (hn : n ≤ 64) (y : Spec.Full) : Vector Byte n := Vector.ofFn fun i => (fullBytes y)[i.val]

theorem verifiesBytes_eq (n : Nat) (hn : n ≤ 64) (F : Comp) (k : U → Vector Byte 32) :
    verifiesBytes (N := N) n F k = compares (firstBytes n hn) (holders F k) := by
  funext t
  rw [Bool.eq_iff_iff, compares_iff, verifiesBytes, beq_iff_eq, (C82_answer F _ _ 0).1, ← Vector.toList_inj]
  have : (Spec.cvBytes (wordsWith F (t.mode k) t.input 0).1 ++ Spec.cvBytes (wordsWith F (t.mode k) t.input 0).2).toList.take n =
      (firstBytes n hn (holders F k t.request)).toList := by
    apply List.ext_getElem
    · rw [List.length_take, Vector.length_toList, Vector.length_toList]
      omega
    · intro i h1 h2
      have hi : i < n := by rwa [Vector.length_toList] at h2
      have hf : ∀ y, (firstBytes n hn y)[i] = (fullBytes y)[i] := fun y => Vector.getElem_ofFn hi
      rw [List.getElem_take, Vector.getElem_toList, Vector.getElem_toList, hf]
      rfl
  rw [this]

/-- C93.  The same if the first `n` bytes of the output are checked, for any `n` up to 64: a shorter part is easier to guess, and that is
all. -/
theorem C93_attempts_bytes [Finite U] (hN : N < 2 ^ 64) (n : Nat) (hn : n ≤ 64) (S : Session U N (Vector Byte n)) (q s v : Nat)
    (hS : S.Within q s v) :
    prob (fun w : Comp × (U → Vector Byte 32) => S.forged (holders w.1 w.2) (verifiesBytes n w.1 w.2) []) ≤
      v / 2 ^ (8 * n) + ((2 * q * s + s * (s - 1) : Nat) : ℚ) / 2 ^ 257 := by
  have : Nonempty (Vector Byte n) := ⟨Vector.replicate n 0⟩
  have h := attempts_le hN (firstBytes n hn)
    (fun y z => ofBytes (Vector.ofFn fun i : Fin 64 => if h : i.val < n then z[i.val] else (fullBytes y)[i.val]))
    (fun y z => by
      refine Vector.ext fun i hi => ?_
      rw [firstBytes, Vector.getElem_ofFn, fullBytes_ofBytes, Vector.getElem_ofFn, dif_pos hi])
    (fun y => by
      refine Eq.trans (congrArg ofBytes ?_) (ofBytes_fullBytes y)
      refine Vector.ext fun i hi => ?_
      rw [Vector.getElem_ofFn]
      dsimp only
      split
      · rw [firstBytes, Vector.getElem_ofFn]
      · rfl)
    (fun y z z' => by
      refine congrArg ofBytes ?_
      refine Vector.ext fun i hi => ?_
      rw [Vector.getElem_ofFn, Vector.getElem_ofFn]
      dsimp only
      split
      · rfl
      · rw [fullBytes_ofBytes, Vector.getElem_ofFn, dif_neg (by assumption)]) S q s v hS
  simp only [← verifiesBytes_eq] at h
  rw [card_bytes] at h
  push_cast at h ⊢
  exact h

end

/-- C93.  With the compression function itself, a check says whether what the library returns for this key and input, whichever
way it is called, is what was sent. -/
theorem C93_library {U : Type} {N : Nat} (k : U → Vector Byte 32) (u : U) (w : How) (hw : w.Ok) (hl : w.bytes.length ≤ N) (g : Vector Byte 32) :
    (verifies (N := N) realComp k ((u, false, ⟨w.bytes, hl⟩), g) = true ↔ (w.digest (.keyedHash (k u))).res = .ok g.toList) ∧
    (verifies (N := N) realComp k ((u, true, ⟨w.bytes, hl⟩), g) = true ↔ (w.digest (.deriveKey (k u))).res = .ok g.toList) := by
  constructor
  · rw [(C81_code _ w hw).1, verifies, eq_iff]
    exact ⟨fun h => congrArg (fun v : Vector Byte 32 => Except.ok v.toList) h, fun h => Vector.toList_inj.1 (Except.ok.inj h)⟩
  · rw [(C81_code _ w hw).1, verifies, eq_iff]
    exact ⟨fun h => congrArg (fun v : Vector Byte 32 => Except.ok v.toList) h, fun h => Vector.toList_inj.1 (Except.ok.inj h)⟩

/-- C93.  Likewise the check of `n` bytes accepts exactly the first `n` bytes of the specified output, which reads of the library return
(C02, C06). -/
theorem C93_library_bytes {U : Type} {N : Nat} (k : U → Vector Byte 32) (n : Nat) (hn : n ≤ 64) (t : Attempt U N (Vector Byte n)) :
    verifiesBytes n realComp k t = true ↔ Spec.output (t.mode k) t.input n = t.2.toList := by
  rw [verifiesBytes, beq_iff_eq, C81_stream, ← slice_block _ _ 0 n hn, slice, Spec.output]
  simp only [Nat.mul_zero, Nat.zero_add]

/-! ## examples -/

/-- the tags of 16 bytes that many protocols use: with 2^40 attempts and 2^64 compressions on both sides, below 1 / 2^87 -/
example {U : Type} [Finite U] {N : Nat} (hN : N < 2 ^ 64) (S : Session U N (Vector Byte 16)) (hS : S.Within (2 ^ 64) (2 ^ 64) (2 ^ 40)) :
    prob (fun w : Comp × (U → Vector Byte 32) => S.forged (holders w.1 w.2) (verifiesBytes 16 w.1 w.2) []) ≤ 1 / 2 ^ 87 := by
  refine le_trans (C93_attempts_bytes hN 16 (by decide) S _ _ _ hS) ?_
  norm_num

/-- An attacker who tries one value after the other for the hash of one byte, until one is accepted. -/
def exGuess : List (Vector Byte 32) → Session Unit 5000 (Vector Byte 32)
  | [] => .done
  | g :: l => .check (((), false, ⟨[1], by decide⟩), g) fun b => if b then .done else exGuess l

theorem exGuess_bounds (l : List (Vector Byte 32)) (G : Spec.Input ⊕ (Unit × Request 5000) → Spec.Full) (V : Attempt Unit 5000 (Vector Byte 32) → Bool) :
    (exGuess l).asks G V = [] ∧ (((exGuess l).checks G V).map Attempt.cost).sum ≤ l.length ∧ ((exGuess l).checks G V).length ≤ l.length := by
  induction l with
  | nil => exact ⟨rfl, Nat.le_refl _, Nat.le_refl _⟩
  | cons g l ih =>
    simp only [exGuess, Session.asks, Session.checks, List.map_cons, List.sum_cons, List.length_cons]
    have hc : Attempt.cost ((((), false, ⟨[1], by decide⟩), g) : Attempt Unit 5000 (Vector Byte 32)) = 1 := by
      show Spec.compressions 1 = 1
      decide
    rw [hc]
    split
    · exact ⟨rfl, by simp only [Session.checks, List.map_nil, List.sum_nil]; omega, by simp only [Session.checks, List.length_nil]; omega⟩
    · exact ⟨ih.1, by omega, by omega⟩

/-- such an attacker succeeds if the hash is among what is tried -/
theorem exGuess_forged (F : Comp) (k : Unit → Vector Byte 32) (l : List (Vector Byte 32)) :
    (exGuess l).forged (holders F k) (verifies F k) [] ↔ hashWith F (.keyedHash (k ())) [1] ∈ l := by
  induction l with
  | nil => exact ⟨fun h => h.elim, fun h => absurd h List.not_mem_nil⟩
  | cons g l ih =>
    have hv : verifies F k ((((), false, ⟨[1], by decide⟩), g) : Attempt Unit 5000 (Vector Byte 32)) = true ↔ hashWith F (.keyedHash (k ())) [1] = g := by
      rw [verifies, eq_iff]
      exact Iff.rfl
    simp only [exGuess, Session.forged, List.mem_cons]
    by_cases h : hashWith F (.keyedHash (k ())) [1] = g
    · exact ⟨fun _ => .inl h, fun _ => .inl ⟨hv.2 h, List.not_mem_nil⟩⟩
    · have hf : ¬ verifies F k ((((), false, ⟨[1], by decide⟩), g) : Attempt Unit 5000 (Vector Byte 32)) = true := fun e => h (hv.1 e)
      rw [if_neg hf, ih]
      exact ⟨fun e => e.elim (fun e => absurd e.1 hf) .inr, fun e => e.elim (fun e => absurd e h) .inr⟩

/-- The attacker is in the scope of `C93_attempts`: a million attempts. -/
example (l : List (Vector Byte 32)) (hl : l.length = 10 ^ 6) :
    prob (fun w : Comp × (Unit → Vector Byte 32) => hashWith w.1 (.keyedHash (w.2 ())) [1] ∈ l) ≤ 1 / 2 ^ 216 := by
  have h := C93_attempts (by decide) (exGuess l) 0 (10 ^ 6) (10 ^ 6) ⟨fun G V => by rw [(exGuess_bounds l G V).1]; exact Nat.le_refl 0,
    fun G V => by
      rw [(exGuess_bounds l G V).1, ← hl]
      exact (Nat.zero_add _).trans_le (exGuess_bounds l G V).2.1,
    fun G V => hl ▸ (exGuess_bounds l G V).2.2⟩
  simp only [exGuess_forged] at h
  refine le_trans h ?_
  norm_num

/-- A hash that was requested before is accepted, and that is not a forgery; a forgery afterwards is. -/
example (F : Comp) (k : Fin 2 → Vector Byte 32) (g : Vector Byte 32) :
    let t : Fin 2 × Bool × { x : Bytes // x.length ≤ 9 } := (0, true, ⟨[1, 2], by decide⟩)
    let u : Fin 2 × Bool × { x : Bytes // x.length ≤ 9 } := (1, true, ⟨[1, 2], by decide⟩)
    let S : Session (Fin 2) 9 (Vector Byte 32) := .ask (.inr (t.1, hashRequest t.2)) fun y => .check (t, Spec.cvBytes y.1) fun b =>
      if b then .check (u, g) fun _ => .done else .done
    (S.forged (holders F k) (verifies F k) [] ↔ g = hashWith F (.deriveKey (k 1)) [1, 2]) := by
  intro t u S
  have h1 : verifies F k ((t, Spec.cvBytes (holders F k (.inr (t.1, hashRequest t.2))).1) : Attempt (Fin 2) 9 (Vector Byte 32)) = true := by
    rw [verifies_eq, compares_iff]
    rfl
  have h2 : verifies F k ((u, g) : Attempt (Fin 2) 9 (Vector Byte 32)) = true ↔ hashWith F (.deriveKey (k 1)) [1, 2] = g := by
    rw [verifies, eq_iff]
    exact Iff.rfl
  have h3 : Attempt.request ((t, Spec.cvBytes (holders F k (.inr (t.1, hashRequest t.2))).1) : Attempt (Fin 2) 9 (Vector Byte 32)) = .inr (t.1, hashRequest t.2) := rfl
  have h4 : Attempt.request ((u, g) : Attempt (Fin 2) 9 (Vector Byte 32)) ≠ .inr (t.1, hashRequest t.2) := by
    intro e
    exact absurd (congrArg Prod.fst (Sum.inr.inj e)) (by decide : (1 : Fin 2) ≠ 0)
  simp only [S, Session.forged, h1, h3, if_true, h2, List.mem_singleton, not_true_eq_false, and_false, false_or, or_false]
  exact ⟨fun h => h.1.symm, fun h => ⟨h.symm, h4⟩⟩

end Baokeshed.Props
