import Verif.Proofs.KeyedCount
import Verif.Props.Ideal
import Verif.SpecCost
import Mathlib.Data.Set.Finite.List
import Mathlib.Algebra.Order.Field.Rat
import Mathlib.Tactic.FieldSimp
import Mathlib.Tactic.Linarith
import Mathlib.Tactic.Positivity

/-!
# C82: the keyed modes with a secret key

A holder of a random key answers requests for blocks of keyed output, in both keyed modes.  The attacker asks the holder, and asks
for compressions, in any order.  The compression function is a black box as in C81.
-/

set_option linter.unusedVariables false
set_option exponentiation.threshold 600

namespace Baokeshed.Props
open Baokeshed.Model Baokeshed.Proofs

attribute [local irreducible] Spec.compress Spec.outBytes Spec.cvBytes Spec.pad

/-- A request: `derive_key` (`true`) or `keyed_hash` (`false`), an input of at most `N` bytes, and the number of a 64-byte block of
the output.  The output has 2^58 blocks. -/
abbrev Request (N : Nat) := Bool × { p : Bytes × Nat // p.1.length ≤ N ∧ p.2 < 2 ^ 58 }

namespace Request
variable {N : Nat}

def mode (r : Request N) (k : Vector Byte 32) : Spec.Mode := if r.1 then .deriveKey k else .keyedHash k

def input (r : Request N) : Bytes := r.2.1.1

def block (r : Request N) : Nat := r.2.1.2

end Request

/-- block `k` of the output, as words -/
def wordsWith (F : Comp) (m : Spec.Mode) (x : Bytes) (k : Nat) : Spec.Full :=
  (Spec.rootAsk m x >>= fun n => Spec.Algo.ask { n with offset := BitVec.ofNat 64 (64 * k) } Spec.Algo.done).result F

/-- C82.  The words of an answer are those of the output block, and the first half of block 0 is the hash. -/
theorem C82_answer (F : Comp) (m : Spec.Mode) (x : Bytes) (k : Nat) :
    blockWith F m x k = Spec.cvBytes (wordsWith F m x k).1 ++ Spec.cvBytes (wordsWith F m x k).2 ∧
    hashWith F m x = Spec.cvBytes (wordsWith F m x 0).1 := by
  have h : ∀ k, wordsWith F m x k = F (Gen.rootAt (Gen.low F) m x k) := by
    intro k
    rw [wordsWith, Gen.result_bind, (Gen.root_asks F m x).1]
    rfl
  rw [h, h, blockWith, hashWith, (Gen.block_asks F m x k).1, (Gen.hash_asks F m x).1, Gen.root_at_zero]
  exact ⟨rfl, rfl⟩

/-- the compression function, and the holder of the key `k` -/
def holder {N : Nat} (F : Comp) (k : Vector Byte 32) : Spec.Input ⊕ Request N → Spec.Full :=
  Sum.elim F fun r => wordsWith F (r.mode k) r.input r.block

/-- the part of all cases in which `p` holds -/
noncomputable def prob {Ω : Type} (p : Ω → Prop) : ℚ := (Nat.card { w // p w } : ℚ) / (Nat.card Ω : ℚ)

/-- the number of questions for compressions -/
def direct {N : Nat} (l : List (Spec.Input ⊕ Request N)) : Nat := (l.filterMap Sum.getLeft?).length

/-- the number of compressions that the holder performs for the requests -/
def held {N : Nat} (l : List (Spec.Input ⊕ Request N)) : Nat :=
  ((l.filterMap Sum.getRight?).map fun r => Spec.compressions r.input.length).sum

/-! ## counting -/

instance : Finite (Vector Byte 32) :=
  Finite.of_injective (β := Fin 32 → Byte) (fun v i => v[i.val]) fun a b h => Vector.ext fun i hi => congrFun h ⟨i, hi⟩

instance (N : Nat) : Finite { l : Bytes // l.length ≤ N } := (List.finite_length_le Byte N).to_subtype

instance (N : Nat) : Finite { p : Bytes × Nat // p.1.length ≤ N ∧ p.2 < 2 ^ 58 } :=
  Finite.of_injective (β := { l : Bytes // l.length ≤ N } × Fin (2 ^ 58)) (fun p => (⟨p.1.1, p.2.1⟩, ⟨p.1.2, p.2.2⟩)) fun a b h => by
    simp only [Prod.mk.injEq, Subtype.mk.injEq, Fin.mk.injEq] at h
    exact Subtype.ext (Prod.ext h.1 h.2)

instance (N : Nat) : Finite (Gen.Inner N) :=
  Finite.of_injective (β := (Fin (2 ^ 64) × { l : Bytes // l.length ≤ 2048 }) ⊕ (Fin (2 ^ 64) × { l : Bytes // l.length ≤ N }))
    (fun b => match b with
      | ⟨.block off pre, h⟩ => .inl (⟨off, h.1⟩, ⟨pre, h.2.1⟩)
      | ⟨.sub off x, h⟩ => .inr (⟨off, by have := h.1; omega⟩, ⟨x, h.2⟩)) fun a b h => by
    obtain ⟨a, ha⟩ := a
    obtain ⟨b, hb⟩ := b
    cases a <;> cases b <;> simp only [Sum.inl.injEq, Sum.inr.injEq, Prod.mk.injEq, Subtype.mk.injEq, Fin.mk.injEq, reduceCtorEq] at h
    · obtain ⟨rfl, rfl⟩ := h; rfl
    · obtain ⟨rfl, rfl⟩ := h; rfl

theorem holder_key_inj {k k' : Vector Byte 32} (h : Gen.keyWords k = Gen.keyWords k') : k = k' := by
  have e : ∀ k, Gen.keyWords k = words_from_key_bytes k := fun k => (key_words_eq k).symm
  rw [e, e] at h
  rw [← C34_key_roundtrip k, h, C34_key_roundtrip]

theorem card_key : Nat.card (Vector Byte 32) = 2 ^ 256 := by
  rw [← card_words]
  refine Nat.card_congr ⟨words_from_key_bytes, bytes_from_state_words, fun k => C34_key_roundtrip k, fun w => C34_words_roundtrip w⟩

/-- answers of which one has a first half that the others determine -/
theorem card_answer {I K : Type} [DecidableEq I] [Finite I] [Finite K] (c : I) (g : (I → Spec.Full) × K → Vector Word 8)
    (hg : ∀ S k y, g (Function.update S c y, k) = g (S, k)) (p : (I → Spec.Full) × K → Prop)
    (hp : ∀ w, p w → (w.1 c).1 = g w) :
    Nat.card { w // p w } * 2 ^ 256 ≤ Nat.card ((I → Spec.Full) × K) := by
  rw [← card_words, ← Nat.card_prod]
  refine Nat.card_le_card_of_injective
    (fun w : { w // p w } × Vector Word 8 => (Function.update w.1.1.1 c (w.2, (w.1.1.1 c).2), w.1.1.2)) ?_
  rintro ⟨⟨⟨S, k⟩, h⟩, v⟩ ⟨⟨⟨S', k'⟩, h'⟩, v'⟩ e
  simp only [Prod.mk.injEq] at e
  obtain ⟨e, rfl⟩ := e
  have ec := congrFun e c
  simp only [Function.update_self, Prod.mk.injEq] at ec
  have eg : g (S, k) = g (S', k) := by rw [← hg S k (v, (S c).2), e, hg]
  have hS : S = S' := by
    funext i
    by_cases hi : i = c
    · subst hi
      exact Prod.ext ((hp _ h).trans (eg.trans (hp _ h').symm)) ec.2
    · have := congrFun e i
      rwa [Function.update_of_ne hi, Function.update_of_ne hi] at this
  subst hS
  rw [ec.1]

/-- an input that is hit -/
theorem card_hit {N : Nat} (hN : N < 2 ^ 64) (x : Spec.Input) (b : (Bool × Gen.Inner N) ⊕ Request N) :
    Nat.card { p : (Bool × Gen.Inner N → Spec.Full) × Vector Byte 32 // Gen.inp p.2 p.1 b = x } * 2 ^ 256 ≤
      Nat.card ((Bool × Gen.Inner N → Spec.Full) × Vector Byte 32) := by
  classical
  rcases Gen.inp_cv hN b with ⟨c, h⟩ | h
  · exact card_answer c (fun _ => x.cv) (fun _ _ _ => rfl) _ fun w hw => by rw [← h w.2 w.1, hw]
  · rw [← card_key, ← Nat.card_prod]
    refine Nat.card_le_card_of_injective
      (fun w : { p : (Bool × Gen.Inner N → Spec.Full) × Vector Byte 32 // Gen.inp p.2 p.1 b = x } × Vector Byte 32 => (w.1.1.1, w.2)) ?_
    rintro ⟨⟨⟨S, k⟩, hw⟩, v⟩ ⟨⟨⟨S', k'⟩, hw'⟩, v'⟩ e
    simp only [Prod.mk.injEq] at e
    obtain ⟨rfl, rfl⟩ := e
    have : k = k' := holder_key_inj (by
      rw [← h k S, ← h k' S]
      exact congrArg Spec.Input.cv (hw.trans hw'.symm))
    subst this
    rfl

/-- two that are equal -/
theorem card_coll {N : Nat} (hN : N < 2 ^ 64) (b c : (Bool × Gen.Inner N) ⊕ Request N) (hne : b ≠ c) :
    Nat.card { p : (Bool × Gen.Inner N → Spec.Full) × Vector Byte 32 // Gen.inp p.2 p.1 b = Gen.inp p.2 p.1 c } * 2 ^ 256 ≤
      Nat.card ((Bool × Gen.Inner N → Spec.Full) × Vector Byte 32) := by
  classical
  rcases Gen.inp_pair hN b c hne with h | ⟨e, e', he, h⟩
  · have : IsEmpty { p : (Bool × Gen.Inner N → Spec.Full) × Vector Byte 32 // Gen.inp p.2 p.1 b = Gen.inp p.2 p.1 c } :=
      ⟨fun p => h p.1.2 p.1.1 p.2⟩
    rw [Nat.card_eq_zero.2 (Or.inl this), Nat.zero_mul]
    exact Nat.zero_le _
  · exact card_answer e (fun w => (w.1 e').1) (fun S k y => by
      dsimp only
      rw [Function.update_of_ne he.symm]) _ fun w hw => h w.2 w.1 hw

theorem labs_compressions {N : Nat} (r : Request N) : (Gen.labs r).card ≤ Spec.compressions r.input.length := by
  refine Nat.le_trans (Gen.labs_card r) ?_
  have h := C81_questions (fun _ => (Vector.replicate 8 0, Vector.replicate 8 0)) .hash r.input
  rw [(Gen.hash_asks _ _ _).2, List.length_append, G.inner, ← Gen.labsBelow_length] at h
  exact Nat.le_of_eq h

theorem labels_held {N : Nat} (l : List (Spec.Input ⊕ Request N)) : (Prf.labels Gen.labs l).card ≤ held l :=
  Prf.labels_card _ labs_compressions l

theorem holder_eq {N : Nat} (F : Comp) (k : Vector Byte 32) : holder (N := N) F k = Sum.elim F (Gen.tag F k) := by
  funext q
  rcases q with q | r
  · rfl
  · show wordsWith F _ _ _ = _
    rw [wordsWith, Gen.result_bind, (Gen.root_asks F _ _).1]
    rfl

theorem prob_le {N : Nat} (hN : N < 2 ^ 64) {α : Type} (A : Spec.Algo (Spec.Input ⊕ Request N) Spec.Full α) (P : α → Prop) (q s : Nat)
    (hq : ∀ G, direct (A.asked G) ≤ q) (hs : ∀ G, held (A.asked G) ≤ s) :
    prob (fun w : Comp × Vector Byte 32 => P (A.result (holder w.1 w.2))) ≤
      prob (fun G : Spec.Input ⊕ Request N → Spec.Full => P (A.result G)) + ((2 * q * s + s * (s - 1) : Nat) : ℚ) / 2 ^ 257 := by
  have h := Prf.prf (Gen.H1 hN) (Gen.H2 hN) (2 ^ 256) q s (card_hit hN) (card_coll hN) A P hq
    (fun G => Nat.le_trans (labels_held _) (hs G))
  simp only [← holder_eq] at h
  have hG : Nat.card (Spec.Input ⊕ Request N → Spec.Full) = Nat.card Comp * Nat.card (Request N → Spec.Full) := by
    rw [← Nat.card_prod]
    exact Nat.card_congr (Equiv.sumArrowEquivProdArrow _ _ _)
  rw [prob, prob, Nat.card_prod, hG]
  rw [hG] at h
  have p1 : 0 < Nat.card Comp := Nat.card_pos
  have p2 : 0 < Nat.card (Request N → Spec.Full) := Nat.card_pos
  have p3 : 0 < Nat.card (Vector Byte 32) := Nat.card_pos
  generalize 2 * q * s + s * (s - 1) = e at *
  generalize Nat.card { w : Comp × Vector Byte 32 // P (A.result (holder w.1 w.2)) } = a at *
  generalize Nat.card { G : Spec.Input ⊕ Request N → Spec.Full // P (A.result G) } = b at *
  generalize Nat.card Comp = C at *
  generalize Nat.card (Request N → Spec.Full) = M at *
  generalize Nat.card (Vector Byte 32) = K at *
  have h : (2 * (a * M * 2 ^ 256) : ℚ) ≤ 2 * (b * K * 2 ^ 256) + e * (C * M * K) := by exact_mod_cast h
  have p1 : (0 : ℚ) < C := by exact_mod_cast p1
  have p2 : (0 : ℚ) < M := by exact_mod_cast p2
  have p3 : (0 : ℚ) < K := by exact_mod_cast p3
  push_cast
  rw [div_add_div _ _ (by positivity) (by positivity), div_le_div_iff₀ (by positivity) (by positivity)]
  have := mul_le_mul_of_nonneg_right h (le_of_lt p1)
  rw [show (2 : ℚ) ^ 257 = 2 * 2 ^ 256 from pow_succ' 2 256]
  generalize (2 : ℚ) ^ 256 = z at *
  linarith

theorem prob_not {Ω : Type} [Finite Ω] [Nonempty Ω] (p : Ω → Prop) : prob (fun w => ¬ p w) = 1 - prob p := by
  classical
  have := Fintype.ofFinite Ω
  have h := Fintype.card_subtype_compl p
  have hle := Fintype.card_subtype_le p
  have hpos : (0 : ℚ) < (Nat.card Ω : ℚ) := by exact_mod_cast Nat.card_pos
  rw [prob, prob, eq_sub_iff_add_eq, ← add_div, div_eq_one_iff_eq (ne_of_gt hpos)]
  rw [Nat.card_eq_fintype_card, Nat.card_eq_fintype_card, Nat.card_eq_fintype_card, h]
  exact_mod_cast Nat.sub_add_cancel hle

/-- C82.  To an attacker, the holder of a random key is like somebody who answers every request with 64 random bytes.  In the first
probability the compression function and the key are random, in the second the answers to all questions are.  `P` is whatever the
attacker may find out.  The attacker asks for `q` compressions, and the holder performs `s`. -/
theorem C82_prf {N : Nat} (hN : N < 2 ^ 64) {α : Type} (A : Spec.Algo (Spec.Input ⊕ Request N) Spec.Full α) (P : α → Prop) (q s : Nat)
    (hq : ∀ G, direct (A.asked G) ≤ q) (hs : ∀ G, held (A.asked G) ≤ s) :
    |prob (fun w : Comp × Vector Byte 32 => P (A.result (holder w.1 w.2))) -
      prob (fun G : Spec.Input ⊕ Request N → Spec.Full => P (A.result G))| ≤ ((2 * q * s + s * (s - 1) : Nat) : ℚ) / 2 ^ 257 := by
  have h1 := prob_le hN A P q s hq hs
  have h2 := prob_le hN A (fun a => ¬ P a) q s hq hs
  rw [prob_not, prob_not (fun G : Spec.Input ⊕ Request N → Spec.Full => P (A.result G))] at h2
  generalize ((2 * q * s + s * (s - 1) : Nat) : ℚ) / 2 ^ 257 = e at *
  rw [abs_le]
  constructor <;> linarith

/-! ## forgeries -/

/-- also give the questions -/
def logged {X Y α : Type} : Spec.Algo X Y α → Spec.Algo X Y (α × List X)
  | .done a => .done (a, [])
  | .ask x next => .ask x fun y => logged (next y) >>= fun p => .done (p.1, x :: p.2)

theorem logged_eq {X Y α : Type} (F : X → Y) (A : Spec.Algo X Y α) :
    (logged A).result F = (A.result F, A.asked F) ∧ (logged A).asked F = A.asked F := by
  induction A with
  | done a => exact ⟨rfl, rfl⟩
  | ask x next ih =>
    obtain ⟨h1, h2⟩ := ih (F x)
    simp only [logged, Spec.Algo.result, Spec.Algo.asked]
    rw [Gen.result_bind, Gen.asked_bind, h1, h2]
    exact ⟨rfl, by rw [Spec.Algo.asked, List.append_nil]⟩

theorem forge {N : Nat} (hN : N < 2 ^ 64) {α Z : Type} [Finite Z] [Nonempty Z] (get : Spec.Full → Z) (set : Spec.Full → Z → Spec.Full)
    (h1 : ∀ y z, get (set y z) = z) (h2 : ∀ y, set y (get y) = y) (h3 : ∀ y z z', set (set y z) z' = set y z')
    (A : Spec.Algo (Spec.Input ⊕ Request N) Spec.Full α) (r : α → Request N) (v : α → Z) (q s : Nat)
    (hq : ∀ G, direct (A.asked G) ≤ q) (hs : ∀ G, held (A.asked G) + Spec.compressions (r (A.result G)).input.length ≤ s) :
    prob (fun w : Comp × Vector Byte 32 => .inr (r (A.result (holder w.1 w.2))) ∉ A.asked (holder w.1 w.2) ∧
      get (holder w.1 w.2 (.inr (r (A.result (holder w.1 w.2))))) = v (A.result (holder w.1 w.2))) ≤
    1 / (Nat.card Z : ℚ) + ((2 * q * s + s * (s - 1) : Nat) : ℚ) / 2 ^ 257 := by
  let B : Spec.Algo (Spec.Input ⊕ Request N) Spec.Full Prop := logged A >>= fun p =>
    .ask (.inr (r p.1)) fun y => .done (.inr (r p.1) ∉ p.2 ∧ get y = v p.1)
  have hB : ∀ G, B.result G = (.inr (r (A.result G)) ∉ A.asked G ∧ get (G (.inr (r (A.result G)))) = v (A.result G)) ∧
      B.asked G = A.asked G ++ [.inr (r (A.result G))] := by
    intro G
    obtain ⟨e1, e2⟩ := logged_eq G A
    simp only [B]
    rw [Gen.result_bind, Gen.asked_bind, e1, e2]
    exact ⟨rfl, rfl⟩
  have h := prob_le hN B id q s
    (fun G => by
      rw [(hB G).2, direct, List.filterMap_append]
      simp only [List.filterMap_cons, Sum.getLeft?, List.filterMap_nil, List.append_nil]
      exact hq G)
    (fun G => by
      rw [(hB G).2, held, List.filterMap_append]
      simp only [List.filterMap_cons, Sum.getRight?, List.filterMap_nil, List.map_append, List.sum_append, List.map_cons, List.map_nil,
        List.sum_cons, List.sum_nil, Nat.add_zero]
      exact hs G)
  simp only [id, fun G => (hB G).1] at h
  refine le_trans h (add_le_add_left ?_ _)
  have hc := count_guess get set h1 h2 h3 (A >>= fun a => .done ((.inr (r a) : Spec.Input ⊕ Request N), v a))
  simp only [Gen.result_bind, Gen.asked_bind, Spec.Algo.result, Spec.Algo.asked, List.append_nil] at hc
  have hle : Nat.card { G : Spec.Input ⊕ Request N → Spec.Full // .inr (r (A.result G)) ∉ A.asked G } ≤
      Nat.card (Spec.Input ⊕ Request N → Spec.Full) := Nat.card_le_card_of_injective _ Subtype.val_injective
  rw [← hc] at hle
  have p1 : (0 : ℚ) < (Nat.card Z : ℚ) := by exact_mod_cast Nat.card_pos
  have p2 : (0 : ℚ) < (Nat.card (Spec.Input ⊕ Request N → Spec.Full) : ℚ) := by exact_mod_cast Nat.card_pos
  rw [prob, div_le_div_iff₀ p2 p1, one_mul]
  exact_mod_cast hle

/-- the request for the hash, in either mode: block 0 -/
def hashRequest {N : Nat} (p : Bool × { x : Bytes // x.length ≤ N }) : Request N := (p.1, ⟨(p.2.1, 0), p.2.2, Nat.two_pow_pos 58⟩)

/-- C82.  An attacker names a mode, an input and 32 bytes.  The probability that they are the hash of this input with the secret
key, although the attacker has not requested its block 0, is hardly more than 1 / 2^256.  Other blocks of its output, and the hash of
the same input in the other mode, may be among the requests. -/
theorem C82_mac {N : Nat} (hN : N < 2 ^ 64)
    (A : Spec.Algo (Spec.Input ⊕ Request N) Spec.Full ((Bool × { x : Bytes // x.length ≤ N }) × Vector Byte 32)) (q s : Nat)
    (hq : ∀ G, direct (A.asked G) ≤ q)
    (hs : ∀ G, held (A.asked G) + Spec.compressions (A.result G).1.2.1.length ≤ s) :
    prob (fun w : Comp × Vector Byte 32 =>
      .inr (hashRequest (A.result (holder w.1 w.2)).1) ∉ A.asked (holder w.1 w.2) ∧
      hashWith w.1 ((hashRequest (A.result (holder w.1 w.2)).1).mode w.2) (A.result (holder w.1 w.2)).1.2.1 = (A.result (holder w.1 w.2)).2) ≤
    1 / 2 ^ 256 + ((2 * q * s + s * (s - 1) : Nat) : ℚ) / 2 ^ 257 := by
  have h := forge hN (fun y => y.1) (fun y z => (z, y.2)) (fun _ _ => rfl) (fun _ => rfl) (fun _ _ _ => rfl) A
    (fun a => hashRequest a.1) (fun a => words_from_key_bytes a.2) q s hq hs
  rw [card_words] at h
  have hv : ∀ w : Comp × Vector Byte 32,
      (holder w.1 w.2 (.inr (hashRequest (A.result (holder w.1 w.2)).1))).1 = words_from_key_bytes (A.result (holder w.1 w.2)).2 ↔
      hashWith w.1 ((hashRequest (A.result (holder w.1 w.2)).1).mode w.2) (A.result (holder w.1 w.2)).1.2.1 = (A.result (holder w.1 w.2)).2 := by
    intro w
    rw [(C82_answer w.1 _ _ 0).2]
    generalize (A.result (holder w.1 w.2)) = a
    show (wordsWith w.1 _ _ 0).1 = _ ↔ _
    constructor
    · intro e
      erw [e]
      rw [← bytes_from_state_words_eq, C34_key_roundtrip]
    · intro e
      rw [← e, ← bytes_from_state_words_eq, C34_words_roundtrip]
      rfl
  simp only [hv] at h
  push_cast at h ⊢
  exact h

/-- C82.  Likewise for all 64 bytes of any block of the output. -/
theorem C82_mac_block {N : Nat} (hN : N < 2 ^ 64) (A : Spec.Algo (Spec.Input ⊕ Request N) Spec.Full (Request N × Spec.Full)) (q s : Nat)
    (hq : ∀ G, direct (A.asked G) ≤ q)
    (hs : ∀ G, held (A.asked G) + Spec.compressions (A.result G).1.input.length ≤ s) :
    prob (fun w : Comp × Vector Byte 32 =>
      .inr (A.result (holder w.1 w.2)).1 ∉ A.asked (holder w.1 w.2) ∧
      wordsWith w.1 ((A.result (holder w.1 w.2)).1.mode w.2) (A.result (holder w.1 w.2)).1.input (A.result (holder w.1 w.2)).1.block =
        (A.result (holder w.1 w.2)).2) ≤
    1 / 2 ^ 512 + ((2 * q * s + s * (s - 1) : Nat) : ℚ) / 2 ^ 257 := by
  have h := forge hN (fun y => y) (fun y z => z) (fun _ _ => rfl) (fun _ => rfl) (fun _ _ _ => rfl) A
    (fun a => a.1) (fun a => a.2) q s hq hs
  rw [card_full, ← Nat.pow_add] at h
  push_cast at h ⊢
  exact h

/-- the question for block `j` of the output for the empty input -/
def emptyRoot (k : Vector Byte 32) (j : Nat) : Spec.Input :=
  { cv := (Spec.Mode.keyedHash k).key, block := Spec.pad [], blockLen := 0, offset := BitVec.ofNat 64 (64 * j),
    flags := Spec.keyedHashFlag ||| Spec.chunkStart ||| Spec.chunkEnd ||| Spec.rootFlag }

theorem words_empty (F : Comp) (k : Vector Byte 32) (j : Nat) : wordsWith F (.keyedHash k) [] j = F (emptyRoot k j) := by
  rw [wordsWith, Gen.result_bind, (Gen.root_asks F _ _).1, G.root, G.subtree, dif_pos (by decide), G.chunk, G.chunkFrom, dif_pos (by decide)]
  rfl

/-- the request for block `j` of the output for the empty input -/
def emptyRequest {N : Nat} (j : Fin (2 ^ 58)) : Request N := (false, ⟨([], j.val), Nat.zero_le _, j.isLt⟩)

theorem holder_empty {N : Nat} (F : Comp) (k : Vector Byte 32) (j : Fin (2 ^ 58)) :
    holder (N := N) F k (.inr (emptyRequest j)) = F (emptyRoot k j.val) := words_empty F k j.val

theorem emptyRequest_inj {N : Nat} {j j' : Fin (2 ^ 58)} (h : emptyRequest (N := N) j = emptyRequest j') : j = j' := by
  have := congrArg (fun r : Request N => r.2.1.2) h
  exact Fin.ext this

theorem held_length {N : Nat} (l : List (Spec.Input ⊕ Request N)) : (l.filterMap Sum.getRight?).length ≤ held l := by
  rw [held]
  generalize l.filterMap Sum.getRight? = t
  induction t with
  | nil => exact Nat.le_refl _
  | cons r t ih =>
    rw [List.map_cons, List.sum_cons, List.length_cons]
    have : 1 ≤ Spec.compressions r.input.length := by rw [Spec.compressions]; omega
    omega

theorem exists_fresh {N : Nat} (l : List (Spec.Input ⊕ Request N)) (h : held l < 2 ^ 58) :
    ∃ j : Fin (2 ^ 58), .inr (emptyRequest j) ∉ l := by
  classical
  have hc : ((l.filterMap Sum.getRight?).toFinset).card < (Finset.univ.image (emptyRequest (N := N))).card := by
    rw [Finset.card_image_of_injective _ (fun _ _ => emptyRequest_inj), Finset.card_univ, Fintype.card_fin]
    exact Nat.lt_of_le_of_lt (List.toFinset_card_le _) (Nat.lt_of_le_of_lt (held_length l) h)
  obtain ⟨r, h1, h2⟩ := Finset.exists_mem_notMem_of_card_lt_card hc
  obtain ⟨j, -, rfl⟩ := Finset.mem_image.1 h1
  refine ⟨j, fun hm => h2 ?_⟩
  rw [List.mem_toFinset, List.mem_filterMap]
  exact ⟨_, hm, rfl⟩

open Classical in
noncomputable def fresh {N : Nat} (l : List (Spec.Input ⊕ Request N)) : Fin (2 ^ 58) :=
  if h : ∃ j : Fin (2 ^ 58), .inr (emptyRequest j) ∉ l then h.choose else 0

/-- C82.  An attacker who names the key is right with a probability of little more than the number of compressions, those of the
attacker times those of the holder, in 2^256. -/
theorem C82_key {N : Nat} (hN : N < 2 ^ 64) (A : Spec.Algo (Spec.Input ⊕ Request N) Spec.Full (Vector Byte 32)) (q s : Nat)
    (hq : ∀ G, direct (A.asked G) ≤ q) (hs : ∀ G, held (A.asked G) ≤ s) (h58 : s < 2 ^ 58) :
    prob (fun w : Comp × Vector Byte 32 => A.result (holder w.1 w.2) = w.2) ≤
    1 / 2 ^ 512 + ((2 * (q + 1) * (s + 1) + (s + 1) * s : Nat) : ℚ) / 2 ^ 257 := by
  classical
  let B : Spec.Algo (Spec.Input ⊕ Request N) Spec.Full (Request N × Spec.Full) := logged A >>= fun p =>
    .ask (.inl (emptyRoot p.1 (fresh p.2).val)) fun y => .done (emptyRequest (fresh p.2), y)
  have hB : ∀ G, B.result G = (emptyRequest (fresh (A.asked G)), G (.inl (emptyRoot (A.result G) (fresh (A.asked G)).val))) ∧
      B.asked G = A.asked G ++ [.inl (emptyRoot (A.result G) (fresh (A.asked G)).val)] := by
    intro G
    obtain ⟨e1, e2⟩ := logged_eq G A
    simp only [B]
    rw [Gen.result_bind, Gen.asked_bind, e1, e2]
    exact ⟨rfl, rfl⟩
  have h := forge hN (fun y => y) (fun y z => z) (fun _ _ => rfl) (fun _ => rfl) (fun _ _ _ => rfl) B (fun a => a.1) (fun a => a.2) (q + 1) (s + 1)
    (fun G => by
      rw [(hB G).2, direct, List.filterMap_append, List.length_append]
      exact Nat.add_le_add_right (hq G) 1)
    (fun G => by
      rw [(hB G).2, (hB G).1, held, List.filterMap_append]
      simp only [List.filterMap_cons, Sum.getRight?, List.filterMap_nil, List.append_nil]
      exact Nat.add_le_add (hs G) (by show Spec.compressions 0 ≤ 1; decide))
  rw [card_full, ← Nat.pow_add] at h
  have hsub : prob (fun w : Comp × Vector Byte 32 => A.result (holder w.1 w.2) = w.2) ≤
      prob (fun w : Comp × Vector Byte 32 => .inr (B.result (holder w.1 w.2)).1 ∉ B.asked (holder w.1 w.2) ∧
        holder w.1 w.2 (.inr (B.result (holder w.1 w.2)).1) = (B.result (holder w.1 w.2)).2) := by
    rw [prob, prob]
    refine div_le_div_of_nonneg_right ?_ (Nat.cast_nonneg _)
    refine Nat.cast_le.2 (Nat.card_le_card_of_injective (fun w => ⟨w.1, ?_⟩) fun a b e => Subtype.ext (Subtype.mk.inj e))
    obtain ⟨⟨F, k⟩, hw⟩ := w
    dsimp only at hw ⊢
    rw [(hB _).1, (hB _).2]
    dsimp only
    have hex := exists_fresh (A.asked (holder F k)) (Nat.lt_of_le_of_lt (hs _) h58)
    refine ⟨?_, ?_⟩
    · rw [List.mem_append, List.mem_singleton]
      rintro (hm | hm)
      · rw [fresh, dif_pos hex] at hm
        exact hex.choose_spec hm
      · cases hm
    · rw [holder_empty, hw]
      rfl
  refine le_trans hsub ?_
  rw [Nat.add_sub_cancel] at h
  push_cast at h ⊢
  exact h

/-! ## examples -/

/-- An attacker who requests the hash of an input of 3000 bytes, then a compression made from the answer, then a hash in the other
mode, of an input made from both answers; and who guesses that the hash of one byte is the answer to the last request. -/
def exForger : Spec.Algo (Spec.Input ⊕ Request 5000) Spec.Full ((Bool × { x : Bytes // x.length ≤ 5000 }) × Vector Byte 32) :=
  .ask (.inr (hashRequest (false, ⟨List.replicate 3000 1, by rw [List.length_replicate]; decide⟩))) fun y =>
  .ask (.inl (Spec.parent y.1 0 y.1 y.2)) fun z =>
  .ask (.inr (hashRequest (true, ⟨(Spec.cvBytes y.1 ++ Spec.cvBytes z.2).toList, by rw [Vector.length_toList]; decide⟩))) fun t =>
  .done ((false, ⟨[1], by decide⟩), Spec.cvBytes t.1)

theorem exForger_direct (G : Spec.Input ⊕ Request 5000 → Spec.Full) : direct (exForger.asked G) ≤ 1 := Nat.le_refl 1

theorem exForger_held (G : Spec.Input ⊕ Request 5000 → Spec.Full) : held (exForger.asked G) = 49 := by
  show Spec.compressions (List.replicate 3000 (1 : Byte)).length + (Spec.compressions (Vector.toList _).length + 0) = 49
  rw [List.length_replicate, Vector.length_toList]
  decide

/-- the attacker is in the scope of `C82_mac`, and what is forged has not been requested -/
example : prob (fun w : Comp × Vector Byte 32 =>
      hashWith w.1 (.keyedHash w.2) [1] = (exForger.result (holder w.1 w.2)).2) ≤ 1 / 2 ^ 256 + 2550 / 2 ^ 257 := by
  have h := C82_mac (by decide) exForger 1 50 exForger_direct (fun G => by
    rw [exForger_held]
    show 49 + Spec.compressions 1 ≤ 50
    decide)
  have hnew : ∀ G, .inr (hashRequest (exForger.result G).1) ∉ exForger.asked G := by
    intro G hm
    have hl : ∀ r ∈ (exForger.asked G).filterMap Sum.getRight?, r.input.length ≠ 1 := by
      intro r hr
      rcases List.mem_cons.1 hr with rfl | hr
      · show (List.replicate 3000 (1 : Byte)).length ≠ 1
        rw [List.length_replicate]
        decide
      · rcases List.mem_cons.1 hr with rfl | hr
        · show (Vector.toList _).length ≠ 1
          rw [Vector.length_toList]
          decide
        · cases hr
    exact hl _ (List.mem_filterMap.2 ⟨_, hm, rfl⟩) rfl
  simp only [hnew, not_false_eq_true, true_and] at h
  norm_num at h ⊢
  exact h

/-- with 2^80 compressions of the attacker and 2^80 of the holder: differences below 1 / 2^95 -/
example {N : Nat} (hN : N < 2 ^ 64) {α : Type} (A : Spec.Algo (Spec.Input ⊕ Request N) Spec.Full α) (P : α → Prop)
    (hq : ∀ G, direct (A.asked G) ≤ 2 ^ 80) (hs : ∀ G, held (A.asked G) ≤ 2 ^ 80) :
    |prob (fun w : Comp × Vector Byte 32 => P (A.result (holder w.1 w.2))) -
      prob (fun G : Spec.Input ⊕ Request N → Spec.Full => P (A.result G))| ≤ 1 / 2 ^ 95 := by
  refine le_trans (C82_prf hN A P _ _ hq hs) ?_
  norm_num

/-- a probability of C82 is one: of a random function, and of a random key -/
example : prob (fun _ : Comp × Vector Byte 32 => True) = 1 := by
  rw [prob, Nat.card_congr (Equiv.subtypeUnivEquiv fun _ => trivial)]
  exact div_self (Nat.cast_ne_zero.2 (Nat.pos_iff_ne_zero.1 Nat.card_pos))

end Baokeshed.Props
