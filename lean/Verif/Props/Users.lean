import Verif.Proofs.Users
import Verif.Props.Secret
import Mathlib.Data.Finite.Prod

/-!
# C86: many keys

As C82, with any number of people, each of whom holds a random key.
-/

set_option linter.unusedVariables false
set_option exponentiation.threshold 600

namespace Baokeshed.Props
open Baokeshed.Model Baokeshed.Proofs

attribute [local irreducible] Spec.compress Spec.outBytes Spec.cvBytes Spec.pad

section
variable {U : Type} {N : Nat}

/-- the compression function, and holders of keys; a request names one of them -/
def holders (F : Comp) (k : U → Vector Byte 32) : Spec.Input ⊕ (U × Request N) → Spec.Full :=
  Sum.elim F fun r => wordsWith F (r.2.mode (k r.1)) r.2.input r.2.block

/-- the number of questions for compressions -/
def directs (l : List (Spec.Input ⊕ (U × Request N))) : Nat := (l.filterMap Sum.getLeft?).length

/-- the number of compressions that the holders perform for the requests, together -/
def helds (l : List (Spec.Input ⊕ (U × Request N))) : Nat :=
  ((l.filterMap Sum.getRight?).map fun r => Spec.compressions r.2.input.length).sum

theorem holders_eq (F : Comp) (k : U → Vector Byte 32) : holders (N := N) F k = Sum.elim F (Users.tag F k) := by
  funext q
  rcases q with q | r
  · rfl
  · exact congrFun (holder_eq F (k r.1)) (.inr r.2)

theorem labels_helds (l : List (Spec.Input ⊕ (U × Request N))) : (Prf.labels Users.labs l).card ≤ helds l :=
  Prf.labels_card _ (fun μ => Nat.le_trans (Users.labs_card μ) (labs_compressions μ.2)) l

variable [Finite U]

/-- two of the keys, or one of them and something else -/
theorem card_keys {S : Type} [Finite S] (i : U) (g : S × (U → Vector Byte 32) → Vector Byte 32)
    (hg : ∀ s k k', (∀ j, j ≠ i → k j = k' j) → g (s, k) = g (s, k')) (p : S × (U → Vector Byte 32) → Prop) (hp : ∀ w, p w → w.2 i = g w) :
    Nat.card { w // p w } * 2 ^ 256 ≤ Nat.card (S × (U → Vector Byte 32)) := by
  classical
  rw [← card_key, ← Nat.card_prod]
  refine Nat.card_le_card_of_injective
    (fun w : { w // p w } × Vector Byte 32 => (w.1.1.1, Function.update w.1.1.2 i w.2)) ?_
  rintro ⟨⟨⟨s, k⟩, h⟩, v⟩ ⟨⟨⟨s', k'⟩, h'⟩, v'⟩ e
  simp only [Prod.mk.injEq] at e
  obtain ⟨rfl, e⟩ := e
  have ei := congrFun e i
  simp only [Function.update_self] at ei
  have hj : ∀ j, j ≠ i → k j = k' j := by
    intro j hj
    have := congrFun e j
    rwa [Function.update_of_ne hj, Function.update_of_ne hj] at this
  have hk : k = k' := by
    funext j
    by_cases h0 : j = i
    · subst h0
      exact (hp _ h).trans ((hg s k k' hj).trans (hp _ h').symm)
    · exact hj j h0
  subst hk
  rw [ei]

theorem card_hits (hN : N < 2 ^ 64) (x : Spec.Input) (b : (U × Bool × Gen.Inner N) ⊕ (U × Request N)) :
    Nat.card { p : (U × Bool × Gen.Inner N → Spec.Full) × (U → Vector Byte 32) // Users.inp p.2 p.1 b = x } * 2 ^ 256 ≤
      Nat.card ((U × Bool × Gen.Inner N → Spec.Full) × (U → Vector Byte 32)) := by
  classical
  obtain ⟨i, b, rfl⟩ := Users.exists_at b
  rcases Users.inp_cv hN i b with ⟨c, h⟩ | h
  · exact card_answer (i, c) (fun _ => x.cv) (fun _ _ _ => rfl) _ fun w hw => by rw [← h w.2 w.1, hw]
  · refine card_keys i (fun _ => bytes_from_state_words x.cv) (fun _ _ _ _ => rfl) _ fun w hw => ?_
    rw [← hw, h]
    exact (C34_key_roundtrip _).symm

theorem card_colls (hN : N < 2 ^ 64) (b c : (U × Bool × Gen.Inner N) ⊕ (U × Request N)) (hne : b ≠ c) :
    Nat.card { p : (U × Bool × Gen.Inner N → Spec.Full) × (U → Vector Byte 32) // Users.inp p.2 p.1 b = Users.inp p.2 p.1 c } * 2 ^ 256 ≤
      Nat.card ((U × Bool × Gen.Inner N → Spec.Full) × (U → Vector Byte 32)) := by
  classical
  obtain ⟨i, b, rfl⟩ := Users.exists_at b
  obtain ⟨j, c, rfl⟩ := Users.exists_at c
  by_cases hij : i = j
  · -- the same key
    subst hij
    have hbc : b ≠ c := fun h => hne (congrArg _ h)
    rcases Gen.inp_pair hN b c hbc with h | ⟨e, e', he, h⟩
    · have : IsEmpty { p : (U × Bool × Gen.Inner N → Spec.Full) × (U → Vector Byte 32) //
          Users.inp p.2 p.1 (Users.at' i b) = Users.inp p.2 p.1 (Users.at' i c) } :=
        ⟨fun p => h (p.1.2 i) (Users.part p.1.1 i) (by rw [← Users.inp_at, ← Users.inp_at]; exact p.2)⟩
      rw [Nat.card_eq_zero.2 (Or.inl this), Nat.zero_mul]
      exact Nat.zero_le _
    · exact card_answer (i, e) (fun w => (w.1 (i, e')).1) (fun S k y => by
        dsimp only
        rw [Function.update_of_ne (fun h => he.symm (congrArg Prod.snd h))]) _ fun w hw => by
          rw [Users.inp_at, Users.inp_at] at hw
          exact h (w.2 i) (Users.part w.1 i) hw
  · -- different keys: the chaining values differ
    rcases Users.inp_cv hN i b with ⟨e, h⟩ | h <;> rcases Users.inp_cv hN j c with ⟨e', h'⟩ | h'
    · exact card_answer (i, e) (fun w => (w.1 (j, e')).1) (fun S k y => by
        dsimp only
        rw [Function.update_of_ne (fun h => hij (congrArg Prod.fst h).symm)]) _ fun w hw => by
          rw [← h w.2 w.1, ← h' w.2 w.1, hw]
    · exact card_answer (i, e) (fun w : _ × (U → Vector Byte 32) => Gen.keyWords (w.2 j)) (fun S k y => rfl) _ fun w hw => by
          rw [← h w.2 w.1, ← h' w.2 w.1, hw]
    · exact card_answer (j, e') (fun w : _ × (U → Vector Byte 32) => Gen.keyWords (w.2 i)) (fun S k y => rfl) _ fun w hw => by
          rw [← h w.2 w.1, ← h' w.2 w.1, hw]
    · refine card_keys i (fun w => w.2 j) (fun s k k' hk => hk j (Ne.symm hij)) _ fun w hw => ?_
      exact holder_key_inj (by rw [← h w.2 w.1, ← h' w.2 w.1, hw])

theorem users_le (hN : N < 2 ^ 64) {α : Type} (A : Spec.Algo (Spec.Input ⊕ (U × Request N)) Spec.Full α) (P : α → Prop) (q s : Nat)
    (hq : ∀ G, directs (A.asked G) ≤ q) (hs : ∀ G, helds (A.asked G) ≤ s) :
    prob (fun w : Comp × (U → Vector Byte 32) => P (A.result (holders w.1 w.2))) ≤
      prob (fun G : Spec.Input ⊕ (U × Request N) → Spec.Full => P (A.result G)) + ((2 * q * s + s * (s - 1) : Nat) : ℚ) / 2 ^ 257 := by
  have h := Prf.prf (Users.H1 hN) (Users.H2 hN) (2 ^ 256) q s (card_hits hN) (card_colls hN) A P hq
    (fun G => Nat.le_trans (labels_helds _) (hs G))
  simp only [← holders_eq] at h
  have hG : Nat.card (Spec.Input ⊕ (U × Request N) → Spec.Full) = Nat.card Comp * Nat.card (U × Request N → Spec.Full) := by
    rw [← Nat.card_prod]
    exact Nat.card_congr (Equiv.sumArrowEquivProdArrow _ _ _)
  rw [prob, prob, Nat.card_prod, hG]
  rw [hG] at h
  have p1 : 0 < Nat.card Comp := Nat.card_pos
  have p2 : 0 < Nat.card (U × Request N → Spec.Full) := Nat.card_pos
  have p3 : 0 < Nat.card (U → Vector Byte 32) := Nat.card_pos
  generalize 2 * q * s + s * (s - 1) = e at *
  generalize Nat.card { w : Comp × (U → Vector Byte 32) // P (A.result (holders w.1 w.2)) } = a at *
  generalize Nat.card { G : Spec.Input ⊕ (U × Request N) → Spec.Full // P (A.result G) } = b at *
  generalize Nat.card Comp = C at *
  generalize Nat.card (U × Request N → Spec.Full) = M at *
  generalize Nat.card (U → Vector Byte 32) = K at *
  have h : (2 * (a * M * 2 ^ 256) : ℚ) ≤ 2 * (b * K * 2 ^ 256) + e * (C * M * K) := by exact_mod_cast h
  have p1 : (0 : ℚ) < C := by exact_mod_cast p1
  have p2 : (0 : ℚ) < M := by exact_mod_cast p2
  have p3 : (0 : ℚ) < K := by exact_mod_cast p3
  push_cast
  rw [div_add_div _ _ (by positivity) (by positivity), div_le_div_iff₀ (by positivity) (by positivity)]
  have := mul_le_mul_of_nonneg_right h (le_of_lt p1)
  rw [show (2 : ℚ) ^ 257 = 2 * 2 ^ 256 from pow_succ' 2 256]
  generalize (2 : ℚ) ^ 256 = z at *
  linarith

/-- C86.  To an attacker, holders of random keys are like people who answer every request with 64 random bytes, each on their own.  The
bound does not depend on how many there are: the attacker asks for `q` compressions, and all holders together perform `s`. -/
theorem C86_users (hN : N < 2 ^ 64) {α : Type} (A : Spec.Algo (Spec.Input ⊕ (U × Request N)) Spec.Full α) (P : α → Prop) (q s : Nat)
    (hq : ∀ G, directs (A.asked G) ≤ q) (hs : ∀ G, helds (A.asked G) ≤ s) :
    |prob (fun w : Comp × (U → Vector Byte 32) => P (A.result (holders w.1 w.2))) -
      prob (fun G : Spec.Input ⊕ (U × Request N) → Spec.Full => P (A.result G))| ≤ ((2 * q * s + s * (s - 1) : Nat) : ℚ) / 2 ^ 257 := by
  have h1 := users_le hN A P q s hq hs
  have h2 := users_le hN A (fun a => ¬ P a) q s hq hs
  rw [prob_not, prob_not (fun G : Spec.Input ⊕ (U × Request N) → Spec.Full => P (A.result G))] at h2
  generalize ((2 * q * s + s * (s - 1) : Nat) : ℚ) / 2 ^ 257 = e at *
  rw [abs_le]
  constructor <;> linarith

/-! ## forgeries -/

theorem forges (hN : N < 2 ^ 64) {α Z : Type} [Finite Z] [Nonempty Z] (get : Spec.Full → Z) (set : Spec.Full → Z → Spec.Full)
    (h1 : ∀ y z, get (set y z) = z) (h2 : ∀ y, set y (get y) = y) (h3 : ∀ y z z', set (set y z) z' = set y z')
    (A : Spec.Algo (Spec.Input ⊕ (U × Request N)) Spec.Full α) (r : α → U × Request N) (v : α → Z) (q s : Nat)
    (hq : ∀ G, directs (A.asked G) ≤ q) (hs : ∀ G, helds (A.asked G) + Spec.compressions (r (A.result G)).2.input.length ≤ s) :
    prob (fun w : Comp × (U → Vector Byte 32) => .inr (r (A.result (holders w.1 w.2))) ∉ A.asked (holders w.1 w.2) ∧
      get (holders w.1 w.2 (.inr (r (A.result (holders w.1 w.2))))) = v (A.result (holders w.1 w.2))) ≤
    1 / (Nat.card Z : ℚ) + ((2 * q * s + s * (s - 1) : Nat) : ℚ) / 2 ^ 257 := by
  let B : Spec.Algo (Spec.Input ⊕ (U × Request N)) Spec.Full Prop := logged A >>= fun p =>
    .ask (.inr (r p.1)) fun y => .done (.inr (r p.1) ∉ p.2 ∧ get y = v p.1)
  have hB : ∀ G, B.result G = (.inr (r (A.result G)) ∉ A.asked G ∧ get (G (.inr (r (A.result G)))) = v (A.result G)) ∧
      B.asked G = A.asked G ++ [.inr (r (A.result G))] := by
    intro G
    obtain ⟨e1, e2⟩ := logged_eq G A
    simp only [B]
    rw [Gen.result_bind, Gen.asked_bind, e1, e2]
    exact ⟨rfl, rfl⟩
  have h := users_le hN B id q s
    (fun G => by
      rw [(hB G).2, directs, List.filterMap_append]
      simp only [List.filterMap_cons, Sum.getLeft?, List.filterMap_nil, List.append_nil]
      exact hq G)
    (fun G => by
      rw [(hB G).2, helds, List.filterMap_append]
      simp only [List.filterMap_cons, Sum.getRight?, List.filterMap_nil, List.map_append, List.sum_append, List.map_cons, List.map_nil,
        List.sum_cons, List.sum_nil, Nat.add_zero]
      exact hs G)
  simp only [id, fun G => (hB G).1] at h
  refine le_trans h (add_le_add_left ?_ _)
  have hc := count_guess get set h1 h2 h3 (A >>= fun a => .done ((.inr (r a) : Spec.Input ⊕ (U × Request N)), v a))
  simp only [Gen.result_bind, Gen.asked_bind, Spec.Algo.result, Spec.Algo.asked, List.append_nil] at hc
  have hle : Nat.card { G : Spec.Input ⊕ (U × Request N) → Spec.Full // .inr (r (A.result G)) ∉ A.asked G } ≤
      Nat.card (Spec.Input ⊕ (U × Request N) → Spec.Full) := Nat.card_le_card_of_injective _ Subtype.val_injective
  rw [← hc] at hle
  have p1 : (0 : ℚ) < (Nat.card Z : ℚ) := by exact_mod_cast Nat.card_pos
  have p2 : (0 : ℚ) < (Nat.card (Spec.Input ⊕ (U × Request N) → Spec.Full) : ℚ) := by exact_mod_cast Nat.card_pos
  rw [prob, div_le_div_iff₀ p2 p1, one_mul]
  exact_mod_cast hle

/-- C86.  An attacker names one of the holders, a mode, an input and 32 bytes.  The probability that they are the hash of this input with
the key of this holder, although the attacker has not requested block 0 of it from this holder, is hardly more than 1 / 2^256.  The
attacker may have had the same input from all others. -/
theorem C86_mac (hN : N < 2 ^ 64)
    (A : Spec.Algo (Spec.Input ⊕ (U × Request N)) Spec.Full ((U × Bool × { x : Bytes // x.length ≤ N }) × Vector Byte 32)) (q s : Nat)
    (hq : ∀ G, directs (A.asked G) ≤ q)
    (hs : ∀ G, helds (A.asked G) + Spec.compressions (A.result G).1.2.2.1.length ≤ s) :
    prob (fun w : Comp × (U → Vector Byte 32) =>
      .inr ((A.result (holders w.1 w.2)).1.1, hashRequest (A.result (holders w.1 w.2)).1.2) ∉ A.asked (holders w.1 w.2) ∧
      hashWith w.1 ((hashRequest (A.result (holders w.1 w.2)).1.2).mode (w.2 (A.result (holders w.1 w.2)).1.1))
        (A.result (holders w.1 w.2)).1.2.2.1 = (A.result (holders w.1 w.2)).2) ≤
    1 / 2 ^ 256 + ((2 * q * s + s * (s - 1) : Nat) : ℚ) / 2 ^ 257 := by
  have h := forges hN (fun y => y.1) (fun y z => (z, y.2)) (fun _ _ => rfl) (fun _ => rfl) (fun _ _ _ => rfl) A
    (fun a => (a.1.1, hashRequest a.1.2)) (fun a => words_from_key_bytes a.2) q s hq hs
  rw [card_words] at h
  have hv : ∀ w : Comp × (U → Vector Byte 32),
      (holders w.1 w.2 (.inr ((A.result (holders w.1 w.2)).1.1, hashRequest (A.result (holders w.1 w.2)).1.2))).1 =
        words_from_key_bytes (A.result (holders w.1 w.2)).2 ↔
      hashWith w.1 ((hashRequest (A.result (holders w.1 w.2)).1.2).mode (w.2 (A.result (holders w.1 w.2)).1.1))
        (A.result (holders w.1 w.2)).1.2.2.1 = (A.result (holders w.1 w.2)).2 := by
    intro w
    rw [(C82_answer w.1 _ _ 0).2]
    generalize (A.result (holders w.1 w.2)) = a
    show (wordsWith w.1 _ _ 0).1 = _ ↔ _
    constructor
    · intro e
      erw [e]
      rw [← bytes_from_state_words_eq, C34_key_roundtrip]
    · intro e
      rw [← e, ← bytes_from_state_words_eq, C34_words_roundtrip]
      rfl
  simp only [hv] at h
  push_cast at h ⊢
  exact h

/-- C86.  The same for the 64 bytes of any block of the output of any holder. -/
theorem C86_mac_block (hN : N < 2 ^ 64) (A : Spec.Algo (Spec.Input ⊕ (U × Request N)) Spec.Full ((U × Request N) × Spec.Full)) (q s : Nat)
    (hq : ∀ G, directs (A.asked G) ≤ q)
    (hs : ∀ G, helds (A.asked G) + Spec.compressions (A.result G).1.2.input.length ≤ s) :
    prob (fun w : Comp × (U → Vector Byte 32) =>
      .inr (A.result (holders w.1 w.2)).1 ∉ A.asked (holders w.1 w.2) ∧
      wordsWith w.1 ((A.result (holders w.1 w.2)).1.2.mode (w.2 (A.result (holders w.1 w.2)).1.1)) (A.result (holders w.1 w.2)).1.2.input
        (A.result (holders w.1 w.2)).1.2.block = (A.result (holders w.1 w.2)).2) ≤
    1 / 2 ^ 512 + ((2 * q * s + s * (s - 1) : Nat) : ℚ) / 2 ^ 257 := by
  have h := forges hN (fun y => y) (fun y z => z) (fun _ _ => rfl) (fun _ => rfl) (fun _ _ _ => rfl) A
    (fun a => a.1) (fun a => a.2) q s hq hs
  rw [card_full, ← Nat.pow_add] at h
  push_cast at h ⊢
  exact h

/-! ## the keys -/

omit [Finite U] in
theorem holders_empty (F : Comp) (k : U → Vector Byte 32) (u : U) (j : Fin (2 ^ 58)) :
    holders (N := N) F k (.inr (u, emptyRequest j)) = F (emptyRoot (k u) j.val) := words_empty F (k u) j.val

omit [Finite U] in
theorem helds_length (l : List (Spec.Input ⊕ (U × Request N))) : (l.filterMap Sum.getRight?).length ≤ helds l := by
  rw [helds]
  generalize l.filterMap Sum.getRight? = t
  induction t with
  | nil => exact Nat.le_refl _
  | cons r t ih =>
    rw [List.map_cons, List.sum_cons, List.length_cons]
    have : 1 ≤ Spec.compressions r.2.input.length := by rw [Spec.compressions]; omega
    omega

omit [Finite U] in
theorem exists_freshs (l : List (Spec.Input ⊕ (U × Request N))) (h : helds l < 2 ^ 58) (u : U) :
    ∃ j : Fin (2 ^ 58), .inr (u, emptyRequest j) ∉ l := by
  classical
  have hc : ((l.filterMap Sum.getRight?).toFinset).card < (Finset.univ.image fun j => (u, emptyRequest (N := N) j)).card := by
    rw [Finset.card_image_of_injective _ (fun _ _ e => emptyRequest_inj (congrArg Prod.snd e)), Finset.card_univ, Fintype.card_fin]
    exact Nat.lt_of_le_of_lt (List.toFinset_card_le _) (Nat.lt_of_le_of_lt (helds_length l) h)
  obtain ⟨r, h1, h2⟩ := Finset.exists_mem_notMem_of_card_lt_card hc
  obtain ⟨j, -, rfl⟩ := Finset.mem_image.1 h1
  refine ⟨j, fun hm => h2 ?_⟩
  rw [List.mem_toFinset, List.mem_filterMap]
  exact ⟨_, hm, rfl⟩

open Classical in
noncomputable def freshs (l : List (Spec.Input ⊕ (U × Request N))) (u : U) : Fin (2 ^ 58) :=
  if h : ∃ j : Fin (2 ^ 58), .inr (u, emptyRequest j) ∉ l then h.choose else 0

/-- C86.  An attacker who names one of the holders, and the key of this holder, is right with a probability of little more than the number
of compressions, those of the attacker times those of all holders, in 2^256.  It is no easier to find one of many keys than to find one
that is given. -/
theorem C86_key (hN : N < 2 ^ 64) (A : Spec.Algo (Spec.Input ⊕ (U × Request N)) Spec.Full (U × Vector Byte 32)) (q s : Nat)
    (hq : ∀ G, directs (A.asked G) ≤ q) (hs : ∀ G, helds (A.asked G) ≤ s) (h58 : s < 2 ^ 58) :
    prob (fun w : Comp × (U → Vector Byte 32) => (A.result (holders w.1 w.2)).2 = w.2 (A.result (holders w.1 w.2)).1) ≤
    1 / 2 ^ 512 + ((2 * (q + 1) * (s + 1) + (s + 1) * s : Nat) : ℚ) / 2 ^ 257 := by
  classical
  let B : Spec.Algo (Spec.Input ⊕ (U × Request N)) Spec.Full ((U × Request N) × Spec.Full) := logged A >>= fun p =>
    .ask (.inl (emptyRoot p.1.2 (freshs p.2 p.1.1).val)) fun y => .done ((p.1.1, emptyRequest (freshs p.2 p.1.1)), y)
  have hB : ∀ G, B.result G = (((A.result G).1, emptyRequest (freshs (A.asked G) (A.result G).1)),
        G (.inl (emptyRoot (A.result G).2 (freshs (A.asked G) (A.result G).1).val))) ∧
      B.asked G = A.asked G ++ [.inl (emptyRoot (A.result G).2 (freshs (A.asked G) (A.result G).1).val)] := by
    intro G
    obtain ⟨e1, e2⟩ := logged_eq G A
    simp only [B]
    rw [Gen.result_bind, Gen.asked_bind, e1, e2]
    exact ⟨rfl, rfl⟩
  have h := forges hN (fun y => y) (fun y z => z) (fun _ _ => rfl) (fun _ => rfl) (fun _ _ _ => rfl) B (fun a => a.1) (fun a => a.2) (q + 1) (s + 1)
    (fun G => by
      rw [(hB G).2, directs, List.filterMap_append, List.length_append]
      exact Nat.add_le_add_right (hq G) 1)
    (fun G => by
      rw [(hB G).2, (hB G).1, helds, List.filterMap_append]
      simp only [List.filterMap_cons, Sum.getRight?, List.filterMap_nil, List.append_nil]
      exact Nat.add_le_add (hs G) (by show Spec.compressions 0 ≤ 1; decide))
  rw [card_full, ← Nat.pow_add] at h
  have hsub : prob (fun w : Comp × (U → Vector Byte 32) => (A.result (holders w.1 w.2)).2 = w.2 (A.result (holders w.1 w.2)).1) ≤
      prob (fun w : Comp × (U → Vector Byte 32) => .inr (B.result (holders w.1 w.2)).1 ∉ B.asked (holders w.1 w.2) ∧
        holders w.1 w.2 (.inr (B.result (holders w.1 w.2)).1) = (B.result (holders w.1 w.2)).2) := by
    rw [prob, prob]
    refine div_le_div_of_nonneg_right ?_ (Nat.cast_nonneg _)
    refine Nat.cast_le.2 (Nat.card_le_card_of_injective (fun w => ⟨w.1, ?_⟩) fun a b e => Subtype.ext (Subtype.mk.inj e))
    obtain ⟨⟨F, k⟩, hw⟩ := w
    dsimp only at hw ⊢
    rw [(hB _).1, (hB _).2]
    dsimp only
    have hex := exists_freshs (A.asked (holders F k)) (Nat.lt_of_le_of_lt (hs _) h58) (A.result (holders F k)).1
    refine ⟨?_, ?_⟩
    · rw [List.mem_append, List.mem_singleton]
      rintro (hm | hm)
      · rw [freshs, dif_pos hex] at hm
        exact hex.choose_spec hm
      · cases hm
    · rw [holders_empty, hw]
      rfl
  refine le_trans hsub ?_
  rw [Nat.add_sub_cancel] at h
  push_cast at h ⊢
  exact h

end

/-! ## examples -/

/-- An attacker against three holders: requests the hash of one byte from the first, then a compression made from the answer; and guesses
that the second has the same hash. -/
def exAcross : Spec.Algo (Spec.Input ⊕ (Fin 3 × Request 5000)) Spec.Full ((Fin 3 × Bool × { x : Bytes // x.length ≤ 5000 }) × Vector Byte 32) :=
  .ask (.inr (0, hashRequest (false, ⟨[1], by decide⟩))) fun y =>
  .ask (.inl (Spec.parent y.1 0 y.1 y.2)) fun z =>
  .done ((1, false, ⟨[1], by decide⟩), Spec.cvBytes y.1)

/-- this is in the scope of `C86_mac`: two holders do not have the same hash of one input -/
example : prob (fun w : Comp × (Fin 3 → Vector Byte 32) =>
      hashWith w.1 (.keyedHash (w.2 1)) [1] = hashWith w.1 (.keyedHash (w.2 0)) [1]) ≤ 1 / 2 ^ 256 + 6 / 2 ^ 257 := by
  have h := C86_mac (by decide) exAcross 1 2 (fun _ => Nat.le_refl 1) (fun G => by
    show Spec.compressions 1 + 0 + Spec.compressions 1 ≤ 2
    decide)
  have hnew : ∀ G, .inr ((exAcross.result G).1.1, hashRequest (exAcross.result G).1.2) ∉ exAcross.asked G := by
    intro G hm
    have hl : ∀ r ∈ (exAcross.asked G).filterMap Sum.getRight?, r.1 ≠ 1 := by
      intro r hr
      rcases List.mem_cons.1 hr with rfl | hr
      · show (0 : Fin 3) ≠ 1
        decide
      · cases hr
    exact hl _ (List.mem_filterMap.2 ⟨_, hm, rfl⟩) rfl
  simp only [hnew, not_false_eq_true, true_and] at h
  have hv : ∀ w : Comp × (Fin 3 → Vector Byte 32), (exAcross.result (holders w.1 w.2)).2 = hashWith w.1 (.keyedHash (w.2 0)) [1] :=
    fun w => (C82_answer w.1 _ _ 0).2.symm
  simp only [hv] at h
  norm_num at h ⊢
  exact h

/-- A thousand million holders, 2^80 compressions of the attacker and 2^80 of all holders: differences below 1 / 2^95.  The sum of what
C82 says of each holder would be below 1 / 2^65. -/
example {N : Nat} (hN : N < 2 ^ 64) {α : Type} (A : Spec.Algo (Spec.Input ⊕ (Fin (10 ^ 9) × Request N)) Spec.Full α) (P : α → Prop)
    (hq : ∀ G, directs (A.asked G) ≤ 2 ^ 80) (hs : ∀ G, helds (A.asked G) ≤ 2 ^ 80) :
    |prob (fun w : Comp × (Fin (10 ^ 9) → Vector Byte 32) => P (A.result (holders w.1 w.2))) -
      prob (fun G : Spec.Input ⊕ (Fin (10 ^ 9) × Request N) → Spec.Full => P (A.result G))| ≤ 1 / 2 ^ 95 := by
  refine le_trans (C86_users hN A P _ _ hq hs) ?_
  norm_num

end Baokeshed.Props
