import Verif.Props.Users
import Verif.Props.Prefix
import Verif.Props.OneShot
import Mathlib.Logic.Equiv.Prod
import Mathlib.Logic.Equiv.Basic
import Mathlib.Algebra.BigOperators.Group.Finset.Basic

/-!
# C88: keys derived from keys

Holders of random keys derive keys from them with `derive_key`, keys from these, and so on, and answer requests with the keys at all
places of the tree of keys that comes about.
-/

set_option linter.unusedVariables false
set_option exponentiation.threshold 600

namespace Baokeshed.Props
open Baokeshed.Model Baokeshed.Proofs

attribute [local irreducible] Spec.compress Spec.outBytes Spec.cvBytes Spec.pad

/-- A request for a block of `keyed_hash` output: the input, and the number of the block. -/
abbrev Plain (N : Nat) := { p : Bytes × Nat // p.1.length ≤ N ∧ p.2 < 2 ^ 58 }

/-- what a key is derived for: the input of `derive_key` -/
abbrev Context (N : Nat) := { x : Bytes // x.length ≤ N }

/-- Requests to holders `U` whose keys have `d` levels of derived keys below them.  With a key that others are derived from, only
`keyed_hash`; with the keys of the last level, `derive_key` too. -/
def Below (N : Nat) : Nat → Type → Type
  | 0, U => U × Request N
  | d + 1, U => (U × Plain N) ⊕ Below N d (U × Context N)

/-- the key for the context `c` -/
def derived {N : Nat} {U : Type} (F : Comp) (k : U → Vector Byte 32) (c : U × Context N) : Vector Byte 32 :=
  hashWith F (.deriveKey (k c.1)) c.2.1

/-- The answers.  `k` are the keys of the first level; those of the next are derived from them. -/
def answers {N : Nat} (F : Comp) : (d : Nat) → {U : Type} → (U → Vector Byte 32) → Below N d U → Spec.Full
  | 0, _, k, (u, r) => wordsWith F (r.mode (k u)) r.input r.block
  | _ + 1, _, k, .inl (u, p) => wordsWith F (.keyedHash (k u)) p.1.1 p.1.2
  | d + 1, _, k, .inr b => answers F d (derived F k) b

/-- the compression function, and the holders -/
def tree {N d : Nat} {U : Type} (F : Comp) (k : U → Vector Byte 32) : Spec.Input ⊕ Below N d U → Spec.Full := Sum.elim F (answers F d k)

/-- whose key a request leads to, on the first level -/
def holderOf {N : Nat} : (d : Nat) → {U : Type} → Below N d U → U
  | 0, _, (u, _) => u
  | _ + 1, _, .inl (u, _) => u
  | d + 1, _, .inr b => (holderOf d b).1

/-- The number of compressions with the key of level `i` for a request, if the keys on the way to it are derived anew. -/
def costAt {N : Nat} : (d : Nat) → {U : Type} → Below N d U → Nat → Nat
  | 0, _, (_, r), 0 => Spec.compressions r.input.length
  | 0, _, _, _ + 1 => 0
  | _ + 1, _, .inl (_, p), 0 => Spec.compressions p.1.1.length
  | _ + 1, _, .inl _, _ + 1 => 0
  | d + 1, _, .inr b, 0 => Spec.compressions (holderOf d b).2.1.length
  | d + 1, _, .inr b, i + 1 => costAt d b i

section
variable {U : Type} {N d : Nat}

/-- the number of questions for compressions -/
def own (l : List (Spec.Input ⊕ Below N d U)) : Nat := (l.filterMap Sum.getLeft?).length

/-- the number of compressions with keys of level `i` for the requests -/
def spentAt (i : Nat) (l : List (Spec.Input ⊕ Below N d U)) : Nat := ((l.filterMap Sum.getRight?).map fun b => costAt d b i).sum

end

/-! ## algorithms that use others -/

namespace Interp
variable {Q X Y α : Type}

/-- ask what `h` asks, and take its result as the answer -/
def run (h : Q → Spec.Algo X Y Y) : Spec.Algo Q Y α → Spec.Algo X Y α
  | .done a => .done a
  | .ask q k => (h q).bind fun y => run h (k y)

theorem result (h : Q → Spec.Algo X Y Y) (G : X → Y) (A : Spec.Algo Q Y α) : (run h A).result G = A.result fun q => (h q).result G := by
  induction A with
  | done a => rfl
  | ask q k ih => exact (Gen.result_bind G (h q) _).trans (ih _)

theorem asked (h : Q → Spec.Algo X Y Y) (G : X → Y) (A : Spec.Algo Q Y α) :
    (run h A).asked G = (A.asked fun q => (h q).result G).flatMap fun q => (h q).asked G := by
  induction A with
  | done a => rfl
  | ask q k ih =>
    refine (Gen.asked_bind G (h q) _).trans ?_
    rw [ih]
    rfl

end Interp

/-! ## probabilities -/

/-- values at different places, and of these a part that is as good as any -/
theorem prob_pull {I J Z W V : Type} [Finite I] [Finite J] [Finite Z] [Finite W] [Finite V] [Nonempty V] [Nonempty Z] (e : J → I)
    (he : Function.Injective e) (π : Z ≃ W × V) (P : (J → W) → Prop) :
    prob (fun g : I → Z => P fun j => (π (g (e j))).1) = prob P := by
  classical
  let E : (I → Z) ≃ (J → W) × ((J → V) × ({ i // ¬ i ∈ Set.range e } → Z)) :=
    (Equiv.piEquivPiSubtypeProd (fun i => i ∈ Set.range e) fun _ => Z).trans
      ((Equiv.prodCongr ((Equiv.arrowCongr (Equiv.ofInjective e he).symm π).trans (Equiv.arrowProdEquivProdArrow J _ _)) (Equiv.refl _)).trans
        (Equiv.prodAssoc _ _ _))
  rw [← prob_fst (Λ := (J → V) × ({ i // ¬ i ∈ Set.range e } → Z)) P, ← prob_congr E]
  rfl

/-- the same beside something else -/
theorem prob_pull_beside {Ω I J Z W V : Type} [Finite Ω] [Finite I] [Finite J] [Finite Z] [Finite W] [Finite V] [Nonempty V] [Nonempty Z]
    (e : J → I) (he : Function.Injective e) (π : Z ≃ W × V) (P : Ω × (J → W) → Prop) :
    prob (fun w : Ω × (I → Z) => P (w.1, fun j => (π (w.2 (e j))).1)) = prob P := by
  have := Fintype.ofFinite Ω
  rw [← prob_congr (Equiv.prodComm (I → Z) Ω), ← prob_congr (Equiv.prodComm (J → W) Ω), prob_avg, prob_avg]
  refine congrArg (· / _) (Finset.sum_congr rfl fun w _ => ?_)
  exact prob_pull e he π fun f => P (w, f)

/-- the first half of an answer, as a key -/
def keyHalf : Spec.Full ≃ Vector Byte 32 × Vector Word 8 :=
  Equiv.prodCongr ⟨Spec.cvBytes, words_from_key_bytes, fun w => by rw [← bytes_from_state_words_eq, C34_words_roundtrip],
    fun k => by rw [← bytes_from_state_words_eq, C34_key_roundtrip]⟩ (Equiv.refl _)

instance below_finite (N : Nat) : (d : Nat) → (U : Type) → [Finite U] → Finite (Below N d U)
  | 0, U, _ => inferInstanceAs (Finite (U × Request N))
  | d + 1, U, _ => by
    have := below_finite N d (U × Context N)
    exact inferInstanceAs (Finite ((U × Plain N) ⊕ Below N d (U × Context N)))

/-! ## one level -/

/-- the answer to a request, if `key` is the key of the first level -/
def askBelow {N : Nat} : (d : Nat) → {U : Type} → Vector Byte 32 → Below N d U → Spec.Asking Spec.Full
  | 0, _, key, (_, r) => Spec.rootAsk (r.mode key) r.input >>= fun n =>
      .ask { n with offset := BitVec.ofNat 64 (64 * r.block) } .done
  | _ + 1, _, key, .inl (_, p) => Spec.rootAsk (.keyedHash key) p.1.1 >>= fun n =>
      .ask { n with offset := BitVec.ofNat 64 (64 * p.1.2) } .done
  | d + 1, _, key, .inr b => Spec.hashAsk (.deriveKey key) (holderOf d b).2.1 >>= fun key' => askBelow d key' b

theorem askBelow_result {N : Nat} (F : Comp) (d : Nat) {U : Type} (k : U → Vector Byte 32) (b : Below N d U) :
    (askBelow d (k (holderOf d b)) b).result F = answers F d k b := by
  induction d generalizing U with
  | zero => rfl
  | succ d ih =>
    rcases b with ⟨u, p⟩ | b
    · rfl
    · show (Spec.hashAsk (.deriveKey (k (holderOf d b).1)) (holderOf d b).2.1 >>= fun key' => askBelow d key' b).result F = _
      rw [Gen.result_bind]
      exact ih (derived F k) b

theorem block_cost (F : Comp) (m : Spec.Mode) (x : Bytes) (j : Nat) :
    ((Spec.rootAsk m x >>= fun n => Spec.Algo.ask { n with offset := BitVec.ofNat 64 (64 * j) } Spec.Algo.done).asked F).length ≤
      Spec.compressions x.length := by
  have h := C81_questions F m x
  rw [(Gen.hash_asks F m x).2, List.length_append] at h
  rw [Gen.asked_bind, (Gen.root_asks F m x).2, List.length_append]
  have : Spec.compressions x.length = max 1 ((x.length + 63) / 64) + (max 1 ((x.length + 2047) / 2048) - 1) := rfl
  simp only [Spec.Algo.asked, List.length_cons, List.length_nil] at h ⊢
  omega

theorem askBelow_cost {N : Nat} (F : Comp) (d : Nat) {U : Type} (key : Vector Byte 32) (b : Below N d U) :
    ((askBelow d key b).asked F).length ≤ ∑ i ∈ Finset.range (d + 1), costAt d b i := by
  induction d generalizing U key with
  | zero =>
    rw [Finset.sum_range_one]
    exact block_cost F _ _ _
  | succ d ih =>
    rw [Finset.sum_range_succ']
    rcases b with ⟨u, p⟩ | b
    · exact Nat.le_trans (block_cost F _ _ _) (Nat.le_add_left _ _)
    · show ((Spec.hashAsk (.deriveKey key) (holderOf d b).2.1 >>= fun key' => askBelow d key' b).asked F).length ≤
        ∑ i ∈ Finset.range (d + 1), costAt d b i + Spec.compressions (holderOf d b).2.1.length
      rw [Gen.asked_bind, List.length_append, Nat.add_comm]
      have h := C81_questions F (.deriveKey key) (holderOf d b).2.1
      exact Nat.add_le_add (ih _ b) (by rw [h]; exact Nat.le_refl _)

section
variable {U : Type} {N : Nat}

/-- Ask the holders of the keys of the first level for the derived keys, and do the rest. -/
def viaFirst (d : Nat) : Spec.Input ⊕ Below N (d + 1) U → Spec.Algo (Spec.Input ⊕ (U × Request N)) Spec.Full Spec.Full
  | .inl x => .ask (.inl x) .done
  | .inr (.inl (u, p)) => .ask (.inr (u, (false, p))) .done
  | .inr (.inr b) => .ask (.inr ((holderOf d b).1, hashRequest (true, (holderOf d b).2))) fun y =>
      Indiff.rename .inl (askBelow d (Spec.cvBytes y.1) b)

/-- as `tree`, with any answers on the first level -/
def grafted (d : Nat) (F : Comp) (g : U × Plain N → Spec.Full) (k : U × Context N → Vector Byte 32) :
    Spec.Input ⊕ Below N (d + 1) U → Spec.Full :=
  Sum.elim F (Sum.elim g (answers F d k))

theorem viaFirst_result (d : Nat) (G : Spec.Input ⊕ (U × Request N) → Spec.Full) :
    (fun q => (viaFirst d q).result G) = grafted d (fun x => G (.inl x)) (fun p => G (.inr (p.1, (false, p.2))))
      (fun c => Spec.cvBytes (G (.inr (c.1, hashRequest (true, c.2)))).1) := by
  funext q
  rcases q with x | ⟨u, p⟩ | b
  · rfl
  · rfl
  · show (Indiff.rename .inl (askBelow d _ b)).result G = _
    rw [Indiff.rename_result]
    exact askBelow_result (fun x => G (.inl x)) d (fun c => Spec.cvBytes (G (.inr (c.1, hashRequest (true, c.2)))).1) b

theorem viaFirst_holders (d : Nat) (F : Comp) (k : U → Vector Byte 32) : (fun q => (viaFirst (N := N) d q).result (holders F k)) = tree F k := by
  rw [viaFirst_result]
  have h : (fun c : U × Context N => Spec.cvBytes (holders F k (.inr (c.1, hashRequest (true, c.2)))).1) = derived F k := by
    funext c
    exact (C82_answer F (.deriveKey (k c.1)) c.2.1 0).2.symm
  rw [h]
  funext q
  rcases q with x | ⟨u, p⟩ | b <;> rfl

theorem directs_append (l l' : List (Spec.Input ⊕ (U × Request N))) : directs (l ++ l') = directs l + directs l' := by
  rw [directs, List.filterMap_append, List.length_append]; rfl

theorem helds_append (l l' : List (Spec.Input ⊕ (U × Request N))) : helds (l ++ l') = helds l + helds l' := by
  rw [helds, List.filterMap_append, List.map_append, List.sum_append]; rfl

theorem directs_inl (l : List Spec.Input) : directs (l.map (.inl : _ → Spec.Input ⊕ (U × Request N))) = l.length := by
  induction l with
  | nil => rfl
  | cons x l ih => exact congrArg (· + 1) ih

theorem helds_inl (l : List Spec.Input) : helds (l.map (.inl : _ → Spec.Input ⊕ (U × Request N))) = 0 := by
  induction l with
  | nil => rfl
  | cons x l ih => exact ih

theorem viaFirst_directs (d : Nat) (G : Spec.Input ⊕ (U × Request N) → Spec.Full) (l : List (Spec.Input ⊕ Below N (d + 1) U)) :
    directs (l.flatMap fun q => (viaFirst d q).asked G) ≤ own l + ∑ i ∈ Finset.range (d + 1), spentAt (i + 1) l := by
  induction l with
  | nil => exact Nat.zero_le _
  | cons q l ih =>
    rw [List.flatMap_cons, directs_append]
    have key : directs ((viaFirst d q).asked G) ≤ own [q] + ∑ i ∈ Finset.range (d + 1), spentAt (i + 1) [q] := by
      rcases q with x | ⟨u, p⟩ | b
      · exact Nat.le_add_right 1 _
      · exact Nat.zero_le _
      · show directs (.inr _ :: (Indiff.rename .inl (askBelow d _ b)).asked G) ≤ _
        rw [Indiff.rename_asked]
        show directs (List.map Sum.inl _) ≤ _
        rw [directs_inl]
        refine Nat.le_trans (askBelow_cost _ d _ b) (Nat.le_trans (Nat.le_of_eq (Finset.sum_congr rfl fun i _ => ?_)) (Nat.le_add_left _ _))
        show costAt d b i = costAt d b i + 0
        rfl
    have e1 : own (q :: l) = own [q] + own l := by
      rw [own, ← List.singleton_append, List.filterMap_append, List.length_append]; rfl
    have e2 : ∀ i, spentAt i (q :: l) = spentAt i [q] + spentAt i l := by
      intro i
      rw [spentAt, ← List.singleton_append, List.filterMap_append, List.map_append, List.sum_append]; rfl
    simp only [e2, Finset.sum_add_distrib]
    omega

theorem viaFirst_helds (d : Nat) (G : Spec.Input ⊕ (U × Request N) → Spec.Full) (l : List (Spec.Input ⊕ Below N (d + 1) U)) :
    helds (l.flatMap fun q => (viaFirst d q).asked G) = spentAt 0 l := by
  induction l with
  | nil => rfl
  | cons q l ih =>
    rw [List.flatMap_cons, helds_append, ih]
    have e2 : spentAt 0 (q :: l) = spentAt 0 [q] + spentAt 0 l := by
      rw [spentAt, ← List.singleton_append, List.filterMap_append, List.map_append, List.sum_append]; rfl
    rw [e2]
    congr 1
    rcases q with x | ⟨u, p⟩ | b
    · rfl
    · rfl
    · show helds ([.inr _] ++ (Indiff.rename .inl (askBelow d _ b)).asked G) = _
      rw [Indiff.rename_asked, helds_append, helds_inl]
      rfl

/-- answer the requests of the first level with `g` -/
def keepBelow (d : Nat) (g : U × Plain N → Spec.Full) :
    Spec.Input ⊕ Below N (d + 1) U → Spec.Algo (Spec.Input ⊕ Below N d (U × Context N)) Spec.Full Spec.Full
  | .inl x => .ask (.inl x) .done
  | .inr (.inl p) => .done (g p)
  | .inr (.inr b) => .ask (.inr b) .done

theorem keepBelow_result (d : Nat) (g : U × Plain N → Spec.Full) (G : Spec.Input ⊕ Below N d (U × Context N) → Spec.Full) :
    (fun q => (keepBelow d g q).result G) = Sum.elim (fun x => G (.inl x)) (Sum.elim g fun b => G (.inr b)) := by
  funext q
  rcases q with x | p | b <;> rfl

theorem keepBelow_own (d : Nat) (g : U × Plain N → Spec.Full) (G : Spec.Input ⊕ Below N d (U × Context N) → Spec.Full)
    (l : List (Spec.Input ⊕ Below N (d + 1) U)) : own (l.flatMap fun q => (keepBelow d g q).asked G) = own l := by
  induction l with
  | nil => rfl
  | cons q l ih =>
    rcases q with x | p | b
    · exact congrArg (· + 1) ih
    · exact ih
    · exact ih

theorem keepBelow_spent (d : Nat) (g : U × Plain N → Spec.Full) (G : Spec.Input ⊕ Below N d (U × Context N) → Spec.Full) (i : Nat)
    (l : List (Spec.Input ⊕ Below N (d + 1) U)) : spentAt i (l.flatMap fun q => (keepBelow d g q).asked G) = spentAt (i + 1) l := by
  induction l with
  | nil => rfl
  | cons q l ih =>
    rcases q with x | p | b
    · exact ih
    · exact ih.trans (Nat.zero_add _).symm
    · exact congrArg (costAt d b i + ·) ih

variable [Finite U]

/-- With random answers on the first level, the derived keys are random, and have nothing to do with the answers. -/
theorem prob_grafted (d : Nat) (P : (Spec.Input ⊕ Below N (d + 1) U → Spec.Full) → Prop) :
    prob (fun G : Spec.Input ⊕ (U × Request N) → Spec.Full => P fun q => (viaFirst d q).result G) =
      prob (fun w : (Comp × (U × Context N → Vector Byte 32)) × (U × Plain N → Spec.Full) => P (grafted d w.1.1 w.2 w.1.2)) := by
  let E : (Spec.Input ⊕ (U × Request N) → Spec.Full) ≃ (Comp × (U × Plain N → Spec.Full)) × (U × Plain N → Spec.Full) :=
    ⟨fun G => ((fun x => G (.inl x), fun p => G (.inr (p.1, (false, p.2)))), fun p => G (.inr (p.1, (true, p.2)))),
      fun w => Sum.elim w.1.1 fun r => if r.2.1 then w.2 (r.1, r.2.2) else w.1.2 (r.1, r.2.2),
      fun G => by funext q; rcases q with x | ⟨u, b, p⟩ <;> [rfl; (cases b <;> rfl)],
      fun w => rfl⟩
  have hi : Function.Injective fun c : U × Context N => ((c.1, ⟨(c.2.1, 0), c.2.2, Nat.two_pow_pos 58⟩) : U × Plain N) := by
    rintro ⟨u, c⟩ ⟨u', c'⟩ h
    simp only [Prod.mk.injEq, Subtype.mk.injEq] at h
    exact Prod.ext h.1 (Subtype.ext h.2.1)
  let E' : (Comp × (U × Context N → Vector Byte 32)) × (U × Plain N → Spec.Full) ≃
      (Comp × (U × Plain N → Spec.Full)) × (U × Context N → Vector Byte 32) :=
    ⟨fun w => ((w.1.1, w.2), w.1.2), fun w => ((w.1.1, w.2), w.1.2), fun _ => rfl, fun _ => rfl⟩
  have h1 := prob_congr E fun w => P (grafted d w.1.1 w.1.2 fun c => (keyHalf (w.2 (c.1, ⟨(c.2.1, 0), c.2.2, Nat.two_pow_pos 58⟩))).1)
  have h2 := prob_pull_beside (Ω := Comp × (U × Plain N → Spec.Full)) _ hi keyHalf fun w => P (grafted d w.1.1 w.1.2 w.2)
  have h3 := prob_congr E' fun w => P (grafted d w.1.1 w.1.2 w.2)
  simp only [viaFirst_result]
  exact h1.trans (h2.trans h3.symm)

end

theorem below_split {N d : Nat} {U : Type} (P : (Spec.Input ⊕ Below N (d + 1) U → Spec.Full) → Prop) :
    prob (fun w : (Spec.Input ⊕ Below N d (U × Context N) → Spec.Full) × (U × Plain N → Spec.Full) =>
      P (Sum.elim (fun x => w.1 (.inl x)) (Sum.elim w.2 fun b => w.1 (.inr b)))) = prob P := by
  let E : (Spec.Input ⊕ Below N d (U × Context N) → Spec.Full) × (U × Plain N → Spec.Full) ≃ (Spec.Input ⊕ Below N (d + 1) U → Spec.Full) :=
    ⟨fun w => Sum.elim (fun x => w.1 (.inl x)) (Sum.elim w.2 fun b => w.1 (.inr b)),
      fun G => (Sum.elim (fun x => G (.inl x)) fun b => G (.inr (.inr b)), fun p => G (.inr (.inl p))),
      fun w => by
        refine Prod.ext ?_ rfl
        funext q
        rcases q with x | b <;> rfl,
      fun G => by
        funext q
        rcases q with x | p | b <;> rfl⟩
  exact prob_congr E P

theorem tree_le {N : Nat} (hN : N < 2 ^ 64) (d : Nat) {U : Type} [Finite U] {α : Type} (A : Spec.Algo (Spec.Input ⊕ Below N d U) Spec.Full α)
    (P : α → Prop) (q : Nat) (s : Nat → Nat) (hq : ∀ G, own (A.asked G) ≤ q) (hs : ∀ i G, spentAt i (A.asked G) ≤ s i) (t : Nat)
    (ht : t = ∑ i ∈ Finset.range (d + 1), s i) :
    prob (fun w : Comp × (U → Vector Byte 32) => P (A.result (tree w.1 w.2))) ≤
      prob (fun G : Spec.Input ⊕ Below N d U → Spec.Full => P (A.result G)) + ((2 * q * t + t * (t - 1) : Nat) : ℚ) / 2 ^ 257 := by
  induction d generalizing U s t with
  | zero =>
    rw [Finset.sum_range_one] at ht
    have e : ∀ w : Comp × (U → Vector Byte 32), tree (N := N) (d := 0) w.1 w.2 = holders w.1 w.2 := by
      intro w
      funext q
      rcases q with x | r <;> rfl
    simp only [e, ht]
    exact users_le hN A P q (s 0) hq (hs 0)
  | succ d ih =>
    rw [Finset.sum_range_succ'] at ht
    have h1 := users_le hN (Interp.run (viaFirst d) A) P (q + ∑ i ∈ Finset.range (d + 1), s (i + 1)) (s 0)
      (fun G => by
        rw [Interp.asked]
        exact Nat.le_trans (viaFirst_directs d G _) (Nat.add_le_add (hq _) (Finset.sum_le_sum fun i _ => hs (i + 1) _)))
      (fun G => by
        rw [Interp.asked, viaFirst_helds]
        exact hs 0 _)
    simp only [Interp.result, viaFirst_holders] at h1
    rw [prob_grafted d fun W => P (A.result W)] at h1
    have h2 : ∀ g : U × Plain N → Spec.Full,
        prob (fun w : Comp × (U × Context N → Vector Byte 32) => P (A.result (grafted d w.1 g w.2))) ≤
        prob (fun G : Spec.Input ⊕ Below N d (U × Context N) → Spec.Full =>
          P (A.result (Sum.elim (fun x => G (.inl x)) (Sum.elim g fun b => G (.inr b))))) + _ := fun g => by
      have h := ih (Interp.run (keepBelow d g) A) (fun i => s (i + 1))
        (fun G => by
          rw [Interp.asked, keepBelow_own]
          exact hq _)
        (fun i G => by
          rw [Interp.asked, keepBelow_spent]
          exact hs (i + 1) _) _ rfl
      simp only [Interp.result, keepBelow_result] at h
      exact h
    have h3 := prob_prod_le (fun w : (Comp × (U × Context N → Vector Byte 32)) × (U × Plain N → Spec.Full) =>
        P (A.result (grafted d w.1.1 w.2 w.1.2)))
      (fun w : (Spec.Input ⊕ Below N d (U × Context N) → Spec.Full) × (U × Plain N → Spec.Full) =>
        P (A.result (Sum.elim (fun x => w.1 (.inl x)) (Sum.elim w.2 fun b => w.1 (.inr b))))) _ h2
    have h4 := h3.trans (add_le_add_left (le_of_eq (below_split fun W => P (A.result W))) _)
    refine le_trans h1 (le_trans (add_le_add_left h4 _) ?_)
    rw [add_assoc]
    refine add_le_add_right ?_ _
    rw [← add_div]
    refine div_le_div_of_nonneg_right ?_ (by positivity)
    generalize ∑ i ∈ Finset.range (d + 1), s (i + 1) = t' at *
    rw [← Nat.cast_add, Nat.cast_le, ht]
    generalize s 0 = a
    cases a with
    | zero => simp
    | succ a =>
      cases t' with
      | zero => simp
      | succ b =>
        simp only [Nat.add_sub_cancel]
        rw [show b + 1 + (a + 1) - 1 = b + (a + 1) from by omega]
        refine Nat.le_of_eq ?_
        ring

/-! ## the property -/

/-- a request to the key that is derived from the key of `u` for the first context, then for the second, and so on, on the last level -/
def leaf {N : Nat} : (p : List (Context N)) → {U : Type} → U → Request N → Below N p.length U
  | [], _, u, r => (u, r)
  | c :: p, _, u, r => .inr (leaf p (u, c) r)

/-- the same on a level with `e + 1` levels below it -/
def inner {N : Nat} (e : Nat) : (p : List (Context N)) → {U : Type} → U → Plain N → Below N (e + 1 + p.length) U
  | [], _, u, x => .inl (u, x)
  | c :: p, _, u, x => .inr (inner e p (u, c) x)

/-- the key at the end of a path of contexts -/
def keyAt {N : Nat} (F : Comp) (key : Vector Byte 32) (p : List (Context N)) : Vector Byte 32 :=
  p.foldl (fun key c => hashWith F (.deriveKey key) c.1) key

/-- C88.  The answers are blocks of output with the keys at the ends of the paths. -/
theorem C88_leaf {N : Nat} {U : Type} (F : Comp) (k : U → Vector Byte 32) (u : U) (p : List (Context N)) (r : Request N) :
    tree F k (.inr (leaf p u r)) = wordsWith F (r.mode (keyAt F (k u) p)) r.input r.block := by
  show answers F _ k (leaf p u r) = _
  induction p generalizing U with
  | nil => rfl
  | cons c p ih => exact ih (derived F k) (u, c)

/-- C88.  So are those on the levels before the last. -/
theorem C88_inner {N : Nat} {U : Type} (F : Comp) (k : U → Vector Byte 32) (u : U) (e : Nat) (p : List (Context N)) (x : Plain N) :
    tree F k (.inr (inner e p u x)) = wordsWith F (.keyedHash (keyAt F (k u) p)) x.1.1 x.1.2 := by
  show answers F _ k (inner e p u x) = _
  induction p generalizing U with
  | nil => rfl
  | cons c p ih => exact ih (derived F k) (u, c)

/-- C88.  All requests are like this. -/
theorem C88_all {N : Nat} (d : Nat) {U : Type} (b : Below N d U) :
    (∃ u p r, ∃ h : p.length = d, h ▸ leaf p u r = b) ∨ (∃ u e p x, ∃ h : e + 1 + p.length = d, h ▸ inner e p u x = b) := by
  induction d generalizing U with
  | zero => exact .inl ⟨b.1, [], b.2, rfl, rfl⟩
  | succ d ih =>
    rcases b with ⟨u, x⟩ | b
    · exact .inr ⟨u, d, [], x, rfl, rfl⟩
    · rcases ih b with ⟨⟨u, c⟩, p, r, h, e⟩ | ⟨⟨u, c⟩, e, p, x, h, e'⟩
      · subst h
        exact .inl ⟨u, c :: p, r, rfl, congrArg Sum.inr e⟩
      · subst h
        exact .inr ⟨u, e, c :: p, x, rfl, congrArg Sum.inr e'⟩

theorem hash_real (m : Spec.Mode) (x : Bytes) : hashWith realComp m x = Spec.hash m x := by
  rw [hashWith, (Gen.hash_asks realComp m x).1, low_real, (Gen.root_compress m x).1]
  have hr : { Spec.root m x with offset := BitVec.ofNat 64 (64 * 0) } = Spec.root m x := by
    rw [show BitVec.ofNat 64 (64 * 0) = (Spec.root m x).offset from (root_offset m x).symm]
  refine Vector.toList_inj.1 ?_
  rw [hash_toList, slice_block m x 0 32 (by decide), Spec.streamBlock, outBytes_take, hr]

/-- C88.  What the library does: `derive_key` again and again, and then `keyed_hash` or `derive_key`. -/
theorem C88_code {N : Nat} (cfg : Config) (hv : cfg.Valid) (key : Vector Byte 32) (p : List (Context N)) (x : Bytes) (hN : cfg.Fits N)
    (hf : cfg.Fits x.length) :
    (p.foldlM (fun key c => Model.derive_key cfg key c.1) key >>= fun key => Model.keyed_hash cfg key x) =
      .ok (hashWith realComp (.keyedHash (keyAt realComp key p)) x) ∧
    (p.foldlM (fun key c => Model.derive_key cfg key c.1) key >>= fun key => Model.derive_key cfg key x) =
      .ok (hashWith realComp (.deriveKey (keyAt realComp key p)) x) := by
  have hk : p.foldlM (fun key c => Model.derive_key cfg key c.1) key = .ok (keyAt realComp key p) := by
    induction p generalizing key with
    | nil => rfl
    | cons c p ih =>
      rw [List.foldlM_cons, (C01_hash_keyed_derive cfg hv key c.1 (Nat.lt_of_le_of_lt c.2 hN)).2.2, ← hash_real]
      exact ih _
  obtain ⟨-, h1, h2⟩ := C01_hash_keyed_derive cfg hv (keyAt realComp key p) x hf
  rw [hk, hash_real, hash_real, ← h1, ← h2]
  exact ⟨rfl, rfl⟩

variable {N d : Nat} {U : Type} [Finite U]

/-- C88.  To an attacker, the tree of keys that come from random keys by `derive_key` is like a separate random function at each place of
the tree.  The attacker asks for `q` compressions; for the requests, `s i` are performed with keys of level `i`, with the derivation of
all keys on the way to the place of each request. -/
theorem C88_tree (hN : N < 2 ^ 64) {α : Type} (A : Spec.Algo (Spec.Input ⊕ Below N d U) Spec.Full α) (P : α → Prop) (q : Nat) (s : Nat → Nat)
    (hq : ∀ G, own (A.asked G) ≤ q) (hs : ∀ i G, spentAt i (A.asked G) ≤ s i) (t : Nat) (ht : t = ∑ i ∈ Finset.range (d + 1), s i) :
    |prob (fun w : Comp × (U → Vector Byte 32) => P (A.result (tree w.1 w.2))) -
      prob (fun G : Spec.Input ⊕ Below N d U → Spec.Full => P (A.result G))| ≤ ((2 * q * t + t * (t - 1) : Nat) : ℚ) / 2 ^ 257 := by
  have h1 := tree_le hN d A P q s hq hs t ht
  have h2 := tree_le hN d A (fun a => ¬ P a) q s hq hs t ht
  rw [prob_not, prob_not (fun G : Spec.Input ⊕ Below N d U → Spec.Full => P (A.result G))] at h2
  generalize ((2 * q * t + t * (t - 1) : Nat) : ℚ) / 2 ^ 257 = e at *
  rw [abs_le]
  constructor <;> linarith

/-- C88.  An attacker names a request, at any place of the tree, and 32 bytes.  The probability that they are the first half of the answer,
although the attacker has not made this request, is hardly more than 1 / 2^256. -/
theorem C88_mac (hN : N < 2 ^ 64) (A : Spec.Algo (Spec.Input ⊕ Below N d U) Spec.Full (Below N d U × Vector Byte 32)) (q : Nat) (s : Nat → Nat)
    (hq : ∀ G, own (A.asked G) ≤ q) (hs : ∀ i G, spentAt i (A.asked G) + costAt d (A.result G).1 i ≤ s i) (t : Nat)
    (ht : t = ∑ i ∈ Finset.range (d + 1), s i) :
    prob (fun w : Comp × (U → Vector Byte 32) => .inr (A.result (tree w.1 w.2)).1 ∉ A.asked (tree w.1 w.2) ∧
      Spec.cvBytes (tree w.1 w.2 (.inr (A.result (tree w.1 w.2)).1)).1 = (A.result (tree w.1 w.2)).2) ≤
    1 / 2 ^ 256 + ((2 * q * t + t * (t - 1) : Nat) : ℚ) / 2 ^ 257 := by
  let B : Spec.Algo (Spec.Input ⊕ Below N d U) Spec.Full Prop := logged A >>= fun p =>
    .ask (.inr p.1.1) fun y => .done (.inr p.1.1 ∉ p.2 ∧ Spec.cvBytes y.1 = p.1.2)
  have hB : ∀ G, B.result G = (.inr (A.result G).1 ∉ A.asked G ∧ Spec.cvBytes (G (.inr (A.result G).1)).1 = (A.result G).2) ∧
      B.asked G = A.asked G ++ [.inr (A.result G).1] := by
    intro G
    obtain ⟨e1, e2⟩ := logged_eq G A
    simp only [B]
    rw [Gen.result_bind, Gen.asked_bind, e1, e2]
    exact ⟨rfl, rfl⟩
  have h := tree_le hN d B id q s
    (fun G => by
      rw [(hB G).2, own, List.filterMap_append]
      simp only [List.filterMap_cons, Sum.getLeft?, List.filterMap_nil, List.append_nil]
      exact hq G)
    (fun i G => by
      rw [(hB G).2, spentAt, List.filterMap_append]
      simp only [List.filterMap_cons, Sum.getRight?, List.filterMap_nil, List.map_append, List.sum_append, List.map_cons, List.map_nil,
        List.sum_cons, List.sum_nil, Nat.add_zero]
      exact hs i G) t ht
  simp only [id, fun G => (hB G).1] at h
  refine le_trans h (add_le_add_left ?_ _)
  have hk : ∀ (y : Spec.Full) v, Spec.cvBytes y.1 = v ↔ y.1 = words_from_key_bytes v := by
    intro y v
    rw [← bytes_from_state_words_eq]
    constructor
    · rintro rfl
      rw [C34_words_roundtrip]
    · intro e
      rw [e, C34_key_roundtrip]
  simp only [hk]
  have hc := count_guess (fun y : Spec.Full => y.1) (fun y z => (z, y.2)) (fun _ _ => rfl) (fun _ => rfl) (fun _ _ _ => rfl)
    (A >>= fun a => .done ((.inr a.1 : Spec.Input ⊕ Below N d U), words_from_key_bytes a.2))
  simp only [Gen.result_bind, Gen.asked_bind, Spec.Algo.result, Spec.Algo.asked, List.append_nil] at hc
  have hle : Nat.card { G : Spec.Input ⊕ Below N d U → Spec.Full // .inr (A.result G).1 ∉ A.asked G } ≤
      Nat.card (Spec.Input ⊕ Below N d U → Spec.Full) := Nat.card_le_card_of_injective _ Subtype.val_injective
  rw [← hc, card_words] at hle
  have p2 : (0 : ℚ) < (Nat.card (Spec.Input ⊕ Below N d U → Spec.Full) : ℚ) := by exact_mod_cast Nat.card_pos
  rw [prob, div_le_div_iff₀ p2 (by positivity), one_mul]
  exact_mod_cast hle

/-! ## examples -/

/-- two contexts -/
def exMail : Context 5000 := ⟨[109, 97, 105, 108], by decide⟩
def exDisk : Context 5000 := ⟨[100, 105, 115, 107], by decide⟩

/-- An attacker against two holders and two levels below their keys: requests `keyed_hash` of the context with the first key, then the hash
of one byte with the key for `exMail`, `exMail`, makes a compression from the answers, and guesses that the key for `exMail`, `exDisk`
gives the same hash. -/
def exPaths : Spec.Algo (Spec.Input ⊕ Below 5000 2 (Fin 2)) Spec.Full (Below 5000 2 (Fin 2) × Vector Byte 32) :=
  .ask (.inr (inner 1 [] 0 (hashRequest (false, exMail)).2)) fun y =>
  .ask (.inr (leaf [exMail, exMail] 0 (hashRequest (false, ⟨[1], by decide⟩)))) fun z =>
  .ask (.inl (Spec.parent y.1 0 z.1 z.2)) fun _ =>
  .done (leaf [exMail, exDisk] 0 (hashRequest (false, ⟨[1], by decide⟩)), Spec.cvBytes z.1)

theorem exPaths_cost (i : Nat) (G : Spec.Input ⊕ Below 5000 2 (Fin 2) → Spec.Full) :
    spentAt i (exPaths.asked G) + costAt 2 (exPaths.result G).1 i ≤ ([3, 2, 2].getD i 0) := by
  match i with
  | 0 =>
    show Spec.compressions 4 + (Spec.compressions 4 + 0) + Spec.compressions 4 ≤ 3
    decide
  | 1 =>
    show 0 + (Spec.compressions 4 + 0) + Spec.compressions 4 ≤ 2
    decide
  | 2 =>
    show 0 + (Spec.compressions 1 + 0) + Spec.compressions 1 ≤ 2
    decide
  | _ + 3 => exact Nat.le_refl 0

/-- this is in the scope of `C88_mac`: keys for different contexts do not give the same hash -/
example : prob (fun w : Comp × (Fin 2 → Vector Byte 32) =>
      hashWith w.1 (.keyedHash (keyAt w.1 (w.2 0) [exMail, exMail])) [1] =
      hashWith w.1 (.keyedHash (keyAt w.1 (w.2 0) [exMail, exDisk])) [1]) ≤ 1 / 2 ^ 256 + 56 / 2 ^ 257 := by
  have h := C88_mac (by decide) exPaths 1 (fun i => [3, 2, 2].getD i 0) (fun _ => Nat.le_refl 1) exPaths_cost 7 rfl
  have hnew : ∀ G, .inr (exPaths.result G).1 ∉ exPaths.asked G := by
    intro G hm
    rcases List.mem_cons.1 hm with e | hm
    · cases e
    rcases List.mem_cons.1 hm with e | hm
    · have e : (leaf [exMail, exDisk] (0 : Fin 2) (hashRequest (false, ⟨[1], by decide⟩)) : Below 5000 2 (Fin 2)) =
          leaf [exMail, exMail] 0 (hashRequest (false, ⟨[1], by decide⟩)) := Sum.inr.inj e
      have e : exDisk = exMail := congrArg (fun x => (x : ((Fin 2 × Context 5000) × Context 5000) × Request 5000).1.2) (Sum.inr.inj (Sum.inr.inj e))
      exact absurd e (by decide)
    rcases List.mem_cons.1 hm with e | hm
    · cases e
    · cases hm
  simp only [hnew, not_false_eq_true, true_and] at h
  have hv : ∀ w : Comp × (Fin 2 → Vector Byte 32),
      (Spec.cvBytes (tree w.1 w.2 (.inr (exPaths.result (tree w.1 w.2)).1)).1 = (exPaths.result (tree w.1 w.2)).2) ↔
      hashWith w.1 (.keyedHash (keyAt w.1 (w.2 0) [exMail, exMail])) [1] =
      hashWith w.1 (.keyedHash (keyAt w.1 (w.2 0) [exMail, exDisk])) [1] := by
    intro w
    have e1 := congrArg (fun y : Spec.Full => Spec.cvBytes y.1) (C88_leaf w.1 w.2 0 [exMail, exDisk] (hashRequest (false, ⟨[1], by decide⟩)))
    have e2 := congrArg (fun y : Spec.Full => Spec.cvBytes y.1) (C88_leaf w.1 w.2 0 [exMail, exMail] (hashRequest (false, ⟨[1], by decide⟩)))
    rw [(C82_answer w.1 _ [1] 0).2, (C82_answer w.1 _ [1] 0).2]
    exact ⟨fun e => (e1.symm.trans (e.trans e2)).symm, fun e => e1.trans (e.symm.trans e2.symm)⟩
  simp only [hv] at h
  norm_num at h ⊢
  exact h

/-- A million holders, ten levels, 2^80 compressions of the attacker and 2^80 with the keys of each level: differences below 1 / 2^90. -/
example {N : Nat} (hN : N < 2 ^ 64) {α : Type} (A : Spec.Algo (Spec.Input ⊕ Below N 9 (Fin (10 ^ 6))) Spec.Full α) (P : α → Prop)
    (hq : ∀ G, own (A.asked G) ≤ 2 ^ 80) (hs : ∀ i G, spentAt i (A.asked G) ≤ 2 ^ 80) :
    |prob (fun w : Comp × (Fin (10 ^ 6) → Vector Byte 32) => P (A.result (tree w.1 w.2))) -
      prob (fun G : Spec.Input ⊕ Below N 9 (Fin (10 ^ 6)) → Spec.Full => P (A.result G))| ≤ 1 / 2 ^ 90 := by
  refine le_trans (C88_tree hN A P _ (fun _ => 2 ^ 80) hq hs (10 * 2 ^ 80) (by rw [Finset.sum_const, Finset.card_range]; rfl)) ?_
  norm_num

end Baokeshed.Props
