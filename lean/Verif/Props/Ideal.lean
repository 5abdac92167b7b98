import Verif.Proofs.Oracle
import Verif.Props.CTrace
import Verif.Props.Cost

/-!
# C81: an attacker who treats the compression function as a black box

`Spec.hashAsk` (SpecOracle.lean) is the way the library hashes, with questions in place of compressions.  An attacker is any
algorithm that asks questions.  The theorems count, among all functions from compression inputs to chaining values, those for
which the attacker succeeds.
-/

set_option linter.unusedVariables false

namespace Baokeshed.Props
open Baokeshed.Model Baokeshed.Proofs

attribute [local irreducible] Spec.compress Spec.outBytes Spec.cvBytes Spec.pad

/-- a function in the place of the compression function -/
abbrev Comp := Spec.Input → Spec.Full

/-- the compression function -/
def realComp : Comp := fun a => (Spec.outLow a, Spec.outHigh a)

/-- the hash, with the function `F` in the place of the compression function -/
def hashWith (F : Comp) (m : Spec.Mode) (x : Bytes) : Vector Byte 32 := (Spec.hashAsk m x).result F

/-- block `k` of the output, with the function `F` in the place of the compression function -/
def blockWith (F : Comp) (m : Spec.Mode) (x : Bytes) (k : Nat) : Vector Byte 64 := (Spec.blockAsk m x k).result F

theorem low_real : Gen.low realComp = Spec.compress := by
  unfold Spec.compress
  rfl

/-- C81.  With the compression function itself, the questions are the compressions that the library and the C code perform, and
the result is the hash that they return. -/
theorem C81_code (m : Spec.Mode) (w : How) (hw : w.Ok) :
    (w.digest m).res = .ok (hashWith realComp m w.bytes).toList ∧
    (w.digest m).log.Perm ((Spec.hashAsk m w.bytes).asked realComp) := by
  obtain ⟨e, hp⟩ := how_eq m w hw
  obtain ⟨h1, h2⟩ := Gen.hash_asks realComp m w.bytes
  obtain ⟨h3, h4⟩ := Gen.root_compress m w.bytes
  rw [hashWith, h1, h2, low_real, h3, h4]
  refine ⟨e.trans ?_, hp⟩
  have hr : { Spec.root m w.bytes with offset := BitVec.ofNat 64 (64 * 0) } = Spec.root m w.bytes := by
    rw [show BitVec.ofNat 64 (64 * 0) = (Spec.root m w.bytes).offset from (root_offset m w.bytes).symm]
  rw [hash_toList, slice_block m w.bytes 0 32 (by decide), Spec.streamBlock, outBytes_take, hr]

/-- C81.  Likewise for the blocks of extended output, which reads return one after the other (C06). -/
theorem C81_stream (m : Spec.Mode) (x : Bytes) (k : Nat) : blockWith realComp m x k = Spec.streamBlock m x k := by
  rw [blockWith, (Gen.block_asks realComp m x k).1, low_real, Gen.rootAt, (Gen.root_compress m x).1, Spec.streamBlock]
  apply Vector.toList_inj.1
  rw [Vector.toList_append]
  unfold Spec.outBytes Spec.cvBytes realComp
  simp [Spec.wordBytes]

/-- C81.  The number of questions depends on the length of the input only. -/
theorem C81_questions (F : Comp) (m : Spec.Mode) (x : Bytes) :
    ((Spec.hashAsk m x).asked F).length = max 1 ((x.length + 63) / 64) + (max 1 ((x.length + 2047) / 2048) - 1) := by
  rw [(Gen.hash_asks F m x).2, List.length_append, G.inner, Gen.below_length_eq _ Spec.compress]
  have := calls_length m x
  rw [Spec.calls, List.length_append, ← (Gen.root_compress m x).2] at this
  exact this

/-! ## finite types -/

def wordsEquiv : Vector Word 8 ≃ (Fin 8 → Word) where
  toFun v i := v[i.val]
  invFun f := Vector.ofFn f
  left_inv v := by apply Vector.ext; intro i hi; simp
  right_inv f := by funext i; simp

def bitsEquiv (n : Nat) : BitVec n ≃ Fin (2 ^ n) where
  toFun := BitVec.toFin
  invFun := BitVec.ofFin
  left_inv _ := rfl
  right_inv _ := rfl

instance (n : Nat) : Finite (BitVec n) := Finite.of_equiv _ (bitsEquiv n).symm

instance : Finite (Vector Word 8) := Finite.of_equiv _ wordsEquiv.symm

instance : Finite (Vector Byte 64) :=
  Finite.of_injective (β := Fin 64 → Byte) (fun v i => v[i.val]) fun a b h => Vector.ext fun i hi => congrFun h ⟨i, hi⟩

instance : Finite Spec.Input :=
  Finite.of_injective (β := Vector Word 8 × Vector Byte 64 × Byte × U64 × Byte) (fun a => (a.cv, a.block, a.blockLen, a.offset, a.flags))
    fun a b h => by
      cases a; cases b
      simp only [Prod.mk.injEq] at h
      simp only [Spec.Input.mk.injEq]
      exact h

theorem card_words : Nat.card (Vector Word 8) = 2 ^ 256 := by
  rw [Nat.card_congr wordsEquiv, Nat.card_fun, Nat.card_congr (bitsEquiv 32), Nat.card_fin, Nat.card_fin, ← Nat.pow_mul]

theorem card_full : Nat.card Spec.Full = 2 ^ 256 * 2 ^ 256 := by
  rw [Nat.card_prod, card_words]

/-! ## attackers -/

open Classical in
/-- answers whose first half is in a given set -/
theorem card_low (S : Finset (Vector Word 8)) : ∃ B : Finset Spec.Full, B.card = S.card * 2 ^ 256 ∧ ∀ y : Spec.Full, y.1 ∈ S → y ∈ B := by
  have := Fintype.ofFinite (Vector Word 8)
  refine ⟨S ×ˢ Finset.univ, ?_, fun y hy => Finset.mem_product.2 ⟨hy, Finset.mem_univ _⟩⟩
  rw [Finset.card_product, Finset.card_univ, ← Nat.card_eq_fintype_card, card_words]

/-- C81.  An attacker asks questions and then names two inputs with their modes and keys.  If the attacker's questions and those
for hashing the two inputs are at most `q`, the two are different and have the same hash for at most `q (q - 1) / 2` of every
2^256 functions. -/
theorem C81_collision (A : Spec.Asking ((Spec.Mode × Bytes) × (Spec.Mode × Bytes))) (q : Nat)
    (hq : ∀ F, (A.asked F).length + ((Spec.hashAsk (A.result F).1.1 (A.result F).1.2).asked F).length +
      ((Spec.hashAsk (A.result F).2.1 (A.result F).2.2).asked F).length ≤ q) :
    2 * (Nat.card { F : Comp // (A.result F).1 ≠ (A.result F).2 ∧
      hashWith F (A.result F).1.1 (A.result F).1.2 = hashWith F (A.result F).2.1 (A.result F).2.2 } * 2 ^ 256) ≤
    q * (q - 1) * Nat.card Comp := by
  classical
  let B : Spec.Asking (Vector Byte 32) := A >>= fun p => Spec.hashAsk p.1.1 p.1.2 >>= fun _ => Spec.hashAsk p.2.1 p.2.2
  have hB : ∀ F, B.asked F = A.asked F ++ ((Spec.hashAsk (A.result F).1.1 (A.result F).1.2).asked F ++
      (Spec.hashAsk (A.result F).2.1 (A.result F).2.2).asked F) := by
    intro F
    simp only [B, Gen.asked_bind]
  have h := count_all (fun (F : Comp) S => ∃ a ∈ S, ∃ b ∈ S, a ≠ b ∧ (F a).1 = (F b).1) (fun i => i * 2 ^ 256)
    (fun F F' S h => by
      rintro ⟨a, ha, b, hb, hne, e⟩
      exact ⟨a, ha, b, hb, hne, by rw [← h a ha, ← h b hb]; exact e⟩)
    (fun F => by rintro ⟨a, ha, -⟩; exact absurd ha (Finset.notMem_empty a))
    (fun F S x hx hF => by
      obtain ⟨V, hV, hm⟩ := card_low (S.image fun a => (F a).1)
      refine ⟨V, by rw [hV]; exact Nat.mul_le_mul_right _ Finset.card_image_le, ?_⟩
      rintro y ⟨a, ha, b, hb, hne, e⟩
      apply hm
      rw [Finset.mem_image]
      rcases Finset.mem_insert.1 ha with rfl | ha' <;> rcases Finset.mem_insert.1 hb with rfl | hb'
      · exact absurd rfl hne
      · rw [Function.update_self, Function.update_of_ne hne.symm] at e
        exact ⟨b, hb', e.symm⟩
      · rw [Function.update_self, Function.update_of_ne hne] at e
        exact ⟨a, ha', e⟩
      · have hax : a ≠ x := fun h => hx (h ▸ ha')
        have hbx : b ≠ x := fun h => hx (h ▸ hb')
        rw [Function.update_of_ne hax, Function.update_of_ne hbx] at e
        exact absurd ⟨a, ha', b, hb', hne, e⟩ hF)
    B q (fun F => by rw [hB, List.length_append, List.length_append]; have := hq F; omega)
    (fun F => (A.result F).1 ≠ (A.result F).2 ∧
      hashWith F (A.result F).1.1 (A.result F).1.2 = hashWith F (A.result F).2.1 (A.result F).2.2)
    (fun F hF => by
      rcases Gen.hash_inj _ _ _ _ hF.2 with ⟨h1, h2⟩ | ⟨a, ha, b, hb, hne, e⟩
      · exact absurd (Prod.ext h1 h2) hF.1
      · refine ⟨a, ?_, b, ?_, hne, e⟩ <;> rw [List.mem_toFinset, hB] <;> simp [ha, hb])
  rw [card_full, ← Finset.sum_mul, ← Nat.mul_assoc, Nat.mul_right_comm (∑ i ∈ Finset.range q, i)] at h
  have h := Nat.le_of_mul_le_mul_right h (by decide)
  have hs := Finset.sum_range_id_mul_two q
  calc 2 * (_ * 2 ^ 256) ≤ 2 * ((∑ i ∈ Finset.range q, i) * Nat.card Comp) := Nat.mul_le_mul_left 2 h
    _ = q * (q - 1) * Nat.card Comp := by rw [← hs, ← Nat.mul_assoc, Nat.mul_comm 2]

/-- C81.  An attacker who wants an input, in any mode and with any key, whose hash is a given value finds one for at most `q` of
every 2^256 functions. -/
theorem C81_preimage (d : Vector Byte 32) (A : Spec.Asking (Spec.Mode × Bytes)) (q : Nat)
    (hq : ∀ F, (A.asked F).length + ((Spec.hashAsk (A.result F).1 (A.result F).2).asked F).length ≤ q) :
    Nat.card { F : Comp // hashWith F (A.result F).1 (A.result F).2 = d } * 2 ^ 256 ≤ q * Nat.card Comp := by
  classical
  let B : Spec.Asking (Vector Byte 32) := A >>= fun p => Spec.hashAsk p.1 p.2
  have hB : ∀ F, B.asked F = A.asked F ++ (Spec.hashAsk (A.result F).1 (A.result F).2).asked F := by
    intro F
    simp only [B, Gen.asked_bind]
  have h := count_all (fun (F : Comp) S => ∃ a ∈ S, Spec.cvBytes (F a).1 = d) (fun _ => 2 ^ 256)
    (fun F F' S h => by
      rintro ⟨a, ha, e⟩
      exact ⟨a, ha, by rw [← h a ha]; exact e⟩)
    (fun F => by rintro ⟨a, ha, -⟩; exact absurd ha (Finset.notMem_empty a))
    (fun F S x hx hF => by
      obtain ⟨V, hV, hm⟩ := card_low {words_from_key_bytes d}
      refine ⟨V, by rw [hV, Finset.card_singleton, Nat.one_mul], ?_⟩
      rintro y ⟨a, ha, e⟩
      apply hm
      rw [Finset.mem_singleton]
      rcases Finset.mem_insert.1 ha with rfl | ha'
      · rw [Function.update_self] at e
        rw [← e, ← bytes_from_state_words_eq, C34_words_roundtrip]
      · have hax : a ≠ x := fun h => hx (h ▸ ha')
        rw [Function.update_of_ne hax] at e
        exact absurd ⟨a, ha', e⟩ hF)
    B q (fun F => by rw [hB, List.length_append]; exact hq F)
    (fun F => hashWith F (A.result F).1 (A.result F).2 = d)
    (fun F hF => by
      obtain ⟨h1, h2⟩ := Gen.hash_asks F (A.result F).1 (A.result F).2
      refine ⟨G.root (Gen.low F) (A.result F).1 (A.result F).2, ?_, ?_⟩
      · rw [List.mem_toFinset, hB, h2]; simp
      · exact h1.symm.trans hF)
  rw [card_full, Finset.sum_const, Finset.card_range, smul_eq_mul, ← Nat.mul_assoc, Nat.mul_right_comm q] at h
  exact Nat.le_of_mul_le_mul_right h (by decide)

/-- the last question for block `k` of the output: the one whose answer is the block; the hash is the first half of block 0 -/
def lastAsked (F : Comp) (m : Spec.Mode) (x : Bytes) (k : Nat) : Option Spec.Input := ((Spec.blockAsk m x k).asked F).getLast?

theorem lastAsked_eq (F : Comp) (m : Spec.Mode) (x : Bytes) (k : Nat) : lastAsked F m x k = some (Gen.rootAt (Gen.low F) m x k) := by
  rw [lastAsked, (Gen.block_asks F m x k).2, List.getLast?_concat]

/-- an attacker, followed by the questions for the root node -/
theorem attack_root {α Z : Type} (A : Spec.Asking α) (m : α → Spec.Mode) (x : α → Bytes) (k : α → Nat) (z : α → Z) :
    ∃ B : Spec.Asking (Spec.Input × Z), ∀ F,
      B.result F = (Gen.rootAt (Gen.low F) (m (A.result F)) (x (A.result F)) (k (A.result F)), z (A.result F)) ∧
      ((B.result F).1 ∉ B.asked F ↔
        ∀ a ∈ A.asked F, lastAsked F (m (A.result F)) (x (A.result F)) (k (A.result F)) ≠ some a) := by
  let B : Spec.Asking (Spec.Input × Z) := A >>= fun p =>
    Spec.rootAsk (m p) (x p) >>= fun n => pure ({ n with offset := BitVec.ofNat 64 (64 * k p) }, z p)
  refine ⟨B, fun F => ?_⟩
  have hr : B.result F = (Gen.rootAt (Gen.low F) (m (A.result F)) (x (A.result F)) (k (A.result F)), z (A.result F)) := by
    simp only [B, Gen.result_bind]
    rw [(Gen.root_asks F _ _).1]
    rfl
  have ha : B.asked F = A.asked F ++ G.inner (Gen.low F) (m (A.result F)) (x (A.result F)) := by
    simp only [B, Gen.asked_bind]
    rw [(Gen.root_asks F _ _).2]
    exact congrArg _ (List.append_nil _)
  refine ⟨hr, ?_⟩
  rw [hr, ha, List.mem_append, lastAsked_eq]
  constructor
  · intro h a h1 h2
    exact h (Or.inl ((Option.some.inj h2) ▸ h1))
  · rintro h (h1 | h1)
    · exact h _ h1 rfl
    · exact Gen.root_new _ _ _ _ h1

/-- C81.  An attacker names an input, with mode and key, and a value.  Among the functions for which the attacker has not asked
the last question for the hash of this input, the value is the hash for exactly one of every 2^256. -/
theorem C81_predict (A : Spec.Asking (Spec.Mode × Bytes × Vector Byte 32)) :
    Nat.card { F : Comp // (∀ a ∈ A.asked F, lastAsked F (A.result F).1 (A.result F).2.1 0 ≠ some a) ∧
      hashWith F (A.result F).1 (A.result F).2.1 = (A.result F).2.2 } * 2 ^ 256 =
    Nat.card { F : Comp // ∀ a ∈ A.asked F, lastAsked F (A.result F).1 (A.result F).2.1 0 ≠ some a } := by
  obtain ⟨B, hB⟩ := attack_root A (fun p => p.1) (fun p => p.2.1) (fun _ => 0) (fun p => words_from_key_bytes p.2.2)
  have hval : ∀ F, (F (B.result F).1).1 = (B.result F).2 ↔ hashWith F (A.result F).1 (A.result F).2.1 = (A.result F).2.2 := by
    intro F
    rw [(hB F).1, hashWith, (Gen.hash_asks F _ _).1, Gen.root_at_zero]
    dsimp only
    constructor
    · intro h
      rw [Gen.low, h, ← bytes_from_state_words_eq, C34_key_roundtrip]
    · intro h
      rw [← h, ← bytes_from_state_words_eq, C34_words_roundtrip]
      rfl
  have h := count_guess (fun y : Spec.Full => y.1) (fun y z => (z, y.2)) (fun _ _ => rfl) (fun _ => rfl) (fun _ _ _ => rfl) B
  rw [card_words] at h
  simp only [fun F => (hB F).2, hval] at h
  exact h

/-- C81.  Likewise for a block of the extended output, all of its 64 bytes: the attacker may have asked for every other block. -/
theorem C81_predict_block (A : Spec.Asking (Spec.Mode × Bytes × Nat × Vector Byte 64)) :
    Nat.card { F : Comp // (∀ a ∈ A.asked F, lastAsked F (A.result F).1 (A.result F).2.1 (A.result F).2.2.1 ≠ some a) ∧
      blockWith F (A.result F).1 (A.result F).2.1 (A.result F).2.2.1 = (A.result F).2.2.2 } * 2 ^ 512 =
    Nat.card { F : Comp // ∀ a ∈ A.asked F, lastAsked F (A.result F).1 (A.result F).2.1 (A.result F).2.2.1 ≠ some a } := by
  let parts : Vector Byte 64 → Spec.Full := fun v =>
    (words_from_key_bytes (Vector.ofFn fun i : Fin 32 => v[i.val]), words_from_key_bytes (Vector.ofFn fun i : Fin 32 => v[32 + i.val]))
  obtain ⟨B, hB⟩ := attack_root A (fun p => p.1) (fun p => p.2.1) (fun p => p.2.2.1) (fun p => parts p.2.2.2)
  have hparts : ∀ (y : Spec.Full) (v : Vector Byte 64), y = parts v ↔ Spec.cvBytes y.1 ++ Spec.cvBytes y.2 = v := by
    intro y v
    constructor
    · rintro rfl
      dsimp only [parts]
      rw [← bytes_from_state_words_eq, ← bytes_from_state_words_eq, C34_key_roundtrip, C34_key_roundtrip]
      apply Vector.ext
      intro i hi
      rw [Vector.getElem_append]
      split
      · rw [Vector.getElem_ofFn]
      · rw [Vector.getElem_ofFn]
        congr 1
        dsimp only
        omega
    · rintro rfl
      have e1 : (Vector.ofFn fun i : Fin 32 => (Spec.cvBytes y.1 ++ Spec.cvBytes y.2)[i.val]) = Spec.cvBytes y.1 := by
        apply Vector.ext
        intro i hi
        rw [Vector.getElem_ofFn, Vector.getElem_append_left]
      have e2 : (Vector.ofFn fun i : Fin 32 => (Spec.cvBytes y.1 ++ Spec.cvBytes y.2)[32 + i.val]) = Spec.cvBytes y.2 := by
        apply Vector.ext
        intro i hi
        rw [Vector.getElem_ofFn, Vector.getElem_append_right (by omega) (by simp)]
        simp
      dsimp only [parts]
      rw [e1, e2, ← bytes_from_state_words_eq, ← bytes_from_state_words_eq, C34_words_roundtrip, C34_words_roundtrip]
  have hval : ∀ F, F (B.result F).1 = (B.result F).2 ↔
      blockWith F (A.result F).1 (A.result F).2.1 (A.result F).2.2.1 = (A.result F).2.2.2 := by
    intro F
    rw [(hB F).1, blockWith, (Gen.block_asks F _ _ _).1]
    exact hparts _ _
  have h := count_guess (fun y : Spec.Full => y) (fun y z => z) (fun _ _ => rfl) (fun _ => rfl) (fun _ _ _ => rfl) B
  rw [card_full, ← Nat.pow_add] at h
  simp only [fun F => (hB F).2, hval] at h
  exact h

/-- C81.  Every value is the hash of a given input for exactly one of every 2^256 functions. -/
theorem C81_uniform (m : Spec.Mode) (x : Bytes) (d : Vector Byte 32) :
    Nat.card { F : Comp // hashWith F m x = d } * 2 ^ 256 = Nat.card Comp := by
  have h := C81_predict (.done (m, x, d))
  simp only [Spec.Algo.result, Spec.Algo.asked, List.not_mem_nil, false_implies, implies_true, true_and] at h
  rw [h]
  exact Nat.card_congr (Equiv.subtypeUnivEquiv fun _ => trivial)

/-- an attacker who asks one question and makes two inputs and two modes of the answer -/
def exAttack : Spec.Asking ((Spec.Mode × Bytes) × (Spec.Mode × Bytes)) :=
  .ask (Spec.parent (Vector.replicate 8 1) 0 (Vector.replicate 8 2) (Vector.replicate 8 3)) fun y =>
    .done ((.hash, (Spec.cvBytes y.1).toList), (.keyedHash (Spec.cvBytes y.2), (Spec.cvBytes y.1).toList ++ List.replicate 5000 7))

example (F : Comp) : (exAttack.asked F).length +
    ((Spec.hashAsk (exAttack.result F).1.1 (exAttack.result F).1.2).asked F).length +
    ((Spec.hashAsk (exAttack.result F).2.1 (exAttack.result F).2.2).asked F).length ≤ 83 := by
  rw [C81_questions, C81_questions]
  simp only [exAttack, Spec.Algo.asked, Spec.Algo.result, List.length_cons, List.length_nil, List.length_append,
    List.length_replicate, Vector.length_toList]
  decide

/-- with 2^100 questions: fewer than one of every 2^57 functions -/
example (A : Spec.Asking ((Spec.Mode × Bytes) × (Spec.Mode × Bytes)))
    (hq : ∀ F, (A.asked F).length + ((Spec.hashAsk (A.result F).1.1 (A.result F).1.2).asked F).length +
      ((Spec.hashAsk (A.result F).2.1 (A.result F).2.2).asked F).length ≤ 2 ^ 100) :
    Nat.card { F : Comp // (A.result F).1 ≠ (A.result F).2 ∧
      hashWith F (A.result F).1.1 (A.result F).1.2 = hashWith F (A.result F).2.1 (A.result F).2.2 } * 2 ^ 57 ≤ Nat.card Comp := by
  have h := C81_collision A (2 ^ 100) hq
  have h2 : 2 ^ 100 * (2 ^ 100 - 1) * Nat.card Comp ≤ 2 ^ 200 * Nat.card Comp := Nat.mul_le_mul_right _ (by decide)
  generalize Nat.card Comp = c at *
  generalize Nat.card { F : Comp // (A.result F).1 ≠ (A.result F).2 ∧
      hashWith F (A.result F).1.1 (A.result F).1.2 = hashWith F (A.result F).2.1 (A.result F).2.2 } = b at *
  have h3 := Nat.le_trans h h2
  have e : 2 * (b * 2 ^ 256) = 2 ^ 200 * (b * 2 ^ 57) := by
    rw [show (2 : Nat) ^ 256 = 2 ^ 199 * 2 ^ 57 from rfl, show (2 : Nat) ^ 200 = 2 * 2 ^ 199 from rfl]
    rw [Nat.mul_assoc, Nat.mul_left_comm b]
  rw [e] at h3
  exact Nat.le_of_mul_le_mul_left h3 (by decide)

/-- the attacker's question is not the last one for the hash of the second input, so `C81_predict` is not about the empty set -/
example (F : Comp) : ∀ a ∈ exAttack.asked F, lastAsked F .hash [1, 2, 3] 0 ≠ some a := by
  intro a ha
  rw [exAttack, Spec.Algo.asked, Spec.Algo.asked, List.mem_singleton] at ha
  subst ha
  rw [lastAsked_eq, Gen.root_at_zero]
  intro h
  have := congrArg Spec.Input.flags (Option.some.inj h)
  revert this
  rw [G.root, G.subtree, dif_pos (by decide), G.chunk, G.chunkFrom, dif_pos (by decide)]
  decide

end Baokeshed.Props
