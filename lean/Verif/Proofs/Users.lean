import Verif.Proofs.KeyedCount

/-!
# Many keys

The labels of `KeyedCount.lean` for each of several keys.
-/

set_option linter.unusedVariables false

namespace Baokeshed.Proofs.Users
open Baokeshed.Model Baokeshed.Proofs.Prf Baokeshed.Proofs.Gen

attribute [local irreducible] Spec.cvBytes Spec.pad

variable {U : Type} {N : Nat}

/-- a label of one of the keys -/
def at' (i : U) : (Bool × Inner N) ⊕ (Bool × Msg N) → (U × Bool × Inner N) ⊕ (U × Bool × Msg N) := Sum.map (Prod.mk i) (Prod.mk i)

/-- chaining values that belong to one of the keys -/
def part (S : U × Bool × Inner N → Spec.Full) (i : U) : Bool × Inner N → Spec.Full := fun b => S (i, b)

noncomputable def inp (k : U → Vector Byte 32) (S : U × Bool × Inner N → Spec.Full) : (U × Bool × Inner N) ⊕ (U × Bool × Msg N) → Spec.Input
  | .inl b => Gen.inp (k b.1) (part S b.1) (.inl b.2)
  | .inr μ => Gen.inp (k μ.1) (part S μ.1) (.inr μ.2)

theorem inp_at (k : U → Vector Byte 32) (S : U × Bool × Inner N → Spec.Full) (i : U) (b : (Bool × Inner N) ⊕ (Bool × Msg N)) :
    inp k S (at' i b) = Gen.inp (k i) (part S i) b := by cases b <;> rfl

theorem exists_at (b : (U × Bool × Inner N) ⊕ (U × Bool × Msg N)) : ∃ i c, b = at' i c := by
  rcases b with ⟨i, b⟩ | ⟨i, μ⟩
  · exact ⟨i, .inl b, rfl⟩
  · exact ⟨i, .inr μ, rfl⟩

open Classical in
noncomputable def labs (μ : U × Bool × Msg N) : Finset ((U × Bool × Inner N) ⊕ (U × Bool × Msg N)) := (Gen.labs μ.2).image (at' μ.1)

def tag (F : Spec.Input → Spec.Full) (k : U → Vector Byte 32) (μ : U × Bool × Msg N) : Spec.Full := Gen.tag F (k μ.1) μ.2

/-- the questions of one of the keys -/
def own (G : Spec.Input ⊕ (U × Bool × Msg N) → Spec.Full) (i : U) : Spec.Input ⊕ (Bool × Msg N) → Spec.Full := fun q => G (q.map id (Prod.mk i))

theorem ans_at (G : Spec.Input ⊕ (U × Bool × Msg N) → Spec.Full) (S : U × Bool × Inner N → Spec.Full) (i : U)
    (b : (Bool × Inner N) ⊕ (Bool × Msg N)) : ans G S (at' i b) = ans (own G i) (part S i) b := by cases b <;> rfl

theorem labs_own {F : Spec.Input → Spec.Full} {k : U → Vector Byte 32} {G : Spec.Input ⊕ (U × Bool × Msg N) → Spec.Full}
    {S : U × Bool × Inner N → Spec.Full} {μ : U × Bool × Msg N} (h : ∀ b ∈ labs μ, F (inp k S b) = ans G S b) :
    ∀ b ∈ Gen.labs μ.2, F (Gen.inp (k μ.1) (part S μ.1) b) = ans (own G μ.1) (part S μ.1) b := by
  classical
  intro b hb
  rw [← inp_at, ← ans_at]
  exact h _ (Finset.mem_image_of_mem _ hb)

theorem H1 (hN : N < 2 ^ 64) (F : Spec.Input → Spec.Full) (k : U → Vector Byte 32) (G : Spec.Input ⊕ (U × Bool × Msg N) → Spec.Full)
    (S : U × Bool × Inner N → Spec.Full) (μ : U × Bool × Msg N) (h : ∀ b ∈ labs μ, F (inp k S b) = ans G S b) : tag F k μ = G (.inr μ) :=
  Gen.H1 hN F (k μ.1) (own G μ.1) (part S μ.1) μ.2 (labs_own h)

theorem H2 (hN : N < 2 ^ 64) (F : Spec.Input → Spec.Full) (k : U → Vector Byte 32) (G : Spec.Input ⊕ (U × Bool × Msg N) → Spec.Full)
    (S : U × Bool × Inner N → Spec.Full) (G' : Spec.Input ⊕ (U × Bool × Msg N) → Spec.Full) (S' : U × Bool × Inner N → Spec.Full)
    (μ : U × Bool × Msg N) (h : ∀ b ∈ labs μ, F (inp k S b) = ans G S b) (h' : ∀ b ∈ labs μ, F (inp k S' b) = ans G' S' b) :
    ∀ b ∈ labs μ, inp k S b = inp k S' b := by
  classical
  intro b hb
  obtain ⟨c, hc, rfl⟩ := Finset.mem_image.1 hb
  rw [inp_at, inp_at]
  exact Gen.H2 hN F (k μ.1) (own G μ.1) (part S μ.1) (own G' μ.1) (part S' μ.1) μ.2 (labs_own h) (labs_own h') c hc

theorem labs_card (μ : U × Bool × Msg N) : (labs μ).card ≤ (Gen.labs μ.2).card := by
  classical
  exact Finset.card_image_le

/-- the chaining value that goes into a compression is one of the keys or an answer -/
theorem inp_cv (hN : N < 2 ^ 64) (i : U) (b : (Bool × Inner N) ⊕ (Bool × Msg N)) :
    (∃ c, ∀ (k : U → Vector Byte 32) S, (inp k S (at' i b)).cv = (S (i, c)).1) ∨
      ∀ (k : U → Vector Byte 32) S, (inp k S (at' i b)).cv = keyWords (k i) := by
  rcases Gen.inp_cv hN b with ⟨c, h⟩ | h
  · exact Or.inl ⟨c, fun k S => by rw [inp_at, h]; rfl⟩
  · exact Or.inr fun k S => by rw [inp_at, h]

end Baokeshed.Proofs.Users
