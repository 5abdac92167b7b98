import Verif.Proofs.Steps
import Verif.StepsSpec

/-!
# The steps of portable.rs, listed

`Listed l x`: if the run `x` does not panic, its steps are `l`.
-/

namespace Baokeshed.Proofs.Steps
open Baokeshed.Model Baokeshed.Spec
open Baokeshed.Model.Steps (Run Try Step)
set_option linter.unusedVariables false

def Listed {α} (l : List Step) (x : Try α) : Prop := ∀ a, x.res = .ok a → x.log = l

theorem Listed.bind {α β} {l l' : List Step} {x : Try α} {f : α → Try β} (h : Listed l x)
    (hf : ∀ a, x.res = .ok a → Listed l' (f a)) : Listed (l ++ l') (x >>= f) := by
  obtain ⟨rx, lx⟩ := x
  cases rx with
  | error e => intro a ha; cases ha
  | ok v =>
    intro a ha
    show lx ++ _ = _
    rw [show lx = l from h v rfl, hf v rfl a ha]

theorem Listed.pure {α} (a : α) : Listed [] (Pure.pure a : Try α) := fun _ _ => rfl
theorem Listed.op {α} (s : String) (i : List Nat) (r : R α) : Listed [⟨s, i⟩] (Steps.tryOp s i r) := fun _ _ => rfl
theorem Listed.test (s : String) (b : Bool) : Listed [⟨s, [b.toNat]⟩] (Steps.test s b) := fun _ _ => rfl
theorem Listed.run {α} {l : List Step} {x : Run α} (h : x.log = l) : Listed l (liftM x : Try α) := fun _ _ => h
theorem Listed.cast {α} {l l' : List Step} (e : l = l') {x : Try α} (h : Listed l x) : Listed l' x := e ▸ h

theorem compress_listed (cv : Vector Word 8) (b : Vector Byte 64) (l : Byte) (t : U64) (f : Byte) :
    (Steps.Portable.compress cv b l t f).log = Expected.compress := by
  rw [show (Steps.Portable.compress cv b l t f).log = _ from
    p_compress_eqv cv b l t f (Vector.replicate 8 0) (Vector.replicate 64 0) 0 0 0]
  decide +kernel

theorem compress_xof_listed (cv : Vector Word 8) (b : Vector Byte 64) (l : Byte) (t : U64) (f : Byte) :
    (Steps.Portable.compress_xof cv b l t f).log = Expected.compress_xof := by
  rw [show (Steps.Portable.compress_xof cv b l t f).log = _ from
    p_compress_xof_eqv cv b l t f (Vector.replicate 8 0) (Vector.replicate 64 0) 0 0 0]
  decide +kernel

theorem hash1_loop_listed (f fe : Byte) (t : U64) (n : Nat) :
    ∀ (s : Bytes), s.length = 64 * n → ∀ (cv : Vector Word 8) (bf : Byte),
      Listed (Expected.blocks n) (Steps.Portable.hash1_loop f fe t cv bf s) := by
  induction n with
  | zero =>
    intro s hs cv bf
    rw [Steps.Portable.hash1_loop, dif_neg (show ¬ BLOCK_LEN ≤ s.length by rw [hs]; decide)]
    exact Listed.bind (Listed.test "while" false) fun _ _ => Listed.pure _
  | succ n ih =>
    intro s hs cv bf
    rw [Steps.Portable.hash1_loop, dif_pos (show 64 ≤ s.length by omega)]
    refine Listed.cast ?_ (Listed.bind (Listed.test "while" true) fun _ _ => Listed.bind (Listed.test "if" _) fun _ _ =>
      Listed.bind (Listed.op "array_ref" _ _) fun b _ => Listed.bind (Listed.run (compress_listed ..)) fun v _ =>
      ih (s.drop 64) (by rw [List.length_drop]; omega) v f)
    rw [hs, Expected.blocks]
    by_cases h0 : n = 0
    · subst h0; rfl
    · have h1 : ¬ 64 * (n + 1) = BLOCK_LEN := by show ¬ 64 * (n + 1) = 64; omega
      rw [decide_eq_false h1, if_neg h0]
      simp only [List.cons_append, List.nil_append]
      rfl

theorem hash1_listed (f fs fe : Byte) (t : U64) (n : Nat)
    (s : Bytes) (hs : s.length = 64 * n) (k : Vector Word 8) : Listed (Expected.hash1 n) (Steps.Portable.hash1 s k t f fs fe) := by
  unfold Steps.Portable.hash1
  refine Listed.cast ?_ (Listed.bind (Listed.op "debug_assert" _ _) fun _ _ =>
    Listed.bind (hash1_loop_listed f fe t n s hs k (f ||| fs)) fun cv _ =>
    Listed.run (l := (List.range 8).map fun i => ⟨"to_le_bytes", [i]⟩) rfl)
  rw [Expected.hash1, List.append_assoc]

theorem many_loop_listed (k : Vector Word 8) (d : U64)
    (f fs fe : Byte) (n : Nat) (xs : List Bytes) : (∀ x ∈ xs, x.length = 64 * n) → ∀ (t : U64) (out : Bytes), xs.length * 32 ≤ out.length →
    Listed (Expected.inputs n xs.length) (Steps.Portable.hash_many_loop k d f fs fe xs t out) := by
  induction xs with
  | nil => intro hx t out ho; unfold Steps.Portable.hash_many_loop; exact Listed.bind (Listed.test "for" false) fun _ _ => Listed.pure _
  | cons x xs ih =>
    intro hx t out ho
    rw [List.length_cons] at ho
    unfold Steps.Portable.hash_many_loop
    rw [if_neg (show ¬ out.length < 32 by omega)]
    refine Listed.cast ?_ (Listed.bind (Listed.test "for" true) fun _ _ =>
      Listed.bind (hash1_listed f fs fe t n x (hx x List.mem_cons_self) k) fun h _ =>
      Listed.bind (Listed.op "+=" [] (addU64 t d)) fun t' _ =>
      Listed.bind (ih (fun y hy => hx y (List.mem_cons_of_mem _ hy)) t' (out.drop 32) (by rw [List.length_drop]; omega)) fun rest _ =>
      Listed.pure (h.toList ++ rest))
    rw [List.length_cons, Expected.inputs, List.append_nil, List.append_assoc, List.append_assoc]
    rfl

theorem many_listed (k : Vector Word 8) (t d : U64)
    (f fs fe : Byte) (n : Nat) (xs : List Bytes) (hx : ∀ x ∈ xs, x.length = 64 * n) (out : Bytes) :
    Listed (Expected.hash_many n xs.length) (Steps.Portable.hash_many xs k t d f fs fe out) := by
  unfold Steps.Portable.hash_many
  refine Listed.bind (Listed.op "debug_assert" _ _) fun _ h => ?_
  refine many_loop_listed k d f fs fe n xs hx t out ?_
  by_cases c : xs.length * 32 ≤ out.length
  · exact c
  · exfalso
    have h' : assertR (xs.length * 32 ≤ out.length) = .ok _ := h
    unfold assertR at h'
    simp [c] at h'

end Baokeshed.Proofs.Steps
