import Verif.Proofs.C.Lanes

/-! # How many bytes the C hasher copies into block buffers -/

set_option linter.unusedVariables false

namespace Baokeshed.Proofs.CI
open Baokeshed.Model Baokeshed.Model.C Baokeshed.Model.CI Baokeshed.Spec.CLanes

theorem copied_append (l l' : List Ev) : copied (l ++ l') = copied l + copied l' := by
  unfold copied; rw [List.map_append, List.sum_append]

/-- `x` copies at most `n` bytes, and `Q a` less than that if it succeeds with the result `a`. -/
structure Cp {α : Type} (n : Nat) (Q : α → Nat) (x : ER α) : Prop where
  le : copied x.log ≤ n
  ok : ∀ a, x.res = .ok a → copied x.log + Q a ≤ n

/-- `x` copies nothing. -/
abbrev Free {α : Type} (x : ER α) : Prop := ∀ n, Cp n (fun _ => n) x

theorem Cp.bind {α β : Type} {n : Nat} {Q : α → Nat} {Q' : β → Nat} {x : ER α} {f : α → ER β} (hx : Cp n Q x)
    (hf : ∀ a, x.res = .ok a → Cp (Q a) Q' (f a)) : Cp n Q' (x >>= f) := by
  obtain ⟨r, l⟩ := x
  cases r with
  | error e => exact ⟨hx.le, fun a ha => by cases ha⟩
  | ok a =>
    have h1 : copied l + Q a ≤ n := hx.ok a rfl
    obtain ⟨h2, h3⟩ := hf a rfl
    constructor
    · show copied (l ++ (f a).log) ≤ n
      rw [copied_append]; omega
    · intro b hb
      have : copied (f a).log + Q' b ≤ Q a := h3 b hb
      show copied (l ++ (f a).log) + _ ≤ n
      rw [copied_append]; omega

theorem Cp.pure {α : Type} {n : Nat} {Q : α → Nat} {a : α} (h : Q a ≤ n) : Cp n Q (Pure.pure a : ER α) :=
  ⟨Nat.zero_le _, fun b hb => by cases hb; show 0 + _ ≤ n; omega⟩

theorem Cp.lift {α : Type} {n : Nat} (r : R α) : Cp n (fun _ => n) (liftM r : ER α) :=
  ⟨Nat.zero_le _, fun b hb => by show 0 + n ≤ n; omega⟩

theorem Cp.weaken {α : Type} {n : Nat} {Q Q' : α → Nat} {x : ER α} (h : Cp n Q x) (hq : ∀ a, x.res = .ok a → Q' a ≤ Q a) :
    Cp n Q' x := ⟨h.le, fun a ha => by have := h.ok a ha; have := hq a ha; omega⟩

/-- what enters only functions that copy nothing -/
theorem Free.of_each {α : Type} {x : ER α} (h : Each (fun c => weight c = 0) x) : Free x := by
  have e : copied x.log = 0 := by
    unfold copied
    have : ∀ l : List Ev, (∀ c ∈ l, weight c = 0) → (l.map weight).sum = 0 := by
      intro l
      induction l with
      | nil => intro _; rfl
      | cons c l ih =>
        intro hl
        rw [List.map_cons, List.sum_cons, hl c (List.mem_cons_self ..), ih fun d hd => hl d (List.mem_cons_of_mem _ hd)]
    exact this _ h
  exact fun n => ⟨by omega, fun a _ => by omega⟩

theorem kernels_free (cfg : C.Config) (n : Nat) : Kernels (fun c => weight c = 0) cfg n :=
  ⟨⟨rfl, rfl⟩, fun _ => ⟨rfl, rfl, rfl⟩, fun _ => ⟨rfl, rfl⟩, fun _ => ⟨rfl, rfl, rfl, rfl, rfl⟩, fun _ => ⟨rfl, rfl, rfl⟩⟩

variable (cfg : C.Config)

theorem free_compress (st : Vector Word 8) (b : Bytes) (l : Byte) (off : U64) (f : Byte) :
    Free (CI.compress cfg st b l off f) := by
  refine Free.of_each ?_
  unfold CI.compress
  repeat' split
  all_goals exact .enter rfl (.lift _)

theorem cp_fill_buf (s : chunk_state) (x : Bytes) (n : Nat) :
    Cp n (fun a => n - a.2) (CI.chunk_state_fill_buf cfg s x n) := by
  unfold CI.chunk_state_fill_buf
  dsimp only
  generalize ht : (if subSz cfg.bits C.BLOCK_LEN s.buf_len.toNat > n then n else subSz cfg.bits C.BLOCK_LEN s.buf_len.toNat) = t
  have hn : t ≤ n := by rw [← ht]; split <;> omega
  refine Cp.bind (Q := fun _ => n - t) ?_ fun _ _ => (Cp.lift _).bind fun _ _ => Cp.pure (Nat.le_refl _)
  have e : copied (CI.enter (.copy t)).log = t := by show (([Ev.copy t] : List Ev).map weight).sum = t; simp [weight]
  exact ⟨by omega, fun _ _ => by omega⟩

theorem cp_chunk_update (s : chunk_state) (x : Bytes) (n : Nat) :
    Cp n (fun _ => 0) (CI.chunk_state_update cfg s x n) := by
  have hb : ∀ (n : Nat) (s : chunk_state) (x : Bytes), Cp n (fun a => a.2.2) (CI.chunk_state_update_blocks cfg s x n) := by
    intro n
    induction n using Nat.strongRecOn with
    | ind n ih =>
      intro s x
      rw [CI.chunk_state_update_blocks]
      split
      next h =>
        refine (free_compress cfg _ _ _ _ _ n).bind fun _ _ => (Cp.lift _).bind fun _ _ => ?_
        obtain ⟨h1, h2⟩ := ih (n - C.BLOCK_LEN) (by simp only [C.BLOCK_LEN] at *; omega) _ _
        exact ⟨Nat.le_trans h1 (Nat.sub_le _ _), fun a ha => Nat.le_trans (h2 a ha) (Nat.sub_le _ _)⟩
      · exact Cp.pure (Nat.le_refl _)
  refine Cp.bind (Q := fun a => a.2.2) ?_ fun a _ => (hb a.2.2 a.1 a.2.1).bind fun b _ =>
    (cp_fill_buf cfg b.1 b.2.1 b.2.2).bind fun _ _ => (Cp.lift _).bind fun _ _ => Cp.pure (Q := fun _ => 0) (Nat.zero_le _)
  unfold CI.chunk_state_update_first
  split
  · refine (cp_fill_buf ..).bind fun a _ => (Cp.lift _).bind fun _ _ => ?_
    dsimp only
    split
    · exact (free_compress cfg _ _ _ _ _ _).bind fun _ _ => Cp.pure (Nat.le_refl _)
    · exact Cp.pure (Nat.le_refl _)
  · exact Cp.pure (Nat.le_refl _)

theorem free_chunk_finalize (s : chunk_state) (r : Bool) (out : Bytes) : Free (CI.chunk_state_finalize cfg s r out) :=
  fun n => (free_compress cfg _ _ _ _ _ n).bind fun _ _ => Cp.lift _

theorem free_parent (b : Bytes) (k : Vector Word 8) (r : Bool) (f : Byte) (out : Bytes) :
    Free (CI.hash_one_parent cfg b k r f out) :=
  fun n => (free_compress cfg _ _ _ _ _ n).bind fun _ _ => Cp.lift _

theorem free_merge_parent (h : hasher) : Free (CI.hasher_merge_parent cfg h) :=
  fun n => (Cp.lift _).bind fun _ _ => (free_parent cfg _ _ _ _ _ n).bind fun _ _ => (Cp.lift _).bind fun _ _ => Cp.pure (Nat.le_refl _)

theorem free_merge_loop (h : hasher) (off : U64) : Free (CI.merge_loop cfg h off) := by
  fun_induction CI.merge_loop cfg h off with
  | case1 h hm e he => exact fun n => ⟨(free_merge_parent cfg h n).le, fun a ha => by cases ha⟩
  | case2 h hm h' he rest ih =>
    intro n
    have h1 := (free_merge_parent cfg h n).ok h' (by rw [merge_parent_res]; exact he)
    have h2 : copied rest.log ≤ n := (ih n).le
    refine ⟨?_, fun a ha => ?_⟩
    · show copied (_ ++ rest.log) ≤ n
      rw [copied_append]; omega
    · have h3 : copied rest.log + n ≤ n := (ih n).ok a ha
      show copied (_ ++ rest.log) + n ≤ n
      rw [copied_append]; omega
  | case3 h hm => exact fun n => Cp.pure (Nat.le_refl _)

theorem free_push (h : hasher) (x : Bytes) (off : U64) : Free (CI.hasher_push_chunk_hash cfg h x off) :=
  fun n => (Cp.lift _).bind fun _ _ => (free_merge_loop cfg _ _ n).bind fun _ _ => (Cp.lift _).bind fun _ _ => Cp.pure (Nat.le_refl _)

theorem free_push_chunks (h : hasher) (x : Bytes) (i left : Nat) : Free (CI.push_chunks cfg h x i left) := by
  intro n
  induction left generalizing h i with
  | zero => exact Cp.pure (Nat.le_refl _)
  | succ m ih => exact (Cp.lift _).bind fun _ _ => (free_push cfg _ _ _ n).bind fun _ _ => ih _ _

theorem cp_update_loop (h : hasher) (out : Bytes) (cs : List Bytes) (x : Bytes) (n : Nat) :
    Cp n (fun a => a.2.2) (CI.update_loop cfg h out cs x n) := by
  induction n using Nat.strongRecOn generalizing h out cs x with
  | ind n ih =>
  rw [CI.update_loop]
  split
  next hn =>
    split
    next e he => exact ⟨Nat.zero_le _, fun a ha => by cases ha⟩
    next cs' x' n' k he =>
      have hlt := collect_lt hn he
      refine (Free.of_each (each_hash_many (kernels_free cfg _) _ _ _ _ _ _ _ _ _) n).bind fun _ _ => (free_push_chunks cfg _ _ _ _ n).bind fun _ _ => ?_
      obtain ⟨h1, h2⟩ := ih n' hlt _ _ _ _
      exact ⟨Nat.le_trans h1 (Nat.le_of_lt hlt), fun a ha => Nat.le_trans (h2 a ha) (Nat.le_of_lt hlt)⟩
  next => exact Cp.pure (Nat.le_refl _)

theorem cp_update_rest (h : hasher) (x : Bytes) (n : Nat) : Cp n (fun _ => 0) (CI.hasher_update_rest cfg h x n) := by
  refine (cp_update_loop ..).bind fun a _ => ?_
  dsimp only
  split
  · exact (free_merge_loop cfg _ _ _).bind fun _ _ => (cp_chunk_update ..).bind fun _ _ => Cp.pure (Nat.le_refl _)
  · exact Cp.pure (Nat.zero_le _)

theorem cp_update (h : hasher) (x : Bytes) (n : Nat) : Cp n (fun _ => 0) (CI.hasher_update cfg h x n) := by
  unfold CI.hasher_update
  dsimp only
  split
  · generalize ht : (if subSz cfg.bits C.CHUNK_LEN (chunk_state_len cfg h.chunk) > n then n
      else subSz cfg.bits C.CHUNK_LEN (chunk_state_len cfg h.chunk)) = t
    have hn : t ≤ n := by rw [← ht]; split <;> omega
    have hc : Cp n (fun _ => n - t) (CI.chunk_state_update cfg h.chunk x t) := by
      obtain ⟨h1, h2⟩ := cp_chunk_update cfg h.chunk x t
      exact ⟨by omega, fun _ _ => by omega⟩
    refine hc.bind fun _ _ => (Cp.lift _).bind fun _ _ => ?_
    split
    · exact (free_chunk_finalize cfg _ _ _ _).bind fun _ _ => (free_push cfg _ _ _ _).bind fun _ _ => cp_update_rest ..
    · exact Cp.pure (Nat.zero_le _)
  · exact cp_update_rest ..

theorem free_finalize_loop (h : hasher) (out : Bytes) (fuel : Nat) (wh : Bytes) (i : Nat) :
    Free (CI.finalize_loop cfg h out fuel wh i) := by
  intro n
  induction fuel generalizing wh i with
  | zero => exact ⟨Nat.zero_le _, fun a ha => by cases ha⟩
  | succ m ih =>
    rw [CI.finalize_loop]
    refine (Cp.lift _).bind fun _ _ => (Cp.lift _).bind fun _ _ => (Cp.lift _).bind fun _ _ =>
      (free_parent cfg _ _ _ _ _ n).bind fun _ _ => ?_
    split
    · exact Cp.lift _
    · exact ih _ _

theorem free_finalize (h : hasher) (out : Bytes) : Free (CI.hasher_finalize cfg h out) := by
  intro n
  unfold CI.hasher_finalize
  split
  · exact free_chunk_finalize cfg _ _ _ n
  · dsimp only
    split
    · exact (free_chunk_finalize cfg _ _ _ n).bind fun _ _ => free_finalize_loop cfg _ _ _ _ _ n
    · exact (Cp.lift _).bind fun _ _ => (Cp.lift _).bind fun _ _ => free_finalize_loop cfg _ _ _ _ _ n

end Baokeshed.Proofs.CI
