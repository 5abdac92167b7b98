import Verif.Proofs.C.EraseIsa
import Verif.SpecCLanes

/-! # Which functions the C hasher calls, and how often -/

set_option linter.unusedVariables false

namespace Baokeshed.Proofs.CI
open Baokeshed.Model Baokeshed.Model.C Baokeshed.Model.CI Baokeshed.Spec.CLanes

/-! ## Everything recorded has a property -/

/-- everything recorded has the property `P` -/
def Each {α : Type} (P : Ev → Prop) (x : ER α) : Prop := ∀ c ∈ x.log, P c

section
variable {P : Ev → Prop}

theorem Each.bind {α β : Type} {x : ER α} {f : α → ER β} (hx : Each P x) (hf : ∀ a, Each P (f a)) : Each P (x >>= f) := by
  obtain ⟨r, l⟩ := x
  intro c hc
  cases r with
  | error e => exact hx c hc
  | ok a =>
    have hc : c ∈ l ++ (f a).log := hc
    rcases List.mem_append.1 hc with h | h
    · exact hx c h
    · exact hf a c h

theorem Each.pure {α : Type} (a : α) : Each P (Pure.pure a : ER α) := fun c hc => by cases hc

theorem Each.lift {α : Type} (r : R α) : Each P (liftM r : ER α) := fun c hc => by cases hc

theorem Each.bindL {α β : Type} {r : R α} {f : α → ER β} (hf : ∀ a, Each P (f a)) : Each P ((liftM r : ER α) >>= f) :=
  (Each.lift r).bind hf

theorem Each.enter {β : Type} {c : Ev} {f : Unit → ER β} (h : P c) (hf : Each P (f ())) : Each P (CI.enter c >>= f) :=
  Each.bind (fun d hd => by cases List.mem_singleton.1 hd; exact h) fun _ => hf

end

/-! ## What is recorded -/

/-- If `x` succeeds, then the events of interest are `L`, and the result has the property `Q`. -/
def Logs {α : Type} (F : Ev → Bool) (L : List Ev) (Q : α → Prop) (x : ER α) : Prop :=
  ∀ a, x.res = .ok a → x.log.filter F = L ∧ Q a

section
variable {F : Ev → Bool}

theorem Logs.bind {α β : Type} {L L' : List Ev} {Q : α → Prop} {Q' : β → Prop} {x : ER α} {f : α → ER β}
    (hx : Logs F L Q x) (hf : ∀ a, Q a → Logs F L' Q' (f a)) : Logs F (L ++ L') Q' (x >>= f) := by
  obtain ⟨r, l⟩ := x
  intro b hb
  cases r with
  | error e => cases hb
  | ok a =>
    obtain ⟨h1, h2⟩ := hx a rfl
    obtain ⟨h3, h4⟩ := hf a h2 b hb
    refine ⟨?_, h4⟩
    show (l ++ (f a).log).filter F = _
    rw [List.filter_append, h3]
    exact congrArg (· ++ L') h1

/-- after something that logs nothing -/
theorem Logs.bind' {α β : Type} {L' : List Ev} {Q : α → Prop} {Q' : β → Prop} {x : ER α} {f : α → ER β}
    (hx : Logs F [] Q x) (hf : ∀ a, Q a → Logs F L' Q' (f a)) : Logs F L' Q' (x >>= f) := hx.bind hf

theorem Logs.pure {α : Type} {Q : α → Prop} {a : α} (h : Q a) : Logs F [] Q (Pure.pure a : ER α) := by
  intro b hb; cases hb; exact ⟨rfl, h⟩

theorem Logs.lift {α : Type} (r : R α) : Logs F [] (fun a => r = .ok a) (liftM r : ER α) :=
  fun a h => ⟨rfl, h⟩

theorem Logs.error {α : Type} {L : List Ev} {Q : α → Prop} (e : Panic) (l : List Ev) : Logs F L Q (⟨.error e, l⟩ : ER α) := by
  intro a h; cases h

theorem Logs.enter (c : Ev) : Logs F ([c].filter F) (fun _ => True) (CI.enter c) := fun a h => ⟨rfl, trivial⟩

theorem Logs.skip {c : Ev} (h : F c = false) : Logs F [] (fun _ => True) (CI.enter c) :=
  fun a _ => ⟨by show [c].filter F = []; simp [h], trivial⟩

theorem Logs.weaken {α : Type} {L : List Ev} {Q Q' : α → Prop} {x : ER α} (h : Logs F L Q x)
    (hq : ∀ a, Q a → Q' a) : Logs F L Q' x := fun a ha => ⟨(h a ha).1, hq a (h a ha).2⟩

theorem Logs.cast {α : Type} {L L' : List Ev} {Q : α → Prop} {x : ER α} (h : Logs F L Q x) (e : L = L') : Logs F L' Q x :=
  e ▸ h

theorem Logs.ok {α : Type} {L : List Ev} {Q : α → Prop} {x : ER α} (h : Logs F L Q x) {a : α}
    (ha : x.res = .ok a) : x.log.filter F = L ∧ Q a := h a ha

end

/-! ## `hash_many` -/

attribute [local irreducible] Each Logs

theorem each_hash_many_portable_loop {P : Ev → Prop} (n : Nat) (h1 : P (.hash1 none n)) (key : Vector Word 8) (ds : List U64) (f fs fe : Byte) (num : Nat)
    (xs : List Bytes) (off : U64) (out : Bytes) : Each P (CI.hash_many_portable_loop n key ds f fs fe num xs off out) := by
  induction num generalizing xs off out with
  | zero => exact .pure _
  | succ num ih =>
    rw [CI.hash_many_portable_loop]
    exact .bindL fun _ => .enter h1 <| .bindL fun _ => .bindL fun _ => .bindL fun _ => .bindL fun _ => (ih ..).bind fun _ => .pure _

theorem logs_hash_many_portable_loop {F : Ev → Bool} (n : Nat) (key : Vector Word 8) (ds : List U64) (f fs fe : Byte) (num : Nat)
    (xs : List Bytes) (off : U64) (out : Bytes) :
    Logs F ((List.replicate num (.hash1 none n)).filter F) (fun _ => True) (CI.hash_many_portable_loop n key ds f fs fe num xs off out) := by
  induction num generalizing xs off out with
  | zero => exact .pure trivial
  | succ num ih =>
    rw [CI.hash_many_portable_loop]
    have e : (List.replicate (num + 1) (Ev.hash1 none n)).filter F =
        [Ev.hash1 none n].filter F ++ ((List.replicate num (.hash1 none n)).filter F ++ []) := by
      rw [List.append_nil, ← List.filter_append]; rfl
    rw [e]
    exact (Logs.lift _).bind' fun _ _ => (Logs.enter _).bind fun _ _ => (Logs.lift _).bind' fun _ _ => (Logs.lift _).bind' fun _ _ =>
      (Logs.lift _).bind' fun _ _ => (Logs.lift _).bind' fun _ _ => (ih ..).bind fun _ _ => .pure trivial

theorem each_hash_many_portable {P : Ev → Prop} (xs : List Bytes) (num n : Nat) (hm : P (.many none)) (h1 : P (.hash1 none n)) (key : Vector Word 8) (off : U64) (ds : List U64)
    (f fs fe : Byte) (out : Bytes) : Each P (CI.hash_many_portable xs num n key off ds f fs fe out) :=
  .enter hm (each_hash_many_portable_loop n h1 ..)

theorem logs_hash_many_portable {F : Ev → Bool} (hF : ∀ i, F (.many i) = false) (xs : List Bytes) (num n : Nat) (key : Vector Word 8) (off : U64)
    (ds : List U64) (f fs fe : Byte) (out : Bytes) :
    Logs F ((List.replicate (num) (Ev.hash1 none n)).filter F) (fun _ => True) (CI.hash_many_portable xs num n key off ds f fs fe out) :=
  (Logs.skip (hF _)).bind' fun _ _ => logs_hash_many_portable_loop ..

theorem each_hash_many_sse41_loop1 {P : Ev → Prop} (n : Nat) (h1 : P (.hash1 (some .sse41) n)) (key : Vector Word 8) (ds : List U64) (f fs fe : Byte) (num : Nat)
    (xs : List Bytes) (off : U64) (out : Bytes) : Each P (CI.hash_many_sse41_loop1 n key ds f fs fe num xs off out) := by
  induction num generalizing xs off out with
  | zero => exact .pure _
  | succ num ih =>
    rw [CI.hash_many_sse41_loop1]
    exact .bindL fun _ => .enter h1 <| .bindL fun _ => .bindL fun _ => .bindL fun _ => .bindL fun _ => (ih ..).bind fun _ => .pure _

theorem logs_hash_many_sse41_loop1 {F : Ev → Bool} (n : Nat) (key : Vector Word 8) (ds : List U64) (f fs fe : Byte) (num : Nat)
    (xs : List Bytes) (off : U64) (out : Bytes) :
    Logs F ((List.replicate num (.hash1 (some .sse41) n)).filter F) (fun _ => True) (CI.hash_many_sse41_loop1 n key ds f fs fe num xs off out) := by
  induction num generalizing xs off out with
  | zero => exact .pure trivial
  | succ num ih =>
    rw [CI.hash_many_sse41_loop1]
    have e : (List.replicate (num + 1) (Ev.hash1 (some .sse41) n)).filter F =
        [Ev.hash1 (some .sse41) n].filter F ++ ((List.replicate num (.hash1 (some .sse41) n)).filter F ++ []) := by
      rw [List.append_nil, ← List.filter_append]; rfl
    rw [e]
    exact (Logs.lift _).bind' fun _ _ => (Logs.enter _).bind fun _ _ => (Logs.lift _).bind' fun _ _ => (Logs.lift _).bind' fun _ _ =>
      (Logs.lift _).bind' fun _ _ => (Logs.lift _).bind' fun _ _ => (ih ..).bind fun _ _ => .pure trivial

theorem each_hash_many_sse41_loop4 {P : Ev → Prop} (n : Nat) (h1 : P (.hash1 (some .sse41) n)) (h4 : P (.hash .sse41 4 n)) (key : Vector Word 8) (ds : List U64) (f fs fe : Byte) (num : Nat)
    (xs : List Bytes) (off : U64) (out : Bytes) : Each P (CI.hash_many_sse41_loop4 n key ds f fs fe num xs off out) := by
  induction num using Nat.strongRecOn generalizing xs off out with
  | ind num ih =>
  rw [CI.hash_many_sse41_loop4]
  split
  next h =>
    exact .enter h4 <| .bindL fun _ => .bindL fun _ => .bindL fun _ => .bindL fun _ =>
      (ih (num - 4) (by omega) ..).bind fun _ => .pure _
  next h => exact each_hash_many_sse41_loop1 n h1 ..

theorem logs_hash_many_sse41_loop4 {F : Ev → Bool} (n : Nat) (key : Vector Word 8) (ds : List U64) (f fs fe : Byte) (num : Nat)
    (xs : List Bytes) (off : U64) (out : Bytes) :
    Logs F ((List.replicate (num / 4) (Ev.hash .sse41 4 n) ++ List.replicate (num % 4) (Ev.hash1 (some .sse41) n)).filter F) (fun _ => True) (CI.hash_many_sse41_loop4 n key ds f fs fe num xs off out) := by
  induction num using Nat.strongRecOn generalizing xs off out with
  | ind num ih =>
  rw [CI.hash_many_sse41_loop4]
  split
  next h =>
    have e : (List.replicate (num / 4) (Ev.hash .sse41 4 n) ++ List.replicate (num % 4) (Ev.hash1 (some .sse41) n)).filter F = [Ev.hash .sse41 4 n].filter F ++ ((List.replicate ((num - 4) / 4) (Ev.hash .sse41 4 n) ++ List.replicate ((num - 4) % 4) (Ev.hash1 (some .sse41) n)).filter F ++ []) := by
      rw [List.append_nil, ← List.filter_append]
      congr 1
      rw [show num / 4 = (num - 4) / 4 + 1 by omega, show (num - 4) % 4 = num % 4 by omega]
      rfl
    rw [e]
    exact (Logs.enter _).bind fun _ _ => (Logs.lift _).bind' fun _ _ => (Logs.lift _).bind' fun _ _ =>
      (Logs.lift _).bind' fun _ _ => (Logs.lift _).bind' fun _ _ => (ih (num - 4) (by omega) ..).bind fun _ _ => .pure trivial
  next h =>
    refine (logs_hash_many_sse41_loop1 ..).cast ?_
    rw [show num / 4 = 0 by omega, show num % 4 = num by omega]
    rfl

theorem each_hash_many_sse41 {P : Ev → Prop} (xs : List Bytes) (num n : Nat) (hm : P (.many (some .sse41))) (h1 : P (.hash1 (some .sse41) n)) (h4 : P (.hash .sse41 4 n)) (key : Vector Word 8) (off : U64) (ds : List U64)
    (f fs fe : Byte) (out : Bytes) : Each P (CI.hash_many_sse41 xs num n key off ds f fs fe out) :=
  .enter hm (each_hash_many_sse41_loop4 n h1 h4 ..)

theorem logs_hash_many_sse41 {F : Ev → Bool} (hF : ∀ i, F (.many i) = false) (xs : List Bytes) (num n : Nat) (key : Vector Word 8) (off : U64)
    (ds : List U64) (f fs fe : Byte) (out : Bytes) :
    Logs F ((List.replicate (num / 4) (Ev.hash .sse41 4 n) ++ List.replicate (num % 4) (Ev.hash1 (some .sse41) n)).filter F) (fun _ => True) (CI.hash_many_sse41 xs num n key off ds f fs fe out) :=
  (Logs.skip (hF _)).bind' fun _ _ => logs_hash_many_sse41_loop4 ..

theorem each_hash_many_avx2_loop {P : Ev → Prop} (n : Nat) (hm : P (.many (some .sse41))) (h1 : P (.hash1 (some .sse41) n)) (h4 : P (.hash .sse41 4 n)) (h8 : P (.hash .avx2 8 n)) (key : Vector Word 8) (ds : List U64) (f fs fe : Byte) (num : Nat)
    (xs : List Bytes) (off : U64) (out : Bytes) : Each P (CI.hash_many_avx2_loop n key ds f fs fe num xs off out) := by
  induction num using Nat.strongRecOn generalizing xs off out with
  | ind num ih =>
  rw [CI.hash_many_avx2_loop]
  split
  next h =>
    exact .enter h8 <| .bindL fun _ => .bindL fun _ => .bindL fun _ => .bindL fun _ =>
      (ih (num - 8) (by omega) ..).bind fun _ => .pure _
  next h => exact each_hash_many_sse41 _ _ n hm h1 h4 ..

theorem logs_hash_many_avx2_loop {F : Ev → Bool} (hF : F (.many (some .sse41)) = false) (n : Nat) (key : Vector Word 8) (ds : List U64) (f fs fe : Byte) (num : Nat)
    (xs : List Bytes) (off : U64) (out : Bytes) :
    Logs F ((List.replicate (num / 8) (Ev.hash .avx2 8 n) ++ (List.replicate (num % 8 / 4) (Ev.hash .sse41 4 n) ++ List.replicate (num % 4) (Ev.hash1 (some .sse41) n))).filter F) (fun _ => True) (CI.hash_many_avx2_loop n key ds f fs fe num xs off out) := by
  induction num using Nat.strongRecOn generalizing xs off out with
  | ind num ih =>
  rw [CI.hash_many_avx2_loop]
  split
  next h =>
    have e : (List.replicate (num / 8) (Ev.hash .avx2 8 n) ++ (List.replicate (num % 8 / 4) (Ev.hash .sse41 4 n) ++ List.replicate (num % 4) (Ev.hash1 (some .sse41) n))).filter F = [Ev.hash .avx2 8 n].filter F ++ ((List.replicate ((num - 8) / 8) (Ev.hash .avx2 8 n) ++ (List.replicate ((num - 8) % 8 / 4) (Ev.hash .sse41 4 n) ++ List.replicate ((num - 8) % 4) (Ev.hash1 (some .sse41) n))).filter F ++ []) := by
      rw [List.append_nil, ← List.filter_append]
      congr 1
      rw [show num / 8 = (num - 8) / 8 + 1 by omega, show (num - 8) % 8 = num % 8 by omega, show (num - 8) % 4 = num % 4 by omega]
      rfl
    rw [e]
    exact (Logs.enter _).bind fun _ _ => (Logs.lift _).bind' fun _ _ => (Logs.lift _).bind' fun _ _ =>
      (Logs.lift _).bind' fun _ _ => (Logs.lift _).bind' fun _ _ => (ih (num - 8) (by omega) ..).bind fun _ _ => .pure trivial
  next h =>
    refine ((Logs.skip hF).bind' fun _ _ => logs_hash_many_sse41_loop4 ..).cast ?_
    rw [show num / 8 = 0 by omega, show num % 8 = num by omega]
    rfl

theorem each_hash_many_avx2 {P : Ev → Prop} (xs : List Bytes) (num n : Nat) (hm : P (.many (some .avx2))) (hs : P (.many (some .sse41))) (h1 : P (.hash1 (some .sse41) n)) (h4 : P (.hash .sse41 4 n)) (h8 : P (.hash .avx2 8 n)) (key : Vector Word 8) (off : U64) (ds : List U64)
    (f fs fe : Byte) (out : Bytes) : Each P (CI.hash_many_avx2 xs num n key off ds f fs fe out) :=
  .enter hm (each_hash_many_avx2_loop n hs h1 h4 h8 ..)

theorem logs_hash_many_avx2 {F : Ev → Bool} (hF : ∀ i, F (.many i) = false) (xs : List Bytes) (num n : Nat) (key : Vector Word 8) (off : U64)
    (ds : List U64) (f fs fe : Byte) (out : Bytes) :
    Logs F ((List.replicate (num / 8) (Ev.hash .avx2 8 n) ++ (List.replicate (num % 8 / 4) (Ev.hash .sse41 4 n) ++ List.replicate (num % 4) (Ev.hash1 (some .sse41) n))).filter F) (fun _ => True) (CI.hash_many_avx2 xs num n key off ds f fs fe out) :=
  (Logs.skip (hF _)).bind' fun _ _ => logs_hash_many_avx2_loop (hF _) ..

theorem each_hash_many_avx512_loop1 {P : Ev → Prop} (n : Nat) (h1 : P (.hash1 (some .avx512) n)) (key : Vector Word 8) (ds : List U64) (f fs fe : Byte) (num : Nat)
    (xs : List Bytes) (off : U64) (out : Bytes) : Each P (CI.hash_many_avx512_loop1 n key ds f fs fe num xs off out) := by
  induction num generalizing xs off out with
  | zero => exact .pure _
  | succ num ih =>
    rw [CI.hash_many_avx512_loop1]
    exact .bindL fun _ => .enter h1 <| .bindL fun _ => .bindL fun _ => .bindL fun _ => .bindL fun _ => (ih ..).bind fun _ => .pure _

theorem logs_hash_many_avx512_loop1 {F : Ev → Bool} (n : Nat) (key : Vector Word 8) (ds : List U64) (f fs fe : Byte) (num : Nat)
    (xs : List Bytes) (off : U64) (out : Bytes) :
    Logs F ((List.replicate num (.hash1 (some .avx512) n)).filter F) (fun _ => True) (CI.hash_many_avx512_loop1 n key ds f fs fe num xs off out) := by
  induction num generalizing xs off out with
  | zero => exact .pure trivial
  | succ num ih =>
    rw [CI.hash_many_avx512_loop1]
    have e : (List.replicate (num + 1) (Ev.hash1 (some .avx512) n)).filter F =
        [Ev.hash1 (some .avx512) n].filter F ++ ((List.replicate num (.hash1 (some .avx512) n)).filter F ++ []) := by
      rw [List.append_nil, ← List.filter_append]; rfl
    rw [e]
    exact (Logs.lift _).bind' fun _ _ => (Logs.enter _).bind fun _ _ => (Logs.lift _).bind' fun _ _ => (Logs.lift _).bind' fun _ _ =>
      (Logs.lift _).bind' fun _ _ => (Logs.lift _).bind' fun _ _ => (ih ..).bind fun _ _ => .pure trivial

theorem each_hash_many_avx512_loop4 {P : Ev → Prop} (n : Nat) (h1 : P (.hash1 (some .avx512) n)) (h4 : P (.hash .avx512 4 n)) (key : Vector Word 8) (ds : List U64) (f fs fe : Byte) (num : Nat)
    (xs : List Bytes) (off : U64) (out : Bytes) : Each P (CI.hash_many_avx512_loop4 n key ds f fs fe num xs off out) := by
  induction num using Nat.strongRecOn generalizing xs off out with
  | ind num ih =>
  rw [CI.hash_many_avx512_loop4]
  split
  next h =>
    exact .enter h4 <| .bindL fun _ => .bindL fun _ => .bindL fun _ => .bindL fun _ =>
      (ih (num - 4) (by omega) ..).bind fun _ => .pure _
  next h => exact each_hash_many_avx512_loop1 n h1 ..

theorem logs_hash_many_avx512_loop4 {F : Ev → Bool} (n : Nat) (key : Vector Word 8) (ds : List U64) (f fs fe : Byte) (num : Nat)
    (xs : List Bytes) (off : U64) (out : Bytes) :
    Logs F ((List.replicate (num / 4) (Ev.hash .avx512 4 n) ++ List.replicate (num % 4) (Ev.hash1 (some .avx512) n)).filter F) (fun _ => True) (CI.hash_many_avx512_loop4 n key ds f fs fe num xs off out) := by
  induction num using Nat.strongRecOn generalizing xs off out with
  | ind num ih =>
  rw [CI.hash_many_avx512_loop4]
  split
  next h =>
    have e : (List.replicate (num / 4) (Ev.hash .avx512 4 n) ++ List.replicate (num % 4) (Ev.hash1 (some .avx512) n)).filter F = [Ev.hash .avx512 4 n].filter F ++ ((List.replicate ((num - 4) / 4) (Ev.hash .avx512 4 n) ++ List.replicate ((num - 4) % 4) (Ev.hash1 (some .avx512) n)).filter F ++ []) := by
      rw [List.append_nil, ← List.filter_append]
      congr 1
      rw [show num / 4 = (num - 4) / 4 + 1 by omega, show (num - 4) % 4 = num % 4 by omega]
      rfl
    rw [e]
    exact (Logs.enter _).bind fun _ _ => (Logs.lift _).bind' fun _ _ => (Logs.lift _).bind' fun _ _ =>
      (Logs.lift _).bind' fun _ _ => (Logs.lift _).bind' fun _ _ => (ih (num - 4) (by omega) ..).bind fun _ _ => .pure trivial
  next h =>
    refine (logs_hash_many_avx512_loop1 ..).cast ?_
    rw [show num / 4 = 0 by omega, show num % 4 = num by omega]
    rfl

theorem each_hash_many_avx512_loop8 {P : Ev → Prop} (n : Nat) (h1 : P (.hash1 (some .avx512) n)) (h4 : P (.hash .avx512 4 n)) (h8 : P (.hash .avx512 8 n)) (key : Vector Word 8) (ds : List U64) (f fs fe : Byte) (num : Nat)
    (xs : List Bytes) (off : U64) (out : Bytes) : Each P (CI.hash_many_avx512_loop8 n key ds f fs fe num xs off out) := by
  induction num using Nat.strongRecOn generalizing xs off out with
  | ind num ih =>
  rw [CI.hash_many_avx512_loop8]
  split
  next h =>
    exact .enter h8 <| .bindL fun _ => .bindL fun _ => .bindL fun _ => .bindL fun _ =>
      (ih (num - 8) (by omega) ..).bind fun _ => .pure _
  next h => exact each_hash_many_avx512_loop4 n h1 h4 ..

theorem logs_hash_many_avx512_loop8 {F : Ev → Bool} (n : Nat) (key : Vector Word 8) (ds : List U64) (f fs fe : Byte) (num : Nat)
    (xs : List Bytes) (off : U64) (out : Bytes) :
    Logs F ((List.replicate (num / 8) (Ev.hash .avx512 8 n) ++ (List.replicate (num % 8 / 4) (Ev.hash .avx512 4 n) ++ List.replicate (num % 4) (Ev.hash1 (some .avx512) n))).filter F) (fun _ => True) (CI.hash_many_avx512_loop8 n key ds f fs fe num xs off out) := by
  induction num using Nat.strongRecOn generalizing xs off out with
  | ind num ih =>
  rw [CI.hash_many_avx512_loop8]
  split
  next h =>
    have e : (List.replicate (num / 8) (Ev.hash .avx512 8 n) ++ (List.replicate (num % 8 / 4) (Ev.hash .avx512 4 n) ++ List.replicate (num % 4) (Ev.hash1 (some .avx512) n))).filter F = [Ev.hash .avx512 8 n].filter F ++ ((List.replicate ((num - 8) / 8) (Ev.hash .avx512 8 n) ++ (List.replicate ((num - 8) % 8 / 4) (Ev.hash .avx512 4 n) ++ List.replicate ((num - 8) % 4) (Ev.hash1 (some .avx512) n))).filter F ++ []) := by
      rw [List.append_nil, ← List.filter_append]
      congr 1
      rw [show num / 8 = (num - 8) / 8 + 1 by omega, show (num - 8) % 8 = num % 8 by omega, show (num - 8) % 4 = num % 4 by omega]
      rfl
    rw [e]
    exact (Logs.enter _).bind fun _ _ => (Logs.lift _).bind' fun _ _ => (Logs.lift _).bind' fun _ _ =>
      (Logs.lift _).bind' fun _ _ => (Logs.lift _).bind' fun _ _ => (ih (num - 8) (by omega) ..).bind fun _ _ => .pure trivial
  next h =>
    refine (logs_hash_many_avx512_loop4 ..).cast ?_
    rw [show num / 8 = 0 by omega, show num % 8 = num by omega]
    rfl

theorem each_hash_many_avx512_loop16 {P : Ev → Prop} (n : Nat) (h1 : P (.hash1 (some .avx512) n)) (h4 : P (.hash .avx512 4 n)) (h8 : P (.hash .avx512 8 n)) (h16 : P (.hash .avx512 16 n)) (key : Vector Word 8) (ds : List U64) (f fs fe : Byte) (num : Nat)
    (xs : List Bytes) (off : U64) (out : Bytes) : Each P (CI.hash_many_avx512_loop16 n key ds f fs fe num xs off out) := by
  induction num using Nat.strongRecOn generalizing xs off out with
  | ind num ih =>
  rw [CI.hash_many_avx512_loop16]
  split
  next h =>
    exact .enter h16 <| .bindL fun _ => .bindL fun _ => .bindL fun _ => .bindL fun _ =>
      (ih (num - 16) (by omega) ..).bind fun _ => .pure _
  next h => exact each_hash_many_avx512_loop8 n h1 h4 h8 ..

theorem logs_hash_many_avx512_loop16 {F : Ev → Bool} (n : Nat) (key : Vector Word 8) (ds : List U64) (f fs fe : Byte) (num : Nat)
    (xs : List Bytes) (off : U64) (out : Bytes) :
    Logs F ((List.replicate (num / 16) (Ev.hash .avx512 16 n) ++ (List.replicate (num % 16 / 8) (Ev.hash .avx512 8 n) ++ (List.replicate (num % 8 / 4) (Ev.hash .avx512 4 n) ++ List.replicate (num % 4) (Ev.hash1 (some .avx512) n)))).filter F) (fun _ => True) (CI.hash_many_avx512_loop16 n key ds f fs fe num xs off out) := by
  induction num using Nat.strongRecOn generalizing xs off out with
  | ind num ih =>
  rw [CI.hash_many_avx512_loop16]
  split
  next h =>
    have e : (List.replicate (num / 16) (Ev.hash .avx512 16 n) ++ (List.replicate (num % 16 / 8) (Ev.hash .avx512 8 n) ++ (List.replicate (num % 8 / 4) (Ev.hash .avx512 4 n) ++ List.replicate (num % 4) (Ev.hash1 (some .avx512) n)))).filter F = [Ev.hash .avx512 16 n].filter F ++ ((List.replicate ((num - 16) / 16) (Ev.hash .avx512 16 n) ++ (List.replicate ((num - 16) % 16 / 8) (Ev.hash .avx512 8 n) ++ (List.replicate ((num - 16) % 8 / 4) (Ev.hash .avx512 4 n) ++ List.replicate ((num - 16) % 4) (Ev.hash1 (some .avx512) n)))).filter F ++ []) := by
      rw [List.append_nil, ← List.filter_append]
      congr 1
      rw [show num / 16 = (num - 16) / 16 + 1 by omega, show (num - 16) % 16 = num % 16 by omega, show (num - 16) % 8 = num % 8 by omega, show (num - 16) % 4 = num % 4 by omega]
      rfl
    rw [e]
    exact (Logs.enter _).bind fun _ _ => (Logs.lift _).bind' fun _ _ => (Logs.lift _).bind' fun _ _ =>
      (Logs.lift _).bind' fun _ _ => (Logs.lift _).bind' fun _ _ => (ih (num - 16) (by omega) ..).bind fun _ _ => .pure trivial
  next h =>
    refine (logs_hash_many_avx512_loop8 ..).cast ?_
    rw [show num / 16 = 0 by omega, show num % 16 = num by omega]
    rfl

theorem each_hash_many_avx512 {P : Ev → Prop} (xs : List Bytes) (num n : Nat) (hm : P (.many (some .avx512))) (h1 : P (.hash1 (some .avx512) n)) (h4 : P (.hash .avx512 4 n)) (h8 : P (.hash .avx512 8 n)) (h16 : P (.hash .avx512 16 n)) (key : Vector Word 8) (off : U64) (ds : List U64)
    (f fs fe : Byte) (out : Bytes) : Each P (CI.hash_many_avx512 xs num n key off ds f fs fe out) :=
  .enter hm (each_hash_many_avx512_loop16 n h1 h4 h8 h16 ..)

theorem logs_hash_many_avx512 {F : Ev → Bool} (hF : ∀ i, F (.many i) = false) (xs : List Bytes) (num n : Nat) (key : Vector Word 8) (off : U64)
    (ds : List U64) (f fs fe : Byte) (out : Bytes) :
    Logs F ((List.replicate (num / 16) (Ev.hash .avx512 16 n) ++ (List.replicate (num % 16 / 8) (Ev.hash .avx512 8 n) ++ (List.replicate (num % 8 / 4) (Ev.hash .avx512 4 n) ++ List.replicate (num % 4) (Ev.hash1 (some .avx512) n)))).filter F) (fun _ => True) (CI.hash_many_avx512 xs num n key off ds f fs fe out) :=
  (Logs.skip (hF _)).bind' fun _ _ => logs_hash_many_avx512_loop16 ..

theorem each_hash_many_neon_loop1 {P : Ev → Prop} (o : ByteOrder) (n : Nat) (h1 : P (.hash1 (some .neon) n)) (key : Vector Word 8) (ds : List U64) (f fs fe : Byte) (num : Nat)
    (xs : List Bytes) (off : U64) (out : Bytes) : Each P (CI.hash_many_neon_loop1 o n key ds f fs fe num xs off out) := by
  induction num generalizing xs off out with
  | zero => exact .pure _
  | succ num ih =>
    rw [CI.hash_many_neon_loop1]
    exact .bindL fun _ => .enter h1 <| .bindL fun _ => .bindL fun _ => .bindL fun _ => .bindL fun _ => (ih ..).bind fun _ => .pure _

theorem logs_hash_many_neon_loop1 {F : Ev → Bool} (o : ByteOrder) (n : Nat) (key : Vector Word 8) (ds : List U64) (f fs fe : Byte) (num : Nat)
    (xs : List Bytes) (off : U64) (out : Bytes) :
    Logs F ((List.replicate num (.hash1 (some .neon) n)).filter F) (fun _ => True) (CI.hash_many_neon_loop1 o n key ds f fs fe num xs off out) := by
  induction num generalizing xs off out with
  | zero => exact .pure trivial
  | succ num ih =>
    rw [CI.hash_many_neon_loop1]
    have e : (List.replicate (num + 1) (Ev.hash1 (some .neon) n)).filter F =
        [Ev.hash1 (some .neon) n].filter F ++ ((List.replicate num (.hash1 (some .neon) n)).filter F ++ []) := by
      rw [List.append_nil, ← List.filter_append]; rfl
    rw [e]
    exact (Logs.lift _).bind' fun _ _ => (Logs.enter _).bind fun _ _ => (Logs.lift _).bind' fun _ _ => (Logs.lift _).bind' fun _ _ =>
      (Logs.lift _).bind' fun _ _ => (Logs.lift _).bind' fun _ _ => (ih ..).bind fun _ _ => .pure trivial

theorem each_hash_many_neon_loop4 {P : Ev → Prop} (o : ByteOrder) (n : Nat) (h1 : P (.hash1 (some .neon) n)) (h4 : P (.hash .neon 4 n)) (key : Vector Word 8) (ds : List U64) (f fs fe : Byte) (num : Nat)
    (xs : List Bytes) (off : U64) (out : Bytes) : Each P (CI.hash_many_neon_loop4 o n key ds f fs fe num xs off out) := by
  induction num using Nat.strongRecOn generalizing xs off out with
  | ind num ih =>
  rw [CI.hash_many_neon_loop4]
  split
  next h =>
    exact .enter h4 <| .bindL fun _ => .bindL fun _ => .bindL fun _ => .bindL fun _ =>
      (ih (num - 4) (by omega) ..).bind fun _ => .pure _
  next h => exact each_hash_many_neon_loop1 o n h1 ..

theorem logs_hash_many_neon_loop4 {F : Ev → Bool} (o : ByteOrder) (n : Nat) (key : Vector Word 8) (ds : List U64) (f fs fe : Byte) (num : Nat)
    (xs : List Bytes) (off : U64) (out : Bytes) :
    Logs F ((List.replicate (num / 4) (Ev.hash .neon 4 n) ++ List.replicate (num % 4) (Ev.hash1 (some .neon) n)).filter F) (fun _ => True) (CI.hash_many_neon_loop4 o n key ds f fs fe num xs off out) := by
  induction num using Nat.strongRecOn generalizing xs off out with
  | ind num ih =>
  rw [CI.hash_many_neon_loop4]
  split
  next h =>
    have e : (List.replicate (num / 4) (Ev.hash .neon 4 n) ++ List.replicate (num % 4) (Ev.hash1 (some .neon) n)).filter F = [Ev.hash .neon 4 n].filter F ++ ((List.replicate ((num - 4) / 4) (Ev.hash .neon 4 n) ++ List.replicate ((num - 4) % 4) (Ev.hash1 (some .neon) n)).filter F ++ []) := by
      rw [List.append_nil, ← List.filter_append]
      congr 1
      rw [show num / 4 = (num - 4) / 4 + 1 by omega, show (num - 4) % 4 = num % 4 by omega]
      rfl
    rw [e]
    exact (Logs.enter _).bind fun _ _ => (Logs.lift _).bind' fun _ _ => (Logs.lift _).bind' fun _ _ =>
      (Logs.lift _).bind' fun _ _ => (Logs.lift _).bind' fun _ _ => (ih (num - 4) (by omega) ..).bind fun _ _ => .pure trivial
  next h =>
    refine (logs_hash_many_neon_loop1 ..).cast ?_
    rw [show num / 4 = 0 by omega, show num % 4 = num by omega]
    rfl

theorem each_hash_many_neon {P : Ev → Prop} (o : ByteOrder) (xs : List Bytes) (num n : Nat) (hm : P (.many (some .neon))) (h1 : P (.hash1 (some .neon) n)) (h4 : P (.hash .neon 4 n)) (key : Vector Word 8) (off : U64) (ds : List U64)
    (f fs fe : Byte) (out : Bytes) : Each P (CI.hash_many_neon o xs num n key off ds f fs fe out) :=
  .enter hm (each_hash_many_neon_loop4 o n h1 h4 ..)

theorem logs_hash_many_neon {F : Ev → Bool} (hF : ∀ i, F (.many i) = false) (o : ByteOrder) (xs : List Bytes) (num n : Nat) (key : Vector Word 8) (off : U64)
    (ds : List U64) (f fs fe : Byte) (out : Bytes) :
    Logs F ((List.replicate (num / 4) (Ev.hash .neon 4 n) ++ List.replicate (num % 4) (Ev.hash1 (some .neon) n)).filter F) (fun _ => True) (CI.hash_many_neon o xs num n key off ds f fs fe out) :=
  (Logs.skip (hF _)).bind' fun _ _ => logs_hash_many_neon_loop4 ..

theorem logs_hash_many {F : Ev → Bool} (hF : ∀ i, F (.many i) = false) (cfg : C.Config) (xs : List Bytes) (num n : Nat)
    (key : Vector Word 8) (off : U64) (ds : List U64) (f fs fe : Byte) (out : Bytes) :
    Logs F ((kernels cfg n num).filter F) (fun _ => True) (CI.hash_many cfg xs num n key off ds f fs fe out) := by
  unfold CI.hash_many kernels
  split
  · exact logs_hash_many_avx512 hF ..
  split
  · exact logs_hash_many_avx2 hF ..
  split
  · exact logs_hash_many_sse41 hF ..
  split
  · exact logs_hash_many_neon hF ..
  · exact logs_hash_many_portable hF ..

/-- a property of everything `hash_many` may enter -/
structure Kernels (P : Ev → Prop) (cfg : C.Config) (n : Nat) : Prop where
  portable : P (.many none) ∧ P (.hash1 none n)
  sse41 : cfg.sse41 = true ∨ cfg.avx2 = true → P (.many (some .sse41)) ∧ P (.hash1 (some .sse41) n) ∧ P (.hash .sse41 4 n)
  avx2 : cfg.avx2 = true → P (.many (some .avx2)) ∧ P (.hash .avx2 8 n)
  avx512 : cfg.avx512 = true → P (.many (some .avx512)) ∧ P (.hash1 (some .avx512) n) ∧ P (.hash .avx512 4 n) ∧
    P (.hash .avx512 8 n) ∧ P (.hash .avx512 16 n)
  neon : cfg.neon = true → P (.many (some .neon)) ∧ P (.hash1 (some .neon) n) ∧ P (.hash .neon 4 n)

theorem each_hash_many {P : Ev → Prop} {cfg : C.Config} {n : Nat} (hk : Kernels P cfg n) (xs : List Bytes) (num : Nat)
    (key : Vector Word 8) (off : U64) (ds : List U64) (f fs fe : Byte) (out : Bytes) :
    Each P (CI.hash_many cfg xs num n key off ds f fs fe out) := by
  unfold CI.hash_many
  split
  next h =>
    obtain ⟨h0, h1, h4, h8, h16⟩ := hk.avx512 h
    exact each_hash_many_avx512 xs num n h0 h1 h4 h8 h16 ..
  split
  next h =>
    obtain ⟨h0, h1, h4⟩ := hk.sse41 (Or.inr h)
    obtain ⟨h2, h8⟩ := hk.avx2 h
    exact each_hash_many_avx2 xs num n h2 h0 h1 h4 h8 ..
  split
  next h =>
    obtain ⟨h0, h1, h4⟩ := hk.sse41 (Or.inl h)
    exact each_hash_many_sse41 xs num n h0 h1 h4 ..
  split
  next h =>
    obtain ⟨h0, h1, h4⟩ := hk.neon h
    exact each_hash_many_neon _ xs num n h0 h1 h4 ..
  · exact each_hash_many_portable xs num n hk.portable.1 hk.portable.2 ..

/-! ## The functions of baokeshed.c enter only what the build contains -/

/-- a property of everything the functions of baokeshed.c record -/
structure Calls (P : Ev → Prop) (cfg : C.Config) : Prop where
  avx512 : cfg.avx512 = true → ∀ f, P (.compress (some .avx512) f)
  sse41 : cfg.avx512 = false → cfg.sse41 = true → ∀ f, P (.compress (some .sse41) f)
  portable : cfg.avx512 = false → cfg.sse41 = false → ∀ f, P (.compress none f)
  copy : ∀ n, P (.copy n)
  kernels : ∀ n, Kernels P cfg n

section
variable {P : Ev → Prop} {cfg : C.Config} (hP : Calls P cfg)
include hP

theorem each_compress (st : Vector Word 8) (b : Bytes) (l : Byte) (off : U64) (f : Byte) :
    Each P (CI.compress cfg st b l off f) := by
  unfold CI.compress
  split
  next h => exact .enter (hP.avx512 h f) (.lift _)
  next h0 =>
  split
  next h => exact .enter (hP.sse41 (Bool.eq_false_iff.2 h0) h f) (.lift _)
  next h => exact .enter (hP.portable (Bool.eq_false_iff.2 h0) (Bool.eq_false_iff.2 h) f) (.lift _)

theorem each_fill_buf (s : chunk_state) (x : Bytes) (n : Nat) : Each P (CI.chunk_state_fill_buf cfg s x n) :=
  .enter (hP.copy _) <| .bindL fun _ => .pure _

theorem each_update_first (s : chunk_state) (x : Bytes) (n : Nat) : Each P (CI.chunk_state_update_first cfg s x n) := by
  unfold CI.chunk_state_update_first
  split
  · refine (each_fill_buf hP ..).bind fun a => .bindL fun _ => ?_
    dsimp only
    split
    · exact (each_compress hP ..).bind fun _ => .pure _
    · exact .pure _
  · exact .pure _

theorem each_update_blocks (s : chunk_state) (x : Bytes) (n : Nat) : Each P (CI.chunk_state_update_blocks cfg s x n) := by
  induction n using Nat.strongRecOn generalizing s x with
  | ind n ih =>
  rw [CI.chunk_state_update_blocks]
  split
  next h =>
    exact (each_compress hP ..).bind fun _ => .bindL fun _ => ih (n - C.BLOCK_LEN) (by simp only [C.BLOCK_LEN] at *; omega) _ _
  · exact .pure _

theorem each_chunk_update (s : chunk_state) (x : Bytes) (n : Nat) : Each P (CI.chunk_state_update cfg s x n) :=
  (each_update_first hP ..).bind fun _ => (each_update_blocks hP ..).bind fun _ => (each_fill_buf hP ..).bind fun _ =>
    .bindL fun _ => .pure _

theorem each_chunk_finalize (s : chunk_state) (r : Bool) (out : Bytes) : Each P (CI.chunk_state_finalize cfg s r out) :=
  (each_compress hP ..).bind fun _ => .lift _

theorem each_parent (b : Bytes) (k : Vector Word 8) (r : Bool) (f : Byte) (out : Bytes) :
    Each P (CI.hash_one_parent cfg b k r f out) :=
  (each_compress hP ..).bind fun _ => .lift _

theorem each_merge_parent (h : hasher) : Each P (CI.hasher_merge_parent cfg h) :=
  .bindL fun _ => (each_parent hP ..).bind fun _ => .bindL fun _ => .pure _

theorem each_merge_loop (h : hasher) (off : U64) : Each P (CI.merge_loop cfg h off) := by
  fun_induction CI.merge_loop cfg h off with
  | case1 h hm e he =>
    have := each_merge_parent hP h
    unfold Each at *
    exact this
  | case2 h hm h' he rest ih =>
    have := each_merge_parent hP h
    unfold Each at *
    exact fun c hc => (List.mem_append.1 hc).elim (this c) (ih c)
  | case3 h hm => exact .pure _

theorem each_push (h : hasher) (x : Bytes) (off : U64) : Each P (CI.hasher_push_chunk_hash cfg h x off) :=
  .bindL fun _ => (each_merge_loop hP ..).bind fun _ => .bindL fun _ => .pure _

theorem each_push_chunks (h : hasher) (x : Bytes) (i left : Nat) : Each P (CI.push_chunks cfg h x i left) := by
  induction left generalizing h i with
  | zero => exact .pure _
  | succ n ih => exact .bindL fun _ => (each_push hP ..).bind fun _ => ih _ _

theorem each_update_loop (h : hasher) (out : Bytes) (cs : List Bytes) (x : Bytes) (n : Nat) :
    Each P (CI.update_loop cfg h out cs x n) := by
  induction n using Nat.strongRecOn generalizing h out cs x with
  | ind n ih =>
  rw [CI.update_loop]
  split
  next hn =>
    split
    next e he => unfold Each; exact fun c hc => by cases hc
    next cs' x' n' k he =>
      exact (each_hash_many (hP.kernels _) ..).bind fun _ => (each_push_chunks hP ..).bind fun _ =>
        ih n' (collect_lt hn he) _ _ _ _
  next => exact .pure _

theorem each_update_rest (h : hasher) (x : Bytes) (n : Nat) : Each P (CI.hasher_update_rest cfg h x n) := by
  refine (each_update_loop hP ..).bind fun a => ?_
  dsimp only
  split
  · exact (each_merge_loop hP ..).bind fun _ => (each_chunk_update hP ..).bind fun _ => .pure _
  · exact .pure _

theorem each_update (h : hasher) (x : Bytes) (n : Nat) : Each P (CI.hasher_update cfg h x n) := by
  unfold CI.hasher_update
  dsimp only
  split
  · generalize (if subSz cfg.bits C.CHUNK_LEN (chunk_state_len cfg h.chunk) > n then n
      else subSz cfg.bits C.CHUNK_LEN (chunk_state_len cfg h.chunk)) = take
    refine (each_chunk_update hP ..).bind fun _ => .bindL fun _ => ?_
    split
    · exact (each_chunk_finalize hP ..).bind fun _ => (each_push hP ..).bind fun _ => each_update_rest hP ..
    · exact .pure _
  · exact each_update_rest hP ..

theorem each_finalize_loop (h : hasher) (out : Bytes) (fuel : Nat) (wh : Bytes) (i : Nat) :
    Each P (CI.finalize_loop cfg h out fuel wh i) := by
  induction fuel generalizing wh i with
  | zero => unfold Each; exact fun c hc => by cases hc
  | succ n ih =>
    rw [CI.finalize_loop]
    refine .bindL fun _ => .bindL fun _ => .bindL fun _ => (each_parent hP ..).bind fun _ => ?_
    split
    · exact .lift _
    · exact ih _ _

theorem each_finalize (h : hasher) (out : Bytes) : Each P (CI.hasher_finalize cfg h out) := by
  unfold CI.hasher_finalize
  split
  · exact each_chunk_finalize hP ..
  · dsimp only
    split
    · exact (each_chunk_finalize hP ..).bind fun _ => each_finalize_loop hP ..
    · exact .bindL fun _ => .bindL fun _ => each_finalize_loop hP ..

end

/-- the functions of files that the build does not contain are not entered -/
theorem calls_built (cfg : C.Config) : Calls (fun c => ∀ i, c.isa = some i → built cfg i) cfg := by
  refine ⟨?_, ?_, ?_, ?_, fun n => ⟨?_, ?_, ?_, ?_, ?_⟩⟩
  · intro h f i e; cases e; exact h
  · intro _ h f i e; cases e; exact Or.inl h
  · intro _ _ f i e; cases e
  · intro n i e; cases e
  · refine ⟨?_, ?_⟩ <;> (intro i e; cases e)
  · intro h; refine ⟨?_, ?_, ?_⟩ <;> (intro i e; cases e; exact h)
  · intro h; refine ⟨?_, ?_⟩ <;> (intro i e; cases e; exact h)
  · intro h; refine ⟨?_, ?_, ?_, ?_, ?_⟩ <;> (intro i e; cases e; exact h)
  · intro h; refine ⟨?_, ?_, ?_⟩ <;> (intro i e; cases e; exact h)

/-- single blocks are compressed with the best function there is -/
theorem calls_best (cfg : C.Config) : Calls (fun c => ∀ i f, c = .compress i f → i = best cfg) cfg := by
  refine ⟨?_, ?_, ?_, ?_, fun n => ⟨?_, ?_, ?_, ?_, ?_⟩⟩
  · intro h f i f' e; cases e; rw [best, if_pos h]
  · intro h0 h f i f' e; cases e; rw [best, h0, if_neg Bool.false_ne_true, if_pos h]
  · intro h0 h f i f' e; cases e; rw [best, h0, h]; rfl
  · intro n i f e; cases e
  · refine ⟨?_, ?_⟩ <;> (intro i f e; cases e)
  · intro h; refine ⟨?_, ?_, ?_⟩ <;> (intro i f e; cases e)
  · intro h; refine ⟨?_, ?_⟩ <;> (intro i f e; cases e)
  · intro h; refine ⟨?_, ?_, ?_, ?_, ?_⟩ <;> (intro i f e; cases e)
  · intro h; refine ⟨?_, ?_, ?_⟩ <;> (intro i f e; cases e)

/-! ## Which kernels hash the chunks -/

theorem kernels_add (cfg : C.Config) (n a b : Nat) (h : lanes cfg ∣ a) :
    kernels cfg n (a + b) = kernels cfg n a ++ kernels cfg n b := by
  obtain ⟨k, rfl⟩ := h
  unfold lanes kernels
  split
  · rw [show (16 * k + b) / 16 = k + b / 16 by omega, show (16 * k + b) % 16 = b % 16 by omega,
      show (16 * k + b) % 8 = b % 8 by omega, show (16 * k + b) % 4 = b % 4 by omega, show 16 * k / 16 = k by omega,
      show 16 * k % 16 = 0 by omega, show 16 * k % 8 = 0 by omega, show 16 * k % 4 = 0 by omega,
      ← List.replicate_append_replicate, List.append_assoc]
    simp
  split
  · rw [show (8 * k + b) / 8 = k + b / 8 by omega,
      show (8 * k + b) % 8 = b % 8 by omega, show (8 * k + b) % 4 = b % 4 by omega, show 8 * k / 8 = k by omega,
      show 8 * k % 8 = 0 by omega, show 8 * k % 4 = 0 by omega, ← List.replicate_append_replicate, List.append_assoc]
    simp
  split
  · rw [show (4 * k + b) / 4 = k + b / 4 by omega, show (4 * k + b) % 4 = b % 4 by omega, show 4 * k / 4 = k by omega,
      show 4 * k % 4 = 0 by omega, ← List.replicate_append_replicate, List.append_assoc]
    simp
  split
  · rw [show (4 * k + b) / 4 = k + b / 4 by omega, show (4 * k + b) % 4 = b % 4 by omega, show 4 * k / 4 = k by omega,
      show 4 * k % 4 = 0 by omega, ← List.replicate_append_replicate, List.append_assoc]
    simp
  · rw [Nat.one_mul, List.replicate_append_replicate]

theorem kernels_zero (cfg : C.Config) (n : Nat) : kernels cfg n 0 = [] := by
  unfold kernels
  repeat' split
  all_goals rfl

theorem lanes_dvd (cfg : C.Config) : lanes cfg ∣ 16 := by
  unfold lanes
  repeat' split
  all_goals decide

theorem kernels_mem {cfg : C.Config} {n k : Nat} {c : Ev} (h : c ∈ kernels cfg n k) :
    (∃ i, c = .hash1 i n) ∨ ∃ i w, c = .hash i w n := by
  unfold kernels at h
  repeat' split at h
  all_goals try simp only [List.mem_append] at h
  all_goals
    first
    | (rcases h with h | h | h | h)
    | (rcases h with h | h | h)
    | (rcases h with h | h)
    | skip
  all_goals
    first
    | exact Or.inl ⟨_, List.eq_of_mem_replicate h⟩
    | exact Or.inr ⟨_, _, List.eq_of_mem_replicate h⟩

/-- filters that keep kernels with whole chunks and drop the calls of `hash_many` and the compression of parents -/
structure Keeps (F : Ev → Bool) : Prop where
  many : ∀ i, F (.many i) = false
  parent : ∀ i f, F (.compress i (f ||| C.PARENT)) = false
  hash1 : ∀ i, F (.hash1 i 32) = true
  hash : ∀ i w, F (.hash i w 32) = true

theorem keeps_chunkKernel : Keeps chunkKernel := ⟨fun _ => rfl, fun _ _ => rfl, fun _ => rfl, fun _ _ => rfl⟩

theorem keeps_chunkWork : Keeps chunkWork := by
  refine ⟨fun _ => rfl, fun i f => ?_, fun _ => rfl, fun _ _ => rfl⟩
  have : (f ||| 4) &&& 4 = 4 := by
    ext i hi
    simp only [BitVec.getElem_and, BitVec.getElem_or]
    cases f[i] <;> cases (4 : Byte)[i] <;> rfl
  show ((f ||| 4) &&& 4 == 0) = false
  rw [this]; rfl

section
variable {F : Ev → Bool} (hF : Keeps F)
include hF

theorem kernels_32 (cfg : C.Config) (n : Nat) : (kernels cfg 32 n).filter F = kernels cfg 32 n := by
  rw [List.filter_eq_self]
  intro a ha
  rcases kernels_mem ha with ⟨i, rfl⟩ | ⟨i, w, rfl⟩
  · exact hF.hash1 i
  · exact hF.hash i w

variable {cfg : C.Config}

theorem logs_parent (b : Bytes) (k : Vector Word 8) (f : Byte) (out : Bytes) :
    Logs F [] (fun _ => True) (CI.hash_one_parent cfg b k false f out) := by
  refine Logs.bind' (Q := fun _ => True) ?_ fun _ _ => (Logs.lift _).weaken fun _ _ => trivial
  unfold CI.compress
  rw [if_neg (c := (false : Bool) = true) (by decide)]
  repeat' split
  all_goals exact (Logs.skip (hF.parent _ _)).bind' fun _ _ => (Logs.lift _).weaken fun _ _ => trivial

theorem logs_merge_parent (h : hasher) :
    Logs F [] (fun h' => h'.chunk = h.chunk) (CI.hasher_merge_parent cfg h) :=
  (Logs.lift _).bind' fun _ _ => (logs_parent hF ..).bind' fun _ _ => (Logs.lift _).bind' fun _ _ => .pure rfl

theorem logs_merge_loop (h : hasher) (off : U64) :
    Logs F [] (fun h' => h'.chunk = h.chunk) (CI.merge_loop cfg h off) := by
  fun_induction CI.merge_loop cfg h off with
  | case1 h hm e he => exact .error _ _
  | case2 h hm h' he rest ih =>
    have h1 := (logs_merge_parent hF (cfg := cfg) h).ok (by rw [merge_parent_res]; exact he)
    unfold Logs at *
    intro a ha
    obtain ⟨h2, h3⟩ := ih a ha
    refine ⟨?_, h3.trans h1.2⟩
    show (_ ++ rest.log).filter F = []
    rw [List.filter_append, h1.1, h2]; rfl
  | case3 h hm => exact .pure rfl

theorem logs_push (h : hasher) (x : Bytes) (off : U64) :
    Logs F [] (fun h' => h'.chunk = h.chunk) (CI.hasher_push_chunk_hash cfg h x off) :=
  (Logs.lift _).bind' fun _ _ => (logs_merge_loop hF ..).bind' fun _ e => (Logs.lift _).bind' fun _ _ => .pure e

theorem logs_push_chunks (h : hasher) (x : Bytes) (i left : Nat) :
    Logs F [] (fun h' => h'.chunk = { h.chunk with offset := h'.chunk.offset }) (CI.push_chunks cfg h x i left) := by
  induction left generalizing h i with
  | zero => exact .pure rfl
  | succ n ih =>
    refine (Logs.lift _).bind' fun _ _ => (logs_push hF ..).bind' fun h' e => (ih _ _).weaken fun h'' e' => ?_
    rw [e'] ; rw [e]

end

theorem collect_count {cs cs' : List Bytes} {x x' : Bytes} {n n' k k' : Nat}
    (e : collect_chunks cs x n k = .ok (cs', x', n', k')) (hk : k ≤ 16) :
    k' = min 16 (k + n / 2048) ∧ n' = n - 2048 * (k' - k) := by
  induction hm : 16 - k generalizing cs x n k with
  | zero =>
    rw [collect_chunks, if_neg (by simp only [C.MAX_SIMD_DEGREE] at *; omega)] at e
    cases e
    omega
  | succ m ih =>
    rw [collect_chunks] at e
    split at e
    next h =>
      simp only [bind, Except.bind] at e
      repeat' split at e
      all_goals try cases e
      simp only [C.CHUNK_LEN, C.MAX_SIMD_DEGREE] at *
      have := ih e (by omega) (by omega)
      omega
    next h =>
      cases e
      simp only [C.CHUNK_LEN, C.MAX_SIMD_DEGREE] at *
      omega

section
variable {F : Ev → Bool} (hF : Keeps F) {cfg : C.Config}
include hF

theorem logs_update_loop (h : hasher) (out : Bytes) (cs : List Bytes) (x : Bytes) (n : Nat) :
    Logs F (kernels cfg 32 (n / 2048)) (fun a => a.1.chunk = { h.chunk with offset := a.1.chunk.offset } ∧ a.2.2 = n % 2048)
      (CI.update_loop cfg h out cs x n) := by
  induction n using Nat.strongRecOn generalizing h out cs x with
  | ind n ih =>
  rw [CI.update_loop]
  split
  next hn =>
    split
    next e he => exact .error _ _
    next cs' x' n' k he =>
      obtain ⟨hk, hn'⟩ := collect_count he (by omega)
      rw [Nat.zero_add] at hk
      have e : kernels cfg 32 (n / 2048) = kernels cfg 32 k ++ kernels cfg 32 (n' / 2048) := by
        have hq : n / 2048 = k + n' / 2048 := by omega
        rw [hq]
        by_cases h16 : k = 16
        · exact kernels_add _ _ _ _ (h16 ▸ lanes_dvd cfg)
        · rw [show n' / 2048 = 0 by omega]
          have h0 := kernels_zero cfg 32
          rw [h0, List.append_nil, Nat.add_zero]
      rw [e]
      refine ((logs_hash_many hF.many cfg _ k 32 _ _ _ _ _ _ _).cast (kernels_32 hF cfg k)).bind fun _ _ =>
        (logs_push_chunks hF ..).bind' fun h' eh => (ih n' (collect_lt hn he) h' _ _ _).weaken fun a ha => ?_
      obtain ⟨h1, h2⟩ := ha
      refine ⟨?_, by omega⟩
      rw [h1, eh]
  next hn =>
    simp only [C.CHUNK_LEN] at hn
    rw [show n / 2048 = 0 by omega]
    have h0 := kernels_zero cfg 32
    rw [h0]
    exact .pure ⟨rfl, by show n = _; omega⟩

/-- whole chunks only -/
theorem logs_update_rest_whole (h : hasher) (x : Bytes) (n : Nat) (hn : n % 2048 = 0) :
    Logs F (kernels cfg 32 (n / 2048)) (fun h' => h'.chunk = { h.chunk with offset := h'.chunk.offset })
      (CI.hasher_update_rest cfg h x n) := by
  rw [← List.append_nil (kernels _ _ _)]
  refine (logs_update_loop hF ..).bind fun a ha => ?_
  obtain ⟨h', x', n'⟩ := a
  have ha2 : n' = n % 2048 := ha.2
  dsimp only
  rw [if_neg (by omega)]
  exact .pure ha.1

end

theorem logs_compress (cfg : C.Config) (st : Vector Word 8) (b : Bytes) (l : Byte) (off : U64) (f : Byte) :
    Logs chunkKernel [] (fun _ => True) (CI.compress cfg st b l off f) := by
  unfold CI.compress
  repeat' split
  all_goals exact (Logs.skip rfl).bind' fun _ _ => (Logs.lift _).weaken fun _ _ => trivial

theorem logs_fill_buf (cfg : C.Config) (s : chunk_state) (x : Bytes) (n : Nat) :
    Logs chunkKernel [] (fun _ => True) (CI.chunk_state_fill_buf cfg s x n) :=
  (Logs.skip rfl).bind' fun _ _ => (Logs.lift _).bind' fun _ _ => .pure trivial

theorem logs_chunk_update (cfg : C.Config) (s : chunk_state) (x : Bytes) (n : Nat) :
    Logs chunkKernel [] (fun _ => True) (CI.chunk_state_update cfg s x n) := by
  have hb : ∀ (n : Nat) (s : chunk_state) (x : Bytes),
      Logs chunkKernel [] (fun _ => True) (CI.chunk_state_update_blocks cfg s x n) := by
    intro n
    induction n using Nat.strongRecOn with
    | ind n ih =>
      intro s x
      rw [CI.chunk_state_update_blocks]
      split
      next h =>
        exact (logs_compress ..).bind' fun _ _ => (Logs.lift _).bind' fun _ _ =>
          ih (n - C.BLOCK_LEN) (by simp only [C.BLOCK_LEN] at *; omega) _ _
      · exact .pure trivial
  refine Logs.bind' (Q := fun _ => True) ?_ fun _ _ => (hb ..).bind' fun _ _ => (logs_fill_buf ..).bind' fun _ _ =>
    (Logs.lift _).bind' fun _ _ => .pure trivial
  unfold CI.chunk_state_update_first
  split
  · refine (logs_fill_buf ..).bind' fun a _ => (Logs.lift _).bind' fun _ _ => ?_
    dsimp only
    split
    · exact (logs_compress ..).bind' fun _ _ => .pure trivial
    · exact .pure trivial
  · exact .pure trivial

theorem logs_update_rest (cfg : C.Config) (h : hasher) (x : Bytes) (n : Nat) :
    Logs chunkKernel (kernels cfg 32 (n / 2048)) (fun _ => True) (CI.hasher_update_rest cfg h x n) := by
  rw [← List.append_nil (kernels _ _ _)]
  refine (logs_update_loop keeps_chunkKernel ..).bind fun a ha => ?_
  dsimp only
  split
  · exact (logs_merge_loop keeps_chunkKernel ..).bind' fun _ _ => (logs_chunk_update ..).bind' fun _ _ => .pure trivial
  · exact .pure trivial

/-- how many bytes of an update go to the chunk state at first -/
def firstBytes (cfg : C.Config) (h : hasher) (n : Nat) : Nat :=
  if (h.chunk.offset = 0 ∧ n = 2048) ∨ chunk_state_len cfg h.chunk > 0 then min (2048 - chunk_state_len cfg h.chunk) n else 0

theorem logs_update (cfg : C.Config) (h16 : 16 ≤ cfg.bits) (h : hasher) (x : Bytes) (n : Nat)
    (hl : chunk_state_len cfg h.chunk ≤ 2048) :
    Logs chunkKernel (kernels cfg 32 ((n - firstBytes cfg h n) / 2048)) (fun _ => True) (CI.hasher_update cfg h x n) := by
  unfold CI.hasher_update firstBytes
  dsimp only
  split
  next hc =>
    have hp : 2 ^ 16 ≤ 2 ^ cfg.bits := Nat.pow_le_pow_right (by decide) h16
    have hs : subSz cfg.bits C.CHUNK_LEN (chunk_state_len cfg h.chunk) = 2048 - chunk_state_len cfg h.chunk := by
      rw [subSz, C.CHUNK_LEN, Nat.mod_eq_of_lt (by omega : chunk_state_len cfg h.chunk < 2 ^ cfg.bits),
        show 2048 + 2 ^ cfg.bits - chunk_state_len cfg h.chunk = (2048 - chunk_state_len cfg h.chunk) + 2 ^ cfg.bits by omega,
        Nat.add_mod_right, Nat.mod_eq_of_lt (by omega)]
    rw [hs]
    have ht : (if 2048 - chunk_state_len cfg h.chunk > n then n else 2048 - chunk_state_len cfg h.chunk) =
        min (2048 - chunk_state_len cfg h.chunk) n := by split <;> omega
    rw [ht]
    refine (logs_chunk_update ..).bind' fun _ _ => (Logs.lift _).bind' fun _ _ => ?_
    split
    · refine Logs.bind' (Q := fun _ => True) ((logs_compress ..).bind' fun _ _ => (Logs.lift _).weaken fun _ _ => trivial) fun _ _ =>
        (logs_push keeps_chunkKernel ..).bind' fun _ _ => logs_update_rest ..
    next h0 =>
      rw [show n - min (2048 - chunk_state_len cfg h.chunk) n = 0 by omega]
      have h0 : kernels cfg 32 (0 / 2048) = [] := kernels_zero cfg 32
      rw [h0]
      exact .pure trivial
  next hc =>
    rw [Nat.sub_zero]
    exact logs_update_rest ..

/-- whole chunks after whole chunks -/
theorem logs_update_whole {F : Ev → Bool} (hF : Keeps F) (cfg : C.Config) (h : hasher) (x : Bytes) (n : Nat)
    (hl : chunk_state_len cfg h.chunk = 0) (hn : n % 2048 = 0) (h1 : ¬ (h.chunk.offset = 0 ∧ n = 2048)) :
    Logs F (kernels cfg 32 (n / 2048)) (fun h' => chunk_state_len cfg h'.chunk = 0) (CI.hasher_update cfg h x n) := by
  unfold CI.hasher_update
  dsimp only
  rw [if_neg (by simp only [C.CHUNK_LEN]; exact fun h2 => h2.elim h1 (by omega))]
  refine (logs_update_rest_whole hF h x n hn).weaken fun h' e => ?_
  rw [e]
  exact hl

end Baokeshed.Proofs.CI
