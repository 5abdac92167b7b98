import Verif.Proofs.Steps

/-!
# C89: what the compression functions execute does not depend on keys or content

Model/Steps.lean repeats the kernels of the library and records each operation, each intrinsic with its immediate operands, each
access to an array with its index, and the outcome of each condition, in order.
-/

namespace Baokeshed.Props
open Baokeshed.Model Baokeshed.Proofs
set_option linter.unusedVariables false

/-- What an observer of the steps learns: the steps in order, and the reason of a panic. -/
def watched {α : Type} (x : Steps.Try α) : List Steps.Step × Option Panic :=
  (x.log, match x.res with | .ok _ => none | .error e => some e)

theorem watched_eq {α β : Type} {Q : α → β → Prop} {x : Steps.Try α} {y : Steps.Try β} (h : Steps.Same Q x y) :
    watched x = watched y := by
  obtain ⟨rx, lx⟩ := x
  obtain ⟨ry, ly⟩ := y
  obtain ⟨h1, h2⟩ := h
  refine Prod.ext h1 ?_
  cases rx <;> cases ry
  · exact congrArg some h2
  · exact h2.elim
  · exact h2.elim
  · rfl

/-- C89.  The recording versions return what the functions return. -/
theorem C89_same_results :
    (∀ cv b l t f, (Steps.Portable.compress cv b l t f).val = Portable.compress cv b l t f) ∧
    (∀ cv b l t f, (Steps.Portable.compress_xof cv b l t f).val = Portable.compress_xof cv b l t f) ∧
    (∀ xs k t d f fs fe out, (Steps.Portable.hash_many xs k t d f fs fe out).res = Portable.hash_many xs k t d f fs fe out) ∧
    (∀ cv b l t f, (Steps.Sse41.compress cv b l t f).val = Sse41.compress cv b l t f) ∧
    (∀ cv b l t f, (Steps.Sse41.compress_xof cv b l t f).val = Sse41.compress_xof cv b l t f) ∧
    (∀ cap xs k t d f fs fe out, (Steps.Sse41.hash_many cap xs k t d f fs fe out).res = Sse41.hash_many cap xs k t d f fs fe out) ∧
    (∀ cap xs k t d f fs fe out, (Steps.Avx2.hash_many cap xs k t d f fs fe out).res = Avx2.hash_many cap xs k t d f fs fe out) :=
  ⟨Steps.p_compress_val, Steps.p_compress_xof_val, Steps.p_hash_many_res, Steps.s_compress_val, Steps.s_compress_xof_val,
    Steps.s_hash_many_res, Steps.a_hash_many_res⟩

/-- C89.  There is one list of steps that every call of `compress` of portable.rs executes, whatever the chaining value, the block,
its length, the offset and the flags; and so for `compress_xof` and for the functions of sse41.rs. -/
theorem C89_compress :
    (∃ steps, ∀ cv b l t f, (Steps.Portable.compress cv b l t f).log = steps) ∧
    (∃ steps, ∀ cv b l t f, (Steps.Portable.compress_xof cv b l t f).log = steps) ∧
    (∃ steps, ∀ cv b l t f, (Steps.Sse41.compress cv b l t f).log = steps) ∧
    (∃ steps, ∀ cv b l t f, (Steps.Sse41.compress_xof cv b l t f).log = steps) :=
  ⟨⟨_, fun cv b l t f => Steps.p_compress_eqv cv b l t f (Vector.replicate 8 0) (Vector.replicate 64 0) 0 0 0⟩,
    ⟨_, fun cv b l t f => Steps.p_compress_xof_eqv cv b l t f (Vector.replicate 8 0) (Vector.replicate 64 0) 0 0 0⟩,
    ⟨_, fun cv b l t f => Steps.s_compress_eqv cv b l t f (Vector.replicate 8 0) (Vector.replicate 64 0) 0 0 0⟩,
    ⟨_, fun cv b l t f => Steps.s_compress_xof_eqv cv b l t f (Vector.replicate 8 0) (Vector.replicate 64 0) 0 0 0⟩⟩

/-- Slices of the same lengths, one by one. -/
inductive SameLengths : List Bytes → List Bytes → Prop where
  | nil : SameLengths [] []
  | cons {x y : Bytes} {xs ys : List Bytes} : x.length = y.length → SameLengths xs ys → SameLengths (x :: xs) (y :: ys)

theorem SameLengths.lens {xs ys : List Bytes} (h : SameLengths xs ys) : Obl.SameLens xs ys := by
  induction h with
  | nil => rfl
  | cons h _ ih =>
    show List.length _ :: List.map _ _ = List.length _ :: List.map _ _
    rw [h, show List.map _ _ = List.map _ _ from ih]

/-- C89.  What `hash_many` executes, and whether it panics, depends on the number and the lengths of the inputs, the length of the
output, and the offsets; not on the contents of the inputs, not on the key, not on the flags. -/
theorem C89_hash_many (cap : Nat) (xs ys : List Bytes) (h : SameLengths xs ys) (k k' : Vector Word 8) (t d : U64)
    (f fs fe f' fs' fe' : Byte) (out out' : Bytes) (ho : out.length = out'.length) :
    watched (Steps.Portable.hash_many xs k t d f fs fe out) = watched (Steps.Portable.hash_many ys k' t d f' fs' fe' out') ∧
    watched (Steps.Sse41.hash_many cap xs k t d f fs fe out) = watched (Steps.Sse41.hash_many cap ys k' t d f' fs' fe' out') ∧
    watched (Steps.Avx2.hash_many cap xs k t d f fs fe out) = watched (Steps.Avx2.hash_many cap ys k' t d f' fs' fe' out') :=
  ⟨watched_eq (Steps.p_hash_many_same k k' t d f fs fe f' fs' fe' xs ys out out' h.lens ho),
    watched_eq (Steps.s_hash_many_same cap k k' t d f fs fe f' fs' fe' xs ys out out' h.lens ho),
    watched_eq (Steps.a_hash_many_same cap k k' t d f fs fe f' fs' fe' xs ys out out' h.lens ho)⟩

/-- how often something is executed -/
def times (s : String) (l : List Steps.Step) : Nat := (l.filter fun x => x.what == s).length

/-- C89.  `compress` of portable.rs executes 336 additions, 232 exclusive ors, 224 rotations, and reads 112 words of the message
in the order of the schedule; `compress` of sse41.rs executes 84 additions and 86 exclusive ors of vectors. -/
theorem C89_compress_counts (cv : Vector Word 8) (b : Vector Byte 64) (l : Byte) (t : U64) (f : Byte) :
    times "wrapping_add" (Steps.Portable.compress cv b l t f).log = 336 ∧
    times "^" (Steps.Portable.compress cv b l t f).log = 232 ∧
    times "rotate_right" (Steps.Portable.compress cv b l t f).log = 224 ∧
    ((Steps.Portable.compress cv b l t f).log.filter fun x => x.what == "msg").map (·.at_) =
      (MSG_SCHEDULE.toList.flatMap Vector.toList).map (fun i => [i.val]) ∧
    times "_mm_add_epi32" (Steps.Sse41.compress cv b l t f).log = 84 ∧
    times "_mm_xor_si128" (Steps.Sse41.compress cv b l t f).log = 86 := by
  rw [show (Steps.Portable.compress cv b l t f).log = _ from
    Steps.p_compress_eqv cv b l t f (Vector.replicate 8 0) (Vector.replicate 64 0) 0 0 0,
    show (Steps.Sse41.compress cv b l t f).log = _ from
    Steps.s_compress_eqv cv b l t f (Vector.replicate 8 0) (Vector.replicate 64 0) 0 0 0]
  decide +kernel

/-! The hypotheses can be met. -/

example : SameLengths [List.replicate 2048 0, List.replicate 64 1] [List.replicate 2048 5, List.replicate 64 9] :=
  .cons (by rw [List.length_replicate, List.length_replicate]) (.cons (by rw [List.length_replicate, List.length_replicate]) .nil)

end Baokeshed.Props
