import Verif.Proofs.Steps

/-!
# How many vector additions `hash_many` executes

`Cost c x`: if the run `x` does not panic, it executes `c.1` additions of vectors of four words and `c.2` of eight words.
-/

namespace Baokeshed.Proofs.Steps
open Baokeshed.Model
open Baokeshed.Model.Steps (Run Try Step)
set_option linter.unusedVariables false
set_option linter.unusedSimpArgs false

/-- additions of vectors of four and of eight words -/
def vadds (l : List Step) : Nat × Nat :=
  ((l.filter fun x => x.what == "_mm_add_epi32").length, (l.filter fun x => x.what == "_mm256_add_epi32").length)

theorem vadds_append (l l' : List Step) : vadds (l ++ l') = ((vadds l).1 + (vadds l').1, (vadds l).2 + (vadds l').2) := by
  simp only [vadds, List.filter_append, List.length_append]

def NoAdd (s : String) : Prop := (s == "_mm_add_epi32") = false ∧ (s == "_mm256_add_epi32") = false

theorem vadds_free {s : String} (h : NoAdd s) (i : List Nat) : vadds [⟨s, i⟩] = (0, 0) := by
  simp only [vadds, List.filter_cons, List.filter_nil, h.1, h.2]
  rfl

def Cost {α} (c : Nat × Nat) (x : Try α) : Prop := ∀ a, x.res = .ok a → vadds x.log = c

theorem Cost.bind {α β} {c d : Nat × Nat} {x : Try α} {f : α → Try β} (h : Cost c x) (hf : ∀ a, x.res = .ok a → Cost d (f a)) :
    Cost (c.1 + d.1, c.2 + d.2) (x >>= f) := by
  obtain ⟨rx, lx⟩ := x
  cases rx with
  | error e => intro a ha; cases ha
  | ok v =>
    intro a ha
    show vadds (lx ++ _) = _
    rw [vadds_append, h v rfl, hf v rfl a ha]

theorem Cost.pure {α} (a : α) : Cost (0, 0) (Pure.pure a : Try α) := fun _ _ => rfl

theorem Cost.skip {α β} {d : Nat × Nat} {x : Try α} {f : α → Try β} (h : Cost (0, 0) x) (hf : ∀ a, x.res = .ok a → Cost d (f a)) :
    Cost d (x >>= f) := by
  have := Cost.bind h hf
  rwa [Nat.zero_add, Nat.zero_add] at this

theorem Cost.after {α β} {c : Nat × Nat} {x : Try α} {f : α → Try β} (h : Cost c x) (hf : ∀ a, Cost (0, 0) (f a)) :
    Cost c (x >>= f) := Cost.bind h fun a _ => hf a

theorem Cost.op {s : String} (hs : NoAdd s) {i : List Nat} {α} {r : R α} : Cost (0, 0) (Steps.tryOp s i r) :=
  fun _ _ => vadds_free hs i

theorem Cost.test {s : String} (hs : NoAdd s) {b : Bool} : Cost (0, 0) (Steps.test s b) := fun _ _ => vadds_free hs _

theorem Cost.run {α} {c : Nat × Nat} {x : Run α} (h : vadds x.log = c) : Cost c (liftM x : Try α) := fun _ _ => h

theorem Cost.single {s : String} (hs : NoAdd s) {i : List Nat} {α} {v : α} : Cost (0, 0) (liftM (Steps.op s i v) : Try α) :=
  Cost.run (vadds_free hs i)

macro "na" : term => `(by constructor <;> simp)

/-! ## sse41.rs -/

theorem s_compress_cost (cv : Vector Word 8) (b : Vector Byte 64) (l : Byte) (t : U64) (f : Byte) :
    vadds (Steps.Sse41.compress cv b l t f).log = (84, 0) := by
  rw [show (Steps.Sse41.compress cv b l t f).log = _ from
    s_compress_eqv cv b l t f (Vector.replicate 8 0) (Vector.replicate 64 0) 0 0 0]
  decide +kernel

theorem s_set1_cost (w : Word) : vadds (Steps.Sse41.set1 w).log = (0, 0) := vadds_free na _

theorem s_transpose_vecs_cost (v : Vector M128 4) : vadds (Steps.Sse41.transpose_vecs v).log = (0, 0) := by
  rw [show (Steps.Sse41.transpose_vecs v).log = _ from s_transpose_vecs_eqv v (Vector.replicate 4 0)]
  decide +kernel

theorem s_block_cost (h : Vector M128 8) (a b c d : M128) (m : Vector M128 16) :
    vadds (Steps.Sse41.hash4_block h a b c d m).log = (336, 0) := by
  rw [show (Steps.Sse41.hash4_block h a b c d m).log = _ from
    s_hash4_block_eqv h a b c d m (Vector.replicate 8 0) 0 0 0 0 (Vector.replicate 16 0)]
  decide +kernel

theorem s_msg_cost (xs : Vector Bytes 4) (n : Nat) : Cost (0, 0) (Steps.Sse41.transpose_msg_vecs xs n) := by
  unfold Steps.Sse41.transpose_msg_vecs
  repeat' first
    | with_reducible exact Cost.pure _
    | ((with_reducible refine Cost.op ?_); exact na)
    | with_reducible exact Cost.run (s_transpose_vecs_cost _)
    | (with_reducible refine Cost.skip ?_ fun _ _ => ?_)

theorem s_set4_cost (a b c d : Word) : vadds (Steps.Sse41.set4 a b c d).log = (0, 0) := vadds_free na _

theorem s_offsets_cost (t d : U64) : Cost (0, 0) (Steps.Sse41.load_offsets t d) := by
  unfold Steps.Sse41.load_offsets
  repeat' first
    | with_reducible exact Cost.pure _
    | ((with_reducible refine Cost.op ?_); exact na)
    | ((with_reducible refine Cost.single ?_); exact na)
    | with_reducible exact Cost.run (s_set4_cost ..)
    | (with_reducible refine Cost.skip ?_ fun _ _ => ?_)

theorem s_hash4_loop_cost (xs : Vector Bytes 4) (blocks : Nat) (a b : M128) (f fe : Byte) (n : Nat) :
    ∀ (i : Nat) (h : Vector M128 8) (bf : Byte), Cost (336 * n, 0) (Steps.Sse41.hash4_loop xs blocks a b f fe n i h bf) := by
  induction n with
  | zero => intro i h bf; unfold Steps.Sse41.hash4_loop; exact Cost.skip (Cost.test na) fun _ _ => Cost.pure _
  | succ n ih =>
    intro i h bf
    unfold Steps.Sse41.hash4_loop
    refine Cost.skip (Cost.test na) fun _ _ => ?_
    refine Cost.skip (Cost.test na) fun _ _ => ?_
    refine Cost.skip (Cost.run (s_set1_cost _)) fun _ _ => ?_
    refine Cost.skip (Cost.run (s_set1_cost _)) fun _ _ => ?_
    refine Cost.skip (s_msg_cost _ _) fun _ _ => ?_
    rw [show 336 * (n + 1) = 336 + 336 * n by omega]
    exact Cost.bind (c := (336, 0)) (d := (336 * n, 0)) (Cost.run (s_block_cost ..)) fun v _ => ih (i + 1) v f

theorem s_hash4_cost (xs : Vector Bytes 4) (blocks : Nat) (k : Vector Word 8) (t d : U64) (f fs fe : Byte) (out : Bytes) :
    Cost (336 * blocks, 0) (Steps.Sse41.hash4 xs blocks k t d f fs fe out) := by
  unfold Steps.Sse41.hash4
  iterate 8 refine Cost.skip (Cost.run (s_set1_cost _)) fun _ _ => ?_
  refine Cost.skip (s_offsets_cost _ _) fun _ _ => ?_
  refine Cost.after (s_hash4_loop_cost _ _ _ _ _ _ _ _ _ _) fun _ => ?_
  repeat' first
    | with_reducible exact Cost.pure _
    | ((with_reducible refine Cost.op ?_); exact na)
    | with_reducible exact Cost.run (s_transpose_vecs_cost _)
    | (with_reducible refine Cost.skip ?_ fun _ _ => ?_)

theorem s_hash1_loop_cost (f fe : Byte) (t : U64) (n : Nat) : ∀ (s : Bytes), s.length = 64 * n → ∀ (cv : Vector Word 8) (bf : Byte),
    Cost (84 * n, 0) (Steps.Sse41.hash1_loop f fe t cv bf s) := by
  induction n with
  | zero =>
    intro s hs cv bf
    rw [Steps.Sse41.hash1_loop, dif_neg (show ¬ BLOCK_LEN ≤ s.length by rw [hs]; decide)]
    exact Cost.skip (Cost.test na) fun _ _ => Cost.pure _
  | succ n ih =>
    intro s hs cv bf
    rw [Steps.Sse41.hash1_loop, dif_pos (show 64 ≤ s.length by omega)]
    refine Cost.skip (Cost.test na) fun _ _ => ?_
    refine Cost.skip (Cost.test na) fun _ _ => ?_
    refine Cost.skip (Cost.op na) fun b _ => ?_
    rw [show 84 * (n + 1) = 84 + 84 * n by omega]
    exact Cost.bind (c := (84, 0)) (d := (84 * n, 0)) (Cost.run (s_compress_cost ..)) fun v _ =>
      ih (s.drop 64) (by rw [List.length_drop]; omega) v f

theorem s_hash1_cost (s : Bytes) (n : Nat) (hs : s.length = 64 * n) (k : Vector Word 8) (t : U64) (f fs fe : Byte) :
    Cost (84 * n, 0) (Steps.Sse41.hash1 s k t f fs fe) := by
  unfold Steps.Sse41.hash1
  refine Cost.skip (Cost.op na) fun _ _ => ?_
  exact Cost.after (s_hash1_loop_cost _ _ _ n s hs _ _) fun _ => Cost.run (vadds_free na _)

theorem s_tail_cost (n : Nat) (k : Vector Word 8) (d : U64) (f fs fe : Byte) (xs : List Bytes) :
    (∀ x ∈ xs, x.length = 64 * n) → ∀ (t : U64) (out : Bytes), xs.length * 32 ≤ out.length →
    Cost (84 * n * xs.length, 0) (Steps.Sse41.hash_many_tail k d f fs fe xs t out) := by
  induction xs with
  | nil => intro hx t out ho; unfold Steps.Sse41.hash_many_tail; exact Cost.skip (Cost.test na) fun _ _ => Cost.pure _
  | cons x xs ih =>
    intro hx t out ho
    rw [List.length_cons] at ho
    unfold Steps.Sse41.hash_many_tail
    rw [if_neg (show ¬ out.length < 32 by omega)]
    refine Cost.skip (Cost.test na) fun _ _ => ?_
    have := Cost.bind (s_hash1_cost x n (hx x List.mem_cons_self) k t f fs fe) fun h _ =>
      Cost.skip (Cost.op (s := "+=") (i := []) na (r := addU64 t d)) fun t' _ =>
      Cost.after (ih (fun y hy => hx y (List.mem_cons_of_mem _ hy)) t' (out.drop 32) (by rw [List.length_drop]; omega))
        fun rest => Cost.pure (h.toList ++ rest)
    rw [List.length_cons, Nat.mul_add, Nat.mul_one, Nat.add_comm]
    exact this

theorem s_loop_cost (n : Nat) (k : Vector Word 8) (d : U64) (f fs fe : Byte) (xs : List Bytes) :
    (∀ x ∈ xs, x.length = 64 * n) → ∀ (t : U64) (out : Bytes), xs.length * 32 ≤ out.length →
    Cost (336 * n * (xs.length / 4) + 84 * n * (xs.length % 4), 0) (Steps.Sse41.hash_many_loop (64 * n) k d f fs fe xs t out) := by
  induction hn : xs.length using Nat.strongRecOn generalizing xs with
  | _ m ih =>
    intro hx t out ho
    subst hn
    rw [Steps.Sse41.hash_many_loop]
    by_cases k4 : 4 ≤ xs.length
    · rw [dif_pos (show 4 ≤ xs.length ∧ 4 * 32 ≤ out.length by omega)]
      refine Cost.skip (Cost.test na) fun _ _ => ?_
      refine Cost.skip (Cost.op na) fun ps _ => ?_
      dsimp only
      have hl : (xs.drop 4).length = xs.length - 4 := List.length_drop
      have := Cost.bind (s_hash4_cost ps (64 * n / 64) k t d f fs fe (out.take (4 * 32))) fun o _ =>
        Cost.skip (Cost.op (s := "+=") (i := []) na (r := Model.Sse41.offset_plus t (BitVec.ofNat 64 4) d)) fun t' _ =>
        Cost.after (ih (xs.drop 4).length (by omega) (xs.drop 4) rfl (fun x hx' => hx x (List.mem_of_mem_drop hx')) t'
          (out.drop (4 * 32)) (by rw [List.length_drop, List.length_drop]; omega)) fun rest => Cost.pure (o ++ rest)
      have e : 336 * n * (xs.length / 4) + 84 * n * (xs.length % 4) =
          336 * (64 * n / 64) + (336 * n * ((xs.drop 4).length / 4) + 84 * n * ((xs.drop 4).length % 4)) := by
        rw [hl, show xs.length / 4 = (xs.length - 4) / 4 + 1 by omega, show (xs.length - 4) % 4 = xs.length % 4 by omega,
          show 64 * n / 64 = n by omega, Nat.mul_add, Nat.mul_one]
        omega
      rw [e]
      exact this
    · rw [dif_neg (show ¬ (4 ≤ xs.length ∧ 4 * 32 ≤ out.length) by omega)]
      refine Cost.skip (Cost.test na) fun _ _ => ?_
      rw [show xs.length / 4 = 0 by omega, show xs.length % 4 = xs.length by omega, Nat.mul_zero, Nat.zero_add]
      exact s_tail_cost n k d f fs fe xs hx t out ho

theorem s_many_cost (n : Nat) (k : Vector Word 8) (d : U64) (f fs fe : Byte) (xs : List Bytes) (hx : ∀ x ∈ xs, x.length = 64 * n)
    (t : U64) (out : Bytes) : Cost (336 * n * (xs.length / 4) + 84 * n * (xs.length % 4), 0)
      (Steps.Sse41.hash_many (64 * n) xs k t d f fs fe out) := by
  unfold Steps.Sse41.hash_many
  refine Cost.skip (Cost.op na) fun _ h => ?_
  refine s_loop_cost n k d f fs fe xs hx t out ?_
  by_cases c : xs.length * 32 ≤ out.length
  · exact c
  · exfalso
    have h' : assertR (xs.length * 32 ≤ out.length) = .ok _ := h
    unfold assertR at h'
    simp [c] at h'

/-! ## avx2.rs -/

theorem a_set1_cost (w : Word) : vadds (Steps.Avx2.set1 w).log = (0, 0) := vadds_free na _

theorem a_transpose_vecs_cost (v : Vector M256 8) : vadds (Steps.Avx2.transpose_vecs v).log = (0, 0) := by
  rw [show (Steps.Avx2.transpose_vecs v).log = _ from a_transpose_vecs_eqv v (Vector.replicate 8 0)]
  decide +kernel

theorem a_block_cost (h : Vector M256 8) (a b c d : M256) (m : Vector M256 16) :
    vadds (Steps.Avx2.hash8_block h a b c d m).log = (0, 336) := by
  rw [show (Steps.Avx2.hash8_block h a b c d m).log = _ from
    a_hash8_block_eqv h a b c d m (Vector.replicate 8 0) 0 0 0 0 (Vector.replicate 16 0)]
  decide +kernel

theorem a_msg_cost (xs : Vector Bytes 8) (n : Nat) : Cost (0, 0) (Steps.Avx2.transpose_msg_vecs xs n) := by
  unfold Steps.Avx2.transpose_msg_vecs
  repeat' first
    | with_reducible exact Cost.pure _
    | ((with_reducible refine Cost.op ?_); exact na)
    | with_reducible exact Cost.run (a_transpose_vecs_cost _)
    | (with_reducible refine Cost.skip ?_ fun _ _ => ?_)

theorem a_set8_cost (a b c d e f g h : Word) : vadds (Steps.Avx2.set8 a b c d e f g h).log = (0, 0) := vadds_free na _

theorem a_offsets_cost (t d : U64) : Cost (0, 0) (Steps.Avx2.load_offsets t d) := by
  unfold Steps.Avx2.load_offsets
  repeat' first
    | with_reducible exact Cost.pure _
    | ((with_reducible refine Cost.op ?_); exact na)
    | ((with_reducible refine Cost.single ?_); exact na)
    | with_reducible exact Cost.run (a_set8_cost ..)
    | (with_reducible refine Cost.skip ?_ fun _ _ => ?_)

theorem a_hash8_loop_cost (xs : Vector Bytes 8) (blocks : Nat) (a b : M256) (f fe : Byte) (n : Nat) :
    ∀ (i : Nat) (h : Vector M256 8) (bf : Byte), Cost (0, 336 * n) (Steps.Avx2.hash8_loop xs blocks a b f fe n i h bf) := by
  induction n with
  | zero => intro i h bf; unfold Steps.Avx2.hash8_loop; exact Cost.skip (Cost.test na) fun _ _ => Cost.pure _
  | succ n ih =>
    intro i h bf
    unfold Steps.Avx2.hash8_loop
    refine Cost.skip (Cost.test na) fun _ _ => ?_
    refine Cost.skip (Cost.test na) fun _ _ => ?_
    refine Cost.skip (Cost.run (a_set1_cost _)) fun _ _ => ?_
    refine Cost.skip (Cost.run (a_set1_cost _)) fun _ _ => ?_
    refine Cost.skip (a_msg_cost _ _) fun _ _ => ?_
    rw [show 336 * (n + 1) = 336 + 336 * n by omega]
    exact Cost.bind (c := (0, 336)) (d := (0, 336 * n)) (Cost.run (a_block_cost ..)) fun v _ => ih (i + 1) v f

theorem a_hash8_cost (xs : Vector Bytes 8) (blocks : Nat) (k : Vector Word 8) (t d : U64) (f fs fe : Byte) (out : Bytes) :
    Cost (0, 336 * blocks) (Steps.Avx2.hash8 xs blocks k t d f fs fe out) := by
  unfold Steps.Avx2.hash8
  iterate 8 refine Cost.skip (Cost.run (a_set1_cost _)) fun _ _ => ?_
  refine Cost.skip (a_offsets_cost _ _) fun _ _ => ?_
  refine Cost.after (a_hash8_loop_cost _ _ _ _ _ _ _ _ _ _) fun _ => ?_
  repeat' first
    | with_reducible exact Cost.pure _
    | ((with_reducible refine Cost.op ?_); exact na)
    | with_reducible exact Cost.run (a_transpose_vecs_cost _)
    | (with_reducible refine Cost.skip ?_ fun _ _ => ?_)

theorem a_loop_cost (n : Nat) (k : Vector Word 8) (d : U64) (f fs fe : Byte) (xs : List Bytes) :
    (∀ x ∈ xs, x.length = 64 * n) → ∀ (t : U64) (out : Bytes), xs.length * 32 ≤ out.length →
    Cost (336 * n * (xs.length % 8 / 4) + 84 * n * (xs.length % 4), 336 * n * (xs.length / 8))
      (Steps.Avx2.hash_many_loop (64 * n) k d f fs fe xs t out) := by
  induction hn : xs.length using Nat.strongRecOn generalizing xs with
  | _ m ih =>
    intro hx t out ho
    subst hn
    rw [Steps.Avx2.hash_many_loop]
    by_cases k8 : 8 ≤ xs.length
    · rw [dif_pos (show 8 ≤ xs.length ∧ 8 * 32 ≤ out.length by omega)]
      refine Cost.skip (Cost.test na) fun _ _ => ?_
      refine Cost.skip (Cost.op na) fun ps _ => ?_
      dsimp only
      have hl : (xs.drop 8).length = xs.length - 8 := List.length_drop
      have := Cost.bind (a_hash8_cost ps (64 * n / 64) k t d f fs fe (out.take (8 * 32))) fun o _ =>
        Cost.skip (Cost.op (s := "+=") (i := []) na (r := Model.Sse41.offset_plus t (BitVec.ofNat 64 8) d)) fun t' _ =>
        Cost.after (ih (xs.drop 8).length (by omega) (xs.drop 8) rfl (fun x hx' => hx x (List.mem_of_mem_drop hx')) t'
          (out.drop (8 * 32)) (by rw [List.length_drop, List.length_drop]; omega)) fun rest => Cost.pure (o ++ rest)
      have e : (336 * n * (xs.length % 8 / 4) + 84 * n * (xs.length % 4), 336 * n * (xs.length / 8)) =
          (0 + (336 * n * ((xs.drop 8).length % 8 / 4) + 84 * n * ((xs.drop 8).length % 4)),
            336 * (64 * n / 64) + 336 * n * ((xs.drop 8).length / 8)) := by
        rw [hl, show xs.length / 8 = (xs.length - 8) / 8 + 1 by omega, show (xs.length - 8) % 4 = xs.length % 4 by omega,
          show (xs.length - 8) % 8 = xs.length % 8 by omega,
          show 64 * n / 64 = n by omega, Nat.mul_add, Nat.mul_one, Nat.zero_add, Nat.add_comm (336 * n * _) (336 * n)]
      rw [e]
      exact this
    · rw [dif_neg (show ¬ (8 ≤ xs.length ∧ 8 * 32 ≤ out.length) by omega)]
      refine Cost.skip (Cost.test na) fun _ _ => ?_
      have := s_many_cost n k d f fs fe xs hx t out
      rw [show xs.length / 8 = 0 by omega, show xs.length % 8 = xs.length by omega, Nat.mul_zero]
      exact this

theorem a_many_cost (n : Nat) (k : Vector Word 8) (d : U64) (f fs fe : Byte) (xs : List Bytes) (hx : ∀ x ∈ xs, x.length = 64 * n)
    (t : U64) (out : Bytes) : Cost (336 * n * (xs.length % 8 / 4) + 84 * n * (xs.length % 4), 336 * n * (xs.length / 8))
      (Steps.Avx2.hash_many (64 * n) xs k t d f fs fe out) := by
  unfold Steps.Avx2.hash_many
  refine Cost.skip (Cost.op na) fun _ h => ?_
  refine a_loop_cost n k d f fs fe xs hx t out ?_
  by_cases c : xs.length * 32 ≤ out.length
  · exact c
  · exfalso
    have h' : assertR (xs.length * 32 ≤ out.length) = .ok _ := h
    unfold assertR at h'
    simp [c] at h'

end Baokeshed.Proofs.Steps
