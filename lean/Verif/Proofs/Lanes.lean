import Verif.Proofs.EraseIsa
import Verif.Proofs.Isa
import Verif.Proofs.Lib
import Verif.SpecLanes

/-! # Which kernels are called, and how often -/

set_option linter.unusedVariables false

namespace Baokeshed.Proofs.I
open Baokeshed.Model Baokeshed.Model.I Baokeshed.Spec

/-- If `x` succeeds, then the events of interest are `L`, and the result has the property `Q`. -/
def Logs {α : Type} (F : Ev → Bool) (L : List Ev) (Q : α → Prop) (x : IR α) : Prop :=
  ∀ a, x.res = .ok a → x.log.filter F = L ∧ Q a

variable {F : Ev → Bool}

theorem Logs.bind {α β : Type} {L L' : List Ev} {Q : α → Prop} {Q' : β → Prop} {x : IR α} {f : α → IR β}
    (hx : Logs F L Q x) (hf : ∀ a, Q a → Logs F L' Q' (f a)) : Logs F (L ++ L') Q' (x >>= f) := by
  obtain ⟨r, l⟩ := x
  intro b hb
  cases r with
  | error e => cases hb
  | ok a =>
    obtain ⟨h1, h2⟩ := hx a rfl
    obtain ⟨h3, h4⟩ := hf a h2 b hb
    refine ⟨?_, h4⟩
    show (l ++ (f a).log).filter F = _
    rw [List.filter_append, h3]
    exact congrArg (· ++ L') h1

/-- after something that logs nothing -/
theorem Logs.bind' {α β : Type} {L' : List Ev} {Q : α → Prop} {Q' : β → Prop} {x : IR α} {f : α → IR β}
    (hx : Logs F [] Q x) (hf : ∀ a, Q a → Logs F L' Q' (f a)) : Logs F L' Q' (x >>= f) := hx.bind hf

theorem Logs.pure {α : Type} {Q : α → Prop} {a : α} (h : Q a) : Logs F [] Q (Pure.pure a : IR α) := by
  intro b hb; cases hb; exact ⟨rfl, h⟩

theorem Logs.lift {α : Type} (r : R α) : Logs F [] (fun a => r = .ok a) (liftM r : IR α) :=
  fun a h => ⟨rfl, h⟩

theorem Logs.error {α : Type} {L : List Ev} {Q : α → Prop} (e : Panic) (l : List Ev) : Logs F L Q (⟨.error e, l⟩ : IR α) := by
  intro a h; cases h

theorem Logs.enter (c : Ev) : Logs F (if F c then [c] else []) (fun _ => True) (I.enter c) := by
  intro a h
  refine ⟨?_, trivial⟩
  show [c].filter F = _
  by_cases h : F c = true <;> simp [h]

theorem Logs.skip {c : Ev} (h : F c = false) : Logs F [] (fun _ => True) (I.enter c) := by
  have := Logs.enter (F := F) c
  rwa [if_neg (by rw [h]; decide)] at this

theorem Logs.weaken {α : Type} {L : List Ev} {Q Q' : α → Prop} {x : IR α} (h : Logs F L Q x)
    (hq : ∀ a, Q a → Q' a) : Logs F L Q' x := fun a ha => ⟨(h a ha).1, hq a (h a ha).2⟩

theorem Logs.cast {α : Type} {L L' : List Ev} {Q : α → Prop} {x : IR α} (h : Logs F L Q x) (e : L = L') : Logs F L' Q x :=
  e ▸ h

theorem filter_rep (c : Ev) (n : Nat) : (List.replicate n c).filter F = List.replicate n c ∨
    (List.replicate n c).filter F = [] := by
  by_cases h : F c = true
  · left; rw [List.filter_eq_self]; intro a ha; rw [List.eq_of_mem_replicate ha]; exact h
  · right; rw [List.filter_eq_nil_iff]; intro a ha; rw [List.eq_of_mem_replicate ha]; exact h

theorem filter_single (c : Ev) : (if F c then [c] else []) = [c].filter F := by
  by_cases h : F c = true <;> simp [h]

/-! ## `hash_many` -/

theorem logs_portable_loop (cap : Nat) (key : Vector Word 8) (d : U64) (f fs fe : Byte) (xs : List Bytes)
    (hx : ∀ x ∈ xs, x.length = cap) (off : U64) (out : Bytes) (ho : 32 * xs.length ≤ out.length) :
    Logs F ((List.replicate xs.length (.hash1 false cap)).filter F) (fun _ => True)
      (I.Portable.hash_many_loop key d f fs fe xs off out) := by
  induction xs generalizing off out with
  | nil => exact .pure trivial
  | cons x xs ih =>
    rw [List.length_cons] at ho
    rw [I.Portable.hash_many_loop, if_neg (by simp only [OUT_LEN]; omega)]
    have e : (List.replicate (x :: xs).length (Ev.hash1 false cap)).filter F =
        [Ev.hash1 false cap].filter F ++ ((List.replicate xs.length (.hash1 false cap)).filter F ++ []) := by
      rw [List.append_nil, ← List.filter_append]; rfl
    rw [e, ← hx x (List.mem_cons_self ..), ← filter_single]
    refine (Logs.enter _).bind fun _ _ => (Logs.lift _).bind' fun h _ => (Logs.lift _).bind' fun o _ => ?_
    rw [hx x (List.mem_cons_self ..)]
    exact (ih (fun y hy => hx y (List.mem_cons_of_mem _ hy)) _ _ (by simp only [List.length_drop, OUT_LEN]; omega)).bind
      fun _ _ => .pure trivial

theorem logs_sse41_tail (cap : Nat) (key : Vector Word 8) (d : U64) (f fs fe : Byte) (xs : List Bytes)
    (hx : ∀ x ∈ xs, x.length = cap) (off : U64) (out : Bytes) (ho : 32 * xs.length ≤ out.length) :
    Logs F ((List.replicate xs.length (.hash1 true cap)).filter F) (fun _ => True)
      (I.Sse41.hash_many_tail key d f fs fe xs off out) := by
  induction xs generalizing off out with
  | nil => exact .pure trivial
  | cons x xs ih =>
    rw [List.length_cons] at ho
    rw [I.Sse41.hash_many_tail, if_neg (by simp only [OUT_LEN]; omega)]
    have e : (List.replicate (x :: xs).length (Ev.hash1 true cap)).filter F =
        [Ev.hash1 true cap].filter F ++ ((List.replicate xs.length (.hash1 true cap)).filter F ++ []) := by
      rw [List.append_nil, ← List.filter_append]; rfl
    rw [e, ← hx x (List.mem_cons_self ..), ← filter_single]
    refine (Logs.enter _).bind fun _ _ => (Logs.lift _).bind' fun h _ => (Logs.lift _).bind' fun o _ => ?_
    rw [hx x (List.mem_cons_self ..)]
    exact (ih (fun y hy => hx y (List.mem_cons_of_mem _ hy)) _ _ (by simp only [List.length_drop, OUT_LEN]; omega)).bind
      fun _ _ => .pure trivial

theorem logs_sse41_loop (cap : Nat) (key : Vector Word 8) (d : U64) (f fs fe : Byte) (xs : List Bytes)
    (hx : ∀ x ∈ xs, x.length = cap) (off : U64) (out : Bytes) (ho : 32 * xs.length ≤ out.length) :
    Logs F ((kernels .sse41 cap xs.length).filter F) (fun _ => True)
      (I.Sse41.hash_many_loop cap key d f fs fe xs off out) := by
  induction hn : xs.length using Nat.strongRecOn generalizing xs off out with
  | ind n ih =>
  subst hn
  rw [I.Sse41.hash_many_loop]
  by_cases h : 4 ≤ xs.length
  · rw [dif_pos ⟨h, by simp only [Sse41.DEGREE, OUT_LEN]; omega⟩]
    have e : (kernels .sse41 cap xs.length).filter F =
        [Ev.hash4 cap].filter F ++ ((kernels .sse41 cap (xs.drop Sse41.DEGREE).length).filter F ++ []) := by
      rw [List.append_nil, ← List.filter_append, List.length_drop, kernels, kernels, Sse41.DEGREE,
        show xs.length / 4 = (xs.length - 4) / 4 + 1 by omega, show (xs.length - 4) % 4 = xs.length % 4 by omega]
      rfl
    rw [e, ← filter_single]
    exact (Logs.lift _).bind' fun _ _ => (Logs.enter _).bind fun _ _ => (Logs.lift _).bind' fun h _ =>
      (Logs.lift _).bind' fun o _ =>
      (ih _ (by simp only [List.length_drop, Sse41.DEGREE]; omega) _ (fun y hy => hx y (List.mem_of_mem_drop hy)) _ _
        (by simp only [List.length_drop, OUT_LEN, Sse41.DEGREE]; omega) rfl).bind fun _ _ => .pure trivial
  · rw [dif_neg (by simp only [Sse41.DEGREE]; omega)]
    refine (logs_sse41_tail cap key d f fs fe xs hx off out ho).cast ?_
    rw [kernels, show xs.length / 4 = 0 by omega, show xs.length % 4 = xs.length by omega]
    rfl

theorem logs_sse41_many (hF : F .manySse41 = false) (cap : Nat) (xs : List Bytes) (key : Vector Word 8) (off d : U64)
    (f fs fe : Byte) (hx : ∀ x ∈ xs, x.length = cap) (out : Bytes) :
    Logs F ((kernels .sse41 cap xs.length).filter F) (fun _ => True)
      (I.Sse41.hash_many cap xs key off d f fs fe out) := by
  refine (Logs.skip hF).bind' fun _ _ => (Logs.lift _).bind' fun _ h => ?_
  refine logs_sse41_loop cap key d f fs fe xs hx off out ?_
  unfold assertR at h
  split at h
  next h' => simp only [OUT_LEN] at h'; omega
  next => cases h

theorem logs_avx2_loop (hF : F .manySse41 = false) (cap : Nat) (key : Vector Word 8) (d : U64) (f fs fe : Byte) (xs : List Bytes)
    (hx : ∀ x ∈ xs, x.length = cap) (off : U64) (out : Bytes) (ho : 32 * xs.length ≤ out.length) :
    Logs F ((kernels .avx2 cap xs.length).filter F) (fun _ => True)
      (I.Avx2.hash_many_loop cap key d f fs fe xs off out) := by
  induction hn : xs.length using Nat.strongRecOn generalizing xs off out with
  | ind n ih =>
  subst hn
  rw [I.Avx2.hash_many_loop]
  by_cases h : 8 ≤ xs.length
  · rw [dif_pos ⟨h, by simp only [Avx2.DEGREE, OUT_LEN]; omega⟩]
    have e : (kernels .avx2 cap xs.length).filter F =
        [Ev.hash8 cap].filter F ++ ((kernels .avx2 cap (xs.drop Avx2.DEGREE).length).filter F ++ []) := by
      rw [List.append_nil, ← List.filter_append, List.length_drop, kernels, kernels, Avx2.DEGREE,
        show xs.length / 8 = (xs.length - 8) / 8 + 1 by omega, show (xs.length - 8) % 8 = xs.length % 8 by omega]
      rfl
    rw [e, ← filter_single]
    exact (Logs.lift _).bind' fun _ _ => (Logs.enter _).bind fun _ _ => (Logs.lift _).bind' fun h _ =>
      (Logs.lift _).bind' fun o _ =>
      (ih _ (by simp only [List.length_drop, Avx2.DEGREE]; omega) _ (fun y hy => hx y (List.mem_of_mem_drop hy)) _ _
        (by simp only [List.length_drop, OUT_LEN, Avx2.DEGREE]; omega) rfl).bind fun _ _ => .pure trivial
  · rw [dif_neg (by simp only [Avx2.DEGREE]; omega)]
    refine (logs_sse41_many hF cap xs key off d f fs fe hx out).cast ?_
    rw [kernels, kernels, show xs.length / 8 = 0 by omega, show xs.length % 8 = xs.length by omega]
    rfl

theorem logs_hash_many (hF : F .manySse41 = false) (hF' : F .manyAvx2 = false) (p : Platform) (cap : Nat) (xs : List Bytes)
    (key : Vector Word 8) (off d : U64) (f fs fe : Byte) (hx : ∀ x ∈ xs, x.length = cap) (out : Bytes) :
    Logs F ((kernels p cap xs.length).filter F) (fun _ => True) (I.hash_many p cap xs key off d f fs fe out) := by
  have ok : ∀ {u}, assertR (xs.length * OUT_LEN ≤ List.length out) = .ok u → 32 * xs.length ≤ out.length := by
    intro u h
    unfold assertR at h
    split at h
    next h' => simp only [OUT_LEN] at h'; omega
    next => cases h
  cases p
  · exact (Logs.lift _).bind' fun _ h => logs_portable_loop cap key d f fs fe xs hx off out (ok h)
  · exact logs_sse41_many hF cap xs key off d f fs fe hx out
  · exact (Logs.skip hF').bind' fun _ _ => (Logs.lift _).bind' fun _ h =>
      logs_avx2_loop hF cap key d f fs fe xs hx off out (ok h)

/-! ## One-shot hashing -/

attribute [local irreducible] Logs

theorem kernels_add (p : Platform) (len a b : Nat) (h : p.simd_degree ∣ a) :
    kernels p len (a + b) = kernels p len a ++ kernels p len b := by
  obtain ⟨k, rfl⟩ := h
  cases p
  · simp only [kernels, Platform.simd_degree, Nat.one_mul, List.replicate_append_replicate]
  · simp only [kernels, Platform.simd_degree, Nat.mul_mod_right, Nat.mul_div_cancel_left k (by decide : 0 < 4),
      Nat.mul_add_mod, Nat.mul_add_div (by decide : 0 < 4)]
    rw [← List.replicate_append_replicate, List.append_assoc]; simp
  · simp only [kernels, Platform.simd_degree, Nat.mul_mod_right, Nat.mul_div_cancel_left k (by decide : 0 < 8),
      Nat.mul_add_mod, Nat.mul_add_div (by decide : 0 < 8)]
    rw [← List.replicate_append_replicate, List.append_assoc]; simp

theorem chunks_2048 (p : Platform) (n : Nat) : (kernels p 2048 n).filter chunkKernel = kernels p 2048 n := by
  rw [List.filter_eq_self]
  intro a ha
  cases p <;> simp only [kernels, List.mem_append] at ha <;> try (rcases ha with ha | ha)
  all_goals try (rcases ha with ha | ha)
  all_goals rw [List.eq_of_mem_replicate ha]; rfl

theorem chunks_64 (p : Platform) (n : Nat) : (kernels p 64 n).filter chunkKernel = [] := by
  rw [List.filter_eq_nil_iff]
  intro a ha
  cases p <;> simp only [kernels, List.mem_append] at ha <;> try (rcases ha with ha | ha)
  all_goals try (rcases ha with ha | ha)
  all_goals rw [List.eq_of_mem_replicate ha]; decide

theorem logs_compress (p : Platform) (cv : Vector Word 8) (b : Vector Byte 64) (l : Byte) (o : U64) (f : Byte) :
    Logs chunkKernel [] (fun _ => True) (I.compress p cv b l o f) := by
  unfold Logs; intro a _; cases p <;> exact ⟨rfl, trivial⟩

theorem logs_to_hash (o : Output) : Logs chunkKernel [] (fun _ => True) (I.Output.to_hash o) :=
  (logs_compress ..).bind' fun _ _ => .pure trivial

theorem logs_hash_one_chunk_loop (p : Platform) (chunk : Bytes) (off : U64) (r : IsRoot) (flags : Byte)
    (cv : Vector Word 8) (bf : Byte) (bo : Nat) :
    Logs chunkKernel [] (fun _ => True) (I.hash_one_chunk_loop p chunk off r flags cv bf bo) := by
  induction hn : chunk.length - bo using Nat.strongRecOn generalizing cv bf bo with
  | ind n ih =>
  rw [I.hash_one_chunk_loop]
  split
  next h =>
    simp only [BLOCK_LEN] at h
    split
    · exact (Logs.lift _).bind' fun b _ => .pure trivial
    · exact (Logs.lift _).bind' fun b _ => (logs_compress p ..).bind' fun cv _ =>
        ih (chunk.length - (bo + BLOCK_LEN)) (by simp only [BLOCK_LEN]; omega) _ _ _ rfl
  next h => exact (Logs.lift _).bind' fun _ _ => (Logs.skip rfl).bind' fun _ _ => (Logs.lift _).bind' fun _ _ =>
    (Logs.lift _).bind' fun _ _ => .pure trivial

theorem logs_hash_one_chunk (p : Platform) (chunk : Bytes) (key : Vector Word 8) (off : U64) (r : IsRoot) (flags : Byte) :
    Logs chunkKernel [] (fun _ => True) (I.hash_one_chunk chunk key off r flags p) :=
  (Logs.lift _).bind' fun _ _ => logs_hash_one_chunk_loop p ..

theorem pushAll_ok {α} {n : Nat} {xs ys : List α} (h : pushAll n xs = .ok ys) : ys = xs := by
  unfold pushAll at h
  split at h
  · cases h; rfl
  · cases h

theorem logs_hash_chunks_parallel (p : Platform) (cfg : Config) (input : Bytes) (key : Vector Word 8) (off : U64) (flags : Byte)
    (out : Bytes) : Logs chunkKernel (kernels p 2048 (input.length / 2048)) (fun _ => True)
      (I.hash_chunks_parallel cfg input key off flags p out) := by
  refine (Logs.lift _).bind' fun _ _ => (Logs.lift _).bind' fun _ _ => (Logs.lift _).bind' fun _ _ =>
    (Logs.lift _).bind' fun cs hcs => ?_
  cases pushAll_ok hcs
  have e : kernels p 2048 (input.length / 2048) = (kernels p 2048 (chunksExact CHUNK_LEN input).length).filter chunkKernel ++ [] := by
    rw [List.append_nil, chunks_2048, length_chunksExact _ (by decide)]
  rw [e]
  refine (logs_hash_many rfl rfl p 2048 _ key off _ flags _ _ (mem_chunksExact _ (by decide) input) out).bind fun out _ => ?_
  dsimp only
  split
  · refine (Logs.lift _).bind' fun _ _ => (Logs.lift _).bind' fun _ _ => (logs_hash_one_chunk p ..).bind' fun o ho =>
      (logs_to_hash o).bind' fun _ _ => (Logs.lift _).bind' fun _ _ => .pure trivial
  · exact .pure trivial

theorem logs_hash_parents_parallel (p : Platform) (cfg : Config) (cs : Bytes) (key : Vector Word 8) (flags : Byte)
    (out : Bytes) : Logs chunkKernel [] (fun _ => True) (I.hash_parents_parallel cfg cs key flags p out) := by
  refine (Logs.lift _).bind' fun _ _ => (Logs.lift _).bind' fun _ _ => (Logs.lift _).bind' fun _ _ =>
    (Logs.lift _).bind' fun cs' hcs => ?_
  cases pushAll_ok hcs
  refine Logs.bind' (Q := fun _ => True) ?_ fun out _ => ?_
  · exact (logs_hash_many rfl rfl p 64 _ key 0 0 _ 0 0 (mem_chunksExact _ (by decide) cs) out).cast (chunks_64 ..)
  · dsimp only
    split
    · exact (Logs.lift _).bind' fun _ _ => (Logs.lift _).bind' fun _ _ => .pure trivial
    · exact .pure trivial

theorem degree_dvd (p : Platform) (k : Nat) (h : p.simd_degree ≤ 2 ^ k) : p.simd_degree ∣ 2 ^ k := by
  have key : ∀ j, 2 ^ j ≤ 2 ^ k → 2 ^ j ∣ 2 ^ k := fun j hj =>
    Nat.pow_dvd_pow 2 ((Nat.pow_le_pow_iff_right (by decide)).1 hj)
  cases p
  · exact Nat.one_dvd _
  · exact key 2 h
  · exact key 3 h

theorem degree_pos (p : Platform) : 0 < p.simd_degree := by cases p <;> decide

theorem logs_hash_recurse (p : Platform) (cfg : Config) (input : Bytes) (key : Vector Word 8) (off : U64) (flags : Byte)
    (out : Bytes) : Logs chunkKernel (kernels p 2048 (input.length / 2048)) (fun _ => True)
      (I.hash_recurse cfg input key off flags p out) := by
  induction hn : input.length using Nat.strongRecOn generalizing input off out with
  | ind n ih =>
  subst hn
  rw [I.hash_recurse]
  split
  · exact logs_hash_chunks_parallel p ..
  next hlen =>
    split
    next e he => exact .error e []
    next l hl =>
      have h1 := left_len_lt hl
      have h2 := left_len_pos hl
      obtain ⟨h3, h4⟩ := left_len_val hl
      have hdvd : p.simd_degree ∣ l / 2048 := by
        rw [h4, CHUNK_LEN, Nat.mul_div_cancel _ (by decide)]
        refine degree_dvd p _ ?_
        have hd := degree_pos p
        have h5 : p.simd_degree ≤ (input.length - 1) / CHUNK_LEN := by
          rw [Nat.le_div_iff_mul_le (by decide)]; simp only [CHUNK_LEN] at *; omega
        -- the largest power of two below is at least any power of two below
        have key : ∀ j m, 2 ^ j ≤ m → 2 ^ j ≤ 2 ^ Nat.log2 m := by
          intro j m hj
          refine Nat.pow_le_pow_right (by decide) ?_
          exact (Nat.le_log2 (by have := Nat.two_pow_pos j; omega)).2 hj
        cases p
        · exact key 0 _ h5
        · exact key 2 _ h5
        · exact key 3 _ h5
      have hmul : l = 2048 * (l / 2048) := by
        rw [h4, CHUNK_LEN, Nat.mul_div_cancel _ (by decide), Nat.mul_comm]
      have e : kernels p 2048 (input.length / 2048) =
          kernels p 2048 ((input.take l).length / 2048) ++ (kernels p 2048 ((input.drop l).length / 2048) ++ []) := by
        rw [List.append_nil, List.length_take, List.length_drop, Nat.min_eq_left (by omega), ← kernels_add _ _ _ _ hdvd]
        congr 1; omega
      rw [e]
      refine (Logs.lift _).bind' fun _ _ => (Logs.lift _).bind' fun _ _ => (Logs.lift _).bind' fun s _ =>
        (ih (input.take l).length (by simp; omega) (input.take l) _ _ rfl).bind fun r1 _ =>
        (ih (input.drop l).length (by simp; omega) (input.drop l) _ _ rfl).bind fun r2 _ =>
        (Logs.lift _).bind' fun _ _ => (Logs.lift _).bind' fun _ _ => ?_
      dsimp only
      split
      · exact (Logs.lift _).bind' fun _ _ => (Logs.lift _).bind' fun _ _ => .pure trivial
      · exact (Logs.lift _).bind' fun _ _ => logs_hash_parents_parallel p ..

theorem logs_condense_loop (p : Platform) (cfg : Config) (key : Vector Word 8) (flags : Byte) (n : Nat)
    (cs out : Bytes) : Logs chunkKernel [] (fun _ => True) (I.condense_loop cfg key flags p n cs out) := by
  induction n generalizing cs out with
  | zero => exact .error _ _
  | succ n ih =>
    rw [I.condense_loop]
    split
    · exact (logs_hash_parents_parallel p ..).bind' fun r _ => (Logs.lift _).bind' fun _ _ =>
        (Logs.lift _).bind' fun _ _ => (Logs.lift _).bind' fun _ _ => ih _ _
    · exact .pure trivial

theorem logs_condense_root (p : Platform) (cfg : Config) (cs : Bytes) (key : Vector Word 8) (flags : Byte) :
    Logs chunkKernel [] (fun _ => True) (I.condense_root cfg cs key flags p) :=
  (Logs.lift _).bind' fun _ _ => (Logs.lift _).bind' fun _ _ => (logs_condense_loop p ..).bind' fun _ _ =>
    (Logs.lift _).bind' fun _ _ => .pure trivial

theorem logs_hash_internal (cfg : Config) (input : Bytes) (key : Vector Word 8) (flags : Byte) (h : 2048 < input.length) :
    Logs chunkKernel (kernels (Platform.detect cfg) 2048 (input.length / 2048)) (fun _ => True)
      (I.hash_internal cfg input key flags) := by
  unfold I.hash_internal
  dsimp only
  rw [if_neg (by simp only [CHUNK_LEN]; omega)]
  rw [← List.append_nil (kernels _ _ _)]
  exact (logs_hash_recurse _ ..).bind fun _ _ => (Logs.lift _).bind' fun _ _ => logs_condense_root _ ..

theorem logs_oneShotXof (cfg : Config) (m : Spec.Mode) (input : Bytes) (h : 2048 < input.length) :
    Logs chunkKernel (kernels (Platform.detect cfg) 2048 (input.length / 2048)) (fun _ => True)
      (I.oneShotXof cfg m input) := by
  cases m <;> exact logs_hash_internal _ _ _ _ h

theorem logs_oneShotXof_short (cfg : Config) (m : Spec.Mode) (input : Bytes) (h : input.length ≤ 2048) :
    Logs chunkKernel [] (fun _ => True) (I.oneShotXof cfg m input) := by
  have key : ∀ k f, Logs chunkKernel [] (fun _ => True) (I.hash_internal cfg input k f) := by
    intro k f
    unfold I.hash_internal
    dsimp only
    rw [if_pos (by simp only [CHUNK_LEN]; omega)]
    exact logs_hash_one_chunk ..
  cases m <;> exact key _ _

/-! ## Incremental hashing -/

theorem Logs.and_on {α : Type} {F : Ev → Bool} {L : List Ev} {Q Q' : α → Prop} {p : Platform} {x : IR α}
    (h : Logs F L Q x) (h' : On p Q' x) : Logs F L (fun a => Q a ∧ Q' a) x := by
  unfold Logs at *
  exact fun a ha => ⟨(h a ha).1, (h a ha).2, h'.2 a ha⟩

theorem Logs.ok {α : Type} {F : Ev → Bool} {L : List Ev} {Q : α → Prop} {x : IR α} (h : Logs F L Q x) {a : α}
    (ha : x.res = .ok a) : x.log.filter F = L ∧ Q a := by
  unfold Logs at h; exact h a ha

/-- filters that drop the calls of `hash_many` and the compression of parents -/
structure Drops (F : Ev → Bool) : Prop where
  sse41 : F .manySse41 = false
  avx2 : F .manyAvx2 = false
  parent : ∀ b f, F (.compress b (f ||| Flags.PARENT)) = false

theorem drops_chunkKernel : Drops chunkKernel := ⟨rfl, rfl, fun _ _ => rfl⟩

theorem parent_flag (f : Byte) : (f ||| 4) &&& 4 = 4 := by
  ext i hi
  simp only [BitVec.getElem_and, BitVec.getElem_or]
  cases f[i] <;> cases (4 : Byte)[i] <;> rfl

theorem drops_chunkWork : Drops chunkWork := by
  refine ⟨rfl, rfl, fun b f => ?_⟩
  show ((f ||| 4) &&& 4 == 0) = false
  rw [parent_flag]; rfl

theorem work_2048 (p : Platform) (n : Nat) : (kernels p 2048 n).filter chunkWork = kernels p 2048 n := by
  rw [List.filter_eq_self]
  intro a ha
  cases p <;> simp only [kernels, List.mem_append] at ha <;> try (rcases ha with ha | ha)
  all_goals try (rcases ha with ha | ha)
  all_goals rw [List.eq_of_mem_replicate ha]; rfl

section
variable {F : Ev → Bool} (hF : Drops F) {p : Platform}

include hF

theorem logs_parent (p : Platform) (l r : Vector Byte 32) (key : Vector Word 8) (flags : Byte) :
    Logs F [] (fun _ => True) (I.Output.to_hash (hash_one_parent l r key .notRoot flags p)) := by
  refine Logs.bind' (Q := fun _ => True) ?_ fun _ _ => .pure trivial
  have h : ∀ b, F (.compress b (flags ||| Flags.PARENT ||| IsRoot.notRoot.flag)) = false := by
    intro b
    have e : flags ||| Flags.PARENT ||| IsRoot.notRoot.flag = flags ||| Flags.PARENT := BitVec.or_zero
    rw [e]; exact hF.parent b flags
  cases p <;> exact (Logs.skip (h _)).bind' fun _ _ => .pure trivial

theorem logs_merge_parent (h : Hasher) : Logs F [] (fun _ => True) (I.Hasher.merge_parent h) := by
  unfold I.Hasher.merge_parent
  split
  · exact (logs_parent hF ..).bind' fun _ _ => .pure trivial
  · exact .error _ _

theorem logs_merge_loop (h : Hasher) (off : U64) : Logs F [] (fun _ => True) (I.Hasher.merge_loop h off) := by
  induction hn : h.subtree_hashes.length using Nat.strongRecOn generalizing h with
  | ind n ih =>
  have hm := logs_merge_parent hF h
  rw [I.Hasher.merge_loop]
  split
  · split
    next e he => exact .error _ _
    next h' he =>
      have hl : h'.subtree_hashes.length < h.subtree_hashes.length :=
        Model.Hasher.merge_parent_length (by rw [← I.Hasher.merge_parent_res]; exact he)
      have hi := ih _ (by omega) h' rfl
      unfold Logs at *
      intro a ha
      refine ⟨?_, trivial⟩
      show (_ ++ _ : List Ev).filter F = _
      rw [List.filter_append, (hm _ he).1, (hi a ha).1, List.append_nil]
  · exact .pure trivial

theorem logs_push_chunk_hash (h : Hasher) (x : Vector Byte 32) (off : U64) :
    Logs F [] (fun _ => True) (I.Hasher.push_chunk_hash h x off) := by
  refine (logs_merge_loop hF h off).bind' fun h hp => ?_
  split
  · exact .pure trivial
  · exact .error _ _

set_option maxRecDepth 8000 in
theorem logs_push_hashes (cs : List Bytes) (h : Hasher) :
    Logs F [] (fun _ => True) (I.Hasher.push_hashes cs h) := by
  induction cs generalizing h with
  | nil => exact .pure trivial
  | cons c cs ih =>
    rw [push_hashes_cons]
    exact (Logs.lift _).bind' fun _ _ => (logs_push_chunk_hash hF h _ _).bind' fun h hp =>
      (Logs.lift _).bind' fun _ _ => ih _

theorem logs_update_loop (cfg : Config) (hd : p.simd_degree ∣ MAX_SIMD_DEGREE cfg)
    (hK : ∀ n, (kernels p 2048 n).filter F = kernels p 2048 n) (cs : List Bytes)
    (hcs : ∀ c ∈ cs, c.length = 2048) (out : Bytes) (h : Hasher)
    (hp : HasP p h) : Logs F (kernels p 2048 cs.length) (fun _ => True) (I.Hasher.update_loop cfg cs out h) := by
  induction hn : cs.length using Nat.strongRecOn generalizing cs out h with
  | ind n ih =>
  subst hn
  have h2 : 0 < MAX_SIMD_DEGREE cfg := by unfold MAX_SIMD_DEGREE; split <;> decide
  rw [I.Hasher.update_loop]
  split
  next he =>
    have : cs = [] := by
      cases cs with
      | nil => rfl
      | cons c cs => rw [show MAX_SIMD_DEGREE cfg = (MAX_SIMD_DEGREE cfg - 1) + 1 by omega] at he; cases he
    subst this
    have e : kernels p 2048 0 = [] := by cases p <;> rfl
    exact (Logs.pure trivial).cast e.symm
  next he =>
    have h1 : 0 < cs.length := by
      cases cs with
      | nil => exact absurd List.take_nil he
      | cons c cs => simp
    have e : kernels p 2048 cs.length = (kernels p 2048 (cs.take (MAX_SIMD_DEGREE cfg)).length).filter F ++
        kernels p 2048 (cs.drop (MAX_SIMD_DEGREE cfg)).length := by
      rw [hK]
      by_cases hc : MAX_SIMD_DEGREE cfg ≤ cs.length
      · rw [← kernels_add]
        · rw [← List.length_append, List.take_append_drop]
        · rw [List.length_take, Nat.min_eq_left hc]; exact hd
      · have e0 : kernels p 2048 0 = [] := by cases p <;> rfl
        rw [List.take_of_length_le (by omega), List.drop_eq_nil_of_le (by omega), List.length_nil, e0, List.append_nil]
    rw [e]
    rw [show h.chunk.platform = p from hp]
    refine ((logs_hash_many hF.sse41 hF.avx2 p 2048 _ _ _ _ _ _ _ (fun c hc => hcs c (List.mem_of_mem_take hc)) _).and_on
      (on_hash_many p ..)).bind fun _ _ => ?_
    exact ((logs_push_hashes hF _ _).and_on (on_push_hashes p _ _ hp)).bind' fun h hp =>
      ih (cs.drop (MAX_SIMD_DEGREE cfg)).length (by simp only [List.length_drop]; omega) _
        (fun c hc => hcs c (List.mem_of_mem_drop hc)) _ _ hp.2 rfl

end

theorem assertR_ok {q : Prop} [Decidable q] {u : Unit} (h : assertR q = .ok u) : q := by
  unfold assertR at h
  split at h
  · assumption
  · cases h

theorem chunksRemainder_nil {n : Nat} {x : Bytes} (h : n ∣ x.length) (hn : 0 < n) : chunksRemainder n x = [] := by
  obtain ⟨k, hk⟩ := h
  unfold chunksRemainder
  refine List.drop_eq_nil_of_le ?_
  rw [hk, Nat.mul_div_cancel_left _ hn, Nat.mul_comm]; exact Nat.le_refl _

/-- whole chunks at a chunk boundary -/
theorem logs_update_rest (hF : Drops F) {p : Platform} (cfg : Config) (hd : p.simd_degree ∣ MAX_SIMD_DEGREE cfg)
    (hK : ∀ n, (kernels p 2048 n).filter F = kernels p 2048 n) (h : Hasher) (input : Bytes) (hp : HasP p h)
    (hl : 2048 ∣ input.length) :
    Logs F (kernels p 2048 (input.length / 2048)) (fun h => HasP p h ∧ h.chunk.len = 0)
      (I.Hasher.update_rest cfg h input) := by
  refine (Logs.lift _).bind' fun _ _ => ?_
  have e : kernels p 2048 (input.length / 2048) = kernels p 2048 (chunksExact CHUNK_LEN input).length ++ [] := by
    rw [List.append_nil, length_chunksExact _ (by decide)]
  rw [e]
  refine ((logs_update_loop hF cfg hd hK _ (mem_chunksExact _ (by decide) input) _ _ hp).and_on
    (on_update_loop p cfg _ _ _ hp)).bind fun h hp => (Logs.lift _).bind' fun _ h0 => (Logs.lift _).bind' fun _ _ => ?_
  rw [if_neg (by rw [chunksRemainder_nil hl (by decide)]; simp)]
  exact .pure ⟨hp.2, assertR_ok h0⟩

theorem logs_update_whole (hF : Drops F) {p : Platform} (cfg : Config) (hd : p.simd_degree ∣ MAX_SIMD_DEGREE cfg)
    (hK : ∀ n, (kernels p 2048 n).filter F = kernels p 2048 n) (h : Hasher) (input : Bytes) (hp : HasP p h)
    (h0 : h.chunk.len = 0) (hl : 2048 ∣ input.length) (hr : ¬ (h.chunk.offset = 0 ∧ input.length = 2048)) :
    Logs F (kernels p 2048 (input.length / 2048)) (fun h => HasP p h ∧ h.chunk.len = 0)
      (I.Hasher.update cfg h input) := by
  unfold I.Hasher.update
  dsimp only
  rw [if_neg (by rw [h0]; simp only [CHUNK_LEN]; intro hc; rcases hc with hc | hc; exact hr hc; omega)]
  exact logs_update_rest hF cfg hd hK h input hp hl

/-! ### Any update at any time -/

theorem logs_fill_buf (s : ChunkState) (input : Bytes) :
    Logs chunkKernel [] (fun _ => True) (I.ChunkState.fill_buf s input) :=
  (Logs.skip rfl).bind' fun _ _ => (Logs.lift _).weaken fun _ _ => trivial

theorem logs_update_blocks (s : ChunkState) (input : Bytes) :
    Logs chunkKernel [] (fun _ => True) (I.ChunkState.update_blocks s input) := by
  induction hn : input.length using Nat.strongRecOn generalizing s input with
  | ind n ih =>
  rw [I.ChunkState.update_blocks]
  split
  next hl =>
    simp only [BLOCK_LEN] at hl
    exact (Logs.lift _).bind' fun _ _ => (Logs.lift _).bind' fun _ _ => (logs_compress ..).bind' fun _ _ =>
      (Logs.lift _).bind' fun _ _ =>
        ih (input.drop BLOCK_LEN).length (by simp only [BLOCK_LEN, List.length_drop]; omega) _ _ rfl
  next => exact .pure trivial

theorem logs_update_first (s : ChunkState) (input : Bytes) :
    Logs chunkKernel [] (fun _ => True) (I.ChunkState.update_first s input) := by
  unfold I.ChunkState.update_first
  split
  · refine (logs_fill_buf s input).bind' fun r hr => ?_
    obtain ⟨s, input⟩ := r
    dsimp only
    split
    · exact (Logs.lift _).bind' fun _ _ => (logs_compress ..).bind' fun _ _ => (Logs.lift _).bind' fun _ _ => .pure trivial
    · exact .pure trivial
  · exact .pure trivial

theorem logs_cs_update (s : ChunkState) (input : Bytes) :
    Logs chunkKernel [] (fun _ => True) (I.ChunkState.update s input) :=
  (logs_update_first s input).bind' fun r hr => (logs_update_blocks _ _).bind' fun r hr =>
    (logs_fill_buf _ _).bind' fun r hr => (Logs.lift _).bind' fun _ _ => (Logs.lift _).bind' fun _ _ => .pure trivial

theorem logs_rest_any {p : Platform} (cfg : Config) (hd : p.simd_degree ∣ MAX_SIMD_DEGREE cfg) (h : Hasher)
    (input : Bytes) (hp : HasP p h) :
    Logs chunkKernel (kernels p 2048 (input.length / 2048)) (fun _ => True) (I.Hasher.update_rest cfg h input) := by
  refine (Logs.lift _).bind' fun _ _ => ?_
  have e : kernels p 2048 (input.length / 2048) = kernels p 2048 (chunksExact CHUNK_LEN input).length ++ [] := by
    rw [List.append_nil, length_chunksExact _ (by decide)]
  rw [e]
  refine (logs_update_loop drops_chunkKernel cfg hd (chunks_2048 p) _ (mem_chunksExact _ (by decide) input) _ _ hp).bind
    fun h _ => (Logs.lift _).bind' fun _ h0 => (Logs.lift _).bind' fun _ _ => ?_
  split
  · exact (logs_merge_loop drops_chunkKernel _ _).bind' fun h _ => (logs_cs_update ..).bind' fun _ _ => .pure trivial
  · exact .pure trivial

/-- how many whole chunks of the input of one `update` are passed to `hash_many` -/
def direct (h : Hasher) (n : Nat) : Nat :=
  if (h.chunk.offset = 0 ∧ n = 2048) ∨ 0 < h.chunk.len then (n - (2048 - h.chunk.len)) / 2048 else n / 2048

set_option maxRecDepth 8000 in
theorem logs_update_any {p : Platform} (cfg : Config) (hd : p.simd_degree ∣ MAX_SIMD_DEGREE cfg) (h : Hasher)
    (input : Bytes) (hp : HasP p h) (hlen : h.chunk.len ≤ 2048) :
    Logs chunkKernel (kernels p 2048 (direct h input.length)) (fun _ => True) (I.Hasher.update cfg h input) := by
  unfold I.Hasher.update direct
  have e0 : kernels p 2048 0 = [] := by cases p <;> rfl
  dsimp only
  split
  next hc =>
    refine (Logs.lift _).bind' fun w hw => ?_
    have hw' : w = 2048 - h.chunk.len := by
      unfold subN at hw
      split at hw <;> cases hw <;> rfl
    refine ((logs_cs_update ..).and_on (on_cs_update p _ _ hp)).bind' fun c hc => ?_
    split
    next hne =>
      refine (Logs.lift _).bind' fun _ _ => ((Logs.lift _).and_on (on_finalize_chunk p _ _ hc.2)).bind' fun o ho =>
        (logs_to_hash _).bind' fun _ _ =>
        ((logs_push_chunk_hash drops_chunkKernel { h with chunk := c } _ _).and_on
          (on_push_chunk_hash p { h with chunk := c } _ _ hc.2)).bind' fun h hp =>
        (Logs.lift _).bind' fun _ _ => ((Logs.lift _).and_on (on_reset p _ _ hp.2)).bind' fun c hc => ?_
      refine (logs_rest_any cfg hd { h with chunk := c } _ hc.2).cast ?_
      rw [List.length_drop, hw']
      congr 2; omega
    next hne =>
      rw [Decidable.not_not] at hne
      have := congrArg List.length hne
      simp only [List.length_drop, List.length_nil] at this
      rw [show (input.length - (2048 - h.chunk.len)) / 2048 = 0 by omega, e0]
      exact .pure trivial
  next hc =>
    exact logs_rest_any cfg hd h input hp

theorem degree_dvd_max (cfg : Config) : (Platform.detect cfg).simd_degree ∣ MAX_SIMD_DEGREE cfg := by
  unfold Platform.detect MAX_SIMD_DEGREE
  by_cases hx : cfg.x86 = true
  · rw [if_pos hx, if_pos hx]
    split
    · exact ⟨1, rfl⟩
    · split
      · exact ⟨2, rfl⟩
      · exact ⟨8, rfl⟩
  · rw [if_neg hx, if_neg hx]; exact ⟨1, rfl⟩

/-- a series of writes in suitable sizes -/
theorem logs_updates_whole (hF : Drops F) (cfg : Config)
    (hK : ∀ n, (kernels (Platform.detect cfg) 2048 n).filter F = kernels (Platform.detect cfg) 2048 n) (ss : List Bytes)
    (hs : ∀ s ∈ ss, MAX_SIMD_DEGREE cfg * 2048 ∣ s.length ∧ s.length ≠ 2048) (h : Hasher)
    (hp : HasP (Platform.detect cfg) h) (h0 : h.chunk.len = 0) :
    Logs F (kernels (Platform.detect cfg) 2048 (ss.flatten.length / 2048))
      (fun h => HasP (Platform.detect cfg) h ∧ h.chunk.len = 0) (I.Hasher.updates cfg h ss) := by
  induction ss generalizing h with
  | nil =>
    have e0 : kernels (Platform.detect cfg) 2048 0 = [] := by cases Platform.detect cfg <;> rfl
    exact (Logs.pure ⟨hp, h0⟩).cast e0.symm
  | cons s ss ih =>
    obtain ⟨h1, h2⟩ := hs s (List.mem_cons_self ..)
    have h3 : 2048 ∣ s.length := Nat.dvd_trans ⟨_, Nat.mul_comm ..⟩ h1
    have e : (s :: ss).flatten.length / 2048 = s.length / 2048 + ss.flatten.length / 2048 := by
      rw [List.flatten_cons, List.length_append]; omega
    have hdv : (Platform.detect cfg).simd_degree ∣ s.length / 2048 := by
      obtain ⟨k, hk⟩ := h1
      rw [hk, Nat.mul_right_comm, Nat.mul_div_cancel _ (by decide)]
      exact Nat.dvd_trans (degree_dvd_max cfg) ⟨k, rfl⟩
    rw [e, kernels_add _ _ _ _ hdv]
    exact (logs_update_whole hF cfg (degree_dvd_max cfg) hK h s hp h0 h3 (fun hc => h2 hc.2)).bind fun h hp =>
      ih (fun s hs' => hs s (List.mem_cons_of_mem _ hs')) h hp.1 hp.2

end Baokeshed.Proofs.I
