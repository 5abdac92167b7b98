import Verif.Proofs.Lanes
import Verif.SpecParents

/-! # The kernel calls for parent nodes -/

set_option linter.unusedVariables false

namespace Baokeshed.Proofs.I
open Baokeshed.Model Baokeshed.Model.I Baokeshed.Spec

theorem parents_64 (p : Platform) (n : Nat) : (kernels p 64 n).filter parentKernel = kernels p 64 n := by
  rw [List.filter_eq_self]
  intro a ha
  cases p <;> simp only [kernels, List.mem_append] at ha <;> try (rcases ha with ha | ha)
  all_goals try (rcases ha with ha | ha)
  all_goals rw [List.eq_of_mem_replicate ha]; rfl

theorem parents_2048 (p : Platform) (n : Nat) : (kernels p 2048 n).filter parentKernel = [] := by
  rw [List.filter_eq_nil_iff]
  intro a ha
  cases p <;> simp only [kernels, List.mem_append] at ha <;> try (rcases ha with ha | ha)
  all_goals try (rcases ha with ha | ha)
  all_goals rw [List.eq_of_mem_replicate ha]; decide

theorem parents_compress (p : Platform) (cv : Vector Word 8) (b : Vector Byte 64) (l : Byte) (o : U64) (f : Byte) :
    Logs parentKernel [] (fun _ => True) (I.compress p cv b l o f) := by
  unfold Logs; intro a _; cases p <;> exact ⟨rfl, trivial⟩

attribute [local irreducible] Logs

theorem parents_to_hash (o : Output) : Logs parentKernel [] (fun _ => True) (I.Output.to_hash o) :=
  (parents_compress ..).bind' fun _ _ => .pure trivial

theorem parents_hash_one_chunk_loop (p : Platform) (chunk : Bytes) (off : U64) (r : IsRoot) (flags : Byte)
    (cv : Vector Word 8) (bf : Byte) (bo : Nat) :
    Logs parentKernel [] (fun _ => True) (I.hash_one_chunk_loop p chunk off r flags cv bf bo) := by
  induction hn : chunk.length - bo using Nat.strongRecOn generalizing cv bf bo with
  | ind n ih =>
  rw [I.hash_one_chunk_loop]
  split
  next h =>
    simp only [BLOCK_LEN] at h
    split
    · exact (Logs.lift _).bind' fun b _ => .pure trivial
    · exact (Logs.lift _).bind' fun b _ => (parents_compress p ..).bind' fun cv _ =>
        ih (chunk.length - (bo + BLOCK_LEN)) (by simp only [BLOCK_LEN]; omega) _ _ _ rfl
  next h => exact (Logs.lift _).bind' fun _ _ => (Logs.skip rfl).bind' fun _ _ => (Logs.lift _).bind' fun _ _ =>
    (Logs.lift _).bind' fun _ _ => .pure trivial

theorem parents_hash_one_chunk (p : Platform) (chunk : Bytes) (key : Vector Word 8) (off : U64) (r : IsRoot) (flags : Byte) :
    Logs parentKernel [] (fun _ => True) (I.hash_one_chunk chunk key off r flags p) :=
  (Logs.lift _).bind' fun _ _ => parents_hash_one_chunk_loop p ..

/-- the number of chunks -/
def numChunks (len : Nat) : Nat := (len + 2047) / 2048

theorem parents_hash_chunks_parallel (p : Platform) (cfg : Config) (input : Bytes) (key : Vector Word 8) (off : U64) (flags : Byte)
    (out : Bytes) : Logs parentKernel [] (fun r => r.1 = numChunks input.length)
      (I.hash_chunks_parallel cfg input key off flags p out) := by
  refine (Logs.lift _).bind' fun _ _ => (Logs.lift _).bind' fun _ _ => (Logs.lift _).bind' fun _ _ =>
    (Logs.lift _).bind' fun cs hcs => ?_
  cases pushAll_ok hcs
  have hl : (chunksExact CHUNK_LEN input).length = input.length / 2048 := length_chunksExact _ (by decide) _
  have hr : (chunksRemainder CHUNK_LEN input).length = input.length % 2048 := by
    rw [chunksRemainder, List.length_drop, CHUNK_LEN]; omega
  refine Logs.bind' (Q := fun _ => True)
    ((logs_hash_many rfl rfl p 2048 _ key off _ flags _ _ (mem_chunksExact _ (by decide) input) out).cast (parents_2048 ..)) fun out _ => ?_
  dsimp only
  split
  next h =>
    have := List.length_pos_iff.2 h
    refine (Logs.lift _).bind' fun _ _ => (Logs.lift _).bind' fun _ _ => (parents_hash_one_chunk p ..).bind' fun o ho =>
      (parents_to_hash o).bind' fun _ _ => (Logs.lift _).bind' fun _ _ => .pure ?_
    show _ + 1 = _
    rw [hl, numChunks]; omega
  next h =>
    have := congrArg List.length (Classical.not_not.1 h)
    rw [List.length_nil] at this
    refine .pure ?_
    show (chunksExact CHUNK_LEN input).length = _
    rw [hl, numChunks]; omega

theorem parents_hash_parents_parallel (p : Platform) (cfg : Config) (cs : Bytes) (c : Nat) (hc : cs.length = c * 32)
    (key : Vector Word 8) (flags : Byte) (out : Bytes) :
    Logs parentKernel (kernels p 64 (c / 2)) (fun r => r.1 = (c + 1) / 2) (I.hash_parents_parallel cfg cs key flags p out) := by
  refine (Logs.lift _).bind' fun _ _ => (Logs.lift _).bind' fun _ _ => (Logs.lift _).bind' fun _ _ =>
    (Logs.lift _).bind' fun cs' hcs => ?_
  cases pushAll_ok hcs
  have hl : (chunksExact BLOCK_LEN cs).length = c / 2 := by
    rw [length_chunksExact _ (by decide), hc, BLOCK_LEN]; omega
  have hr : (chunksRemainder BLOCK_LEN cs).length = cs.length % 64 := by
    rw [chunksRemainder, List.length_drop, BLOCK_LEN]; omega
  have e : kernels p 64 (c / 2) = (kernels p 64 (chunksExact BLOCK_LEN cs).length).filter parentKernel ++ [] := by
    rw [List.append_nil, parents_64, hl]
  rw [e]
  refine (logs_hash_many rfl rfl p 64 _ key 0 0 _ 0 0 (mem_chunksExact _ (by decide) cs) out).bind fun out _ => ?_
  dsimp only
  split
  next h =>
    have := List.length_pos_iff.2 h
    refine (Logs.lift _).bind' fun _ _ => (Logs.lift _).bind' fun _ _ => .pure ?_
    show _ + 1 = _
    rw [hl]; omega
  next h =>
    have := congrArg List.length (Classical.not_not.1 h)
    rw [List.length_nil] at this
    refine .pure ?_
    show (chunksExact BLOCK_LEN cs).length = _
    rw [hl]; omega

theorem sliceTo_length {s t : Bytes} {n : Nat} (h : sliceTo s n = .ok t) : t.length = n := by
  unfold sliceTo at h
  split at h
  next hn => cases h; rw [List.length_take, Nat.min_eq_left hn]
  next => cases h

theorem degree_le_wanted (p : Platform) : p.simd_degree ≤ wanted p := by cases p <;> decide

theorem max_degree (p : Platform) : max p.simd_degree 2 = wanted p := by cases p <;> rfl

theorem roots_le {p : Platform} {n : Nat} (h : n ≤ wanted p) : roots p n = n := by rw [roots, dif_pos h]

theorem roots_gt {p : Platform} {n : Nat} (h : ¬ n ≤ wanted p) :
    roots p n = (roots p (leftChunks n) + roots p (n - leftChunks n) + 1) / 2 := by conv => lhs; rw [roots, dif_neg h]

theorem parentCalls_le {p : Platform} {n : Nat} (h : n ≤ wanted p) : parentCalls p n = [] := by rw [parentCalls, dif_pos h]

theorem parentCalls_gt {p : Platform} {n : Nat} (h : ¬ n ≤ wanted p) :
    parentCalls p n = parentCalls p (leftChunks n) ++ (parentCalls p (n - leftChunks n) ++
      kernels p 64 ((roots p (leftChunks n) + roots p (n - leftChunks n)) / 2)) := by
  conv => lhs; rw [parentCalls, dif_neg h]

theorem parents_hash_recurse (p : Platform) (cfg : Config) (input : Bytes) (h0 : input ≠ []) (key : Vector Word 8) (off : U64) (flags : Byte)
    (out : Bytes) : Logs parentKernel (parentCalls p (numChunks input.length)) (fun r => r.1 = roots p (numChunks input.length))
      (I.hash_recurse cfg input key off flags p out) := by
  induction hn : input.length using Nat.strongRecOn generalizing input off out with
  | ind n ih =>
  subst hn
  have hpos := List.length_pos_iff.2 h0
  rw [I.hash_recurse]
  split
  next hlen =>
    have hw : numChunks input.length ≤ wanted p := by
      refine Nat.le_trans ?_ (degree_le_wanted p)
      rw [numChunks]; simp only [CHUNK_LEN] at hlen
      generalize p.simd_degree = d at *; omega
    rw [parentCalls_le hw, roots_le hw]
    exact parents_hash_chunks_parallel p ..
  next hlen =>
    split
    next e he => exact .error e []
    next l hl =>
      have h1 := left_len_lt hl
      have h2 := left_len_pos hl
      obtain ⟨h3, h4⟩ := left_len_val hl
      have hL : l = 2048 * leftChunks (numChunks input.length) := by
        rw [h4, CHUNK_LEN, leftChunks, show (input.length - 1) / 2048 = numChunks input.length - 1 by rw [numChunks]; omega, Nat.mul_comm]
      have hll : (input.take l).length = l := by rw [List.length_take]; omega
      have hrl : (input.drop l).length = input.length - l := by rw [List.length_drop]
      have hnl : numChunks (input.take l).length = leftChunks (numChunks input.length) := by
        rw [hll, hL, numChunks]; generalize leftChunks (numChunks input.length) = L; omega
      have hnr : numChunks (input.drop l).length = numChunks input.length - leftChunks (numChunks input.length) := by
        rw [hrl, hL]; generalize leftChunks (numChunks input.length) = L at *; unfold numChunks; omega
      have ihl := fun off out => ih (input.take l).length (by omega) (input.take l) (List.length_pos_iff.1 (by omega)) off out rfl
      have ihr := fun off out => ih (input.drop l).length (by omega) (input.drop l) (List.length_pos_iff.1 (by omega)) off out rfl
      rw [hnl] at ihl
      rw [hnr] at ihr
      have hc : p.simd_degree < numChunks input.length := by
        rw [numChunks]; simp only [CHUNK_LEN] at hlen
        generalize p.simd_degree = d at *; omega
      have hd := degree_pos p
      obtain ⟨hl0, hl1⟩ := leftChunks_lt (n := numChunks input.length) (by omega)
      -- is there a parent to hash?
      by_cases hw : numChunks input.length ≤ wanted p
      · have hp : p = .portable := by
          cases p
          · rfl
          · exact absurd hc (Nat.not_lt.2 hw)
          · exact absurd hc (Nat.not_lt.2 hw)
        have h2 : numChunks input.length = 2 := by
          subst hp
          have : 1 < numChunks input.length := hc
          have : numChunks input.length ≤ 2 := hw
          omega
        have el : leftChunks (numChunks input.length) = 1 := by omega
        have w1 : 1 ≤ wanted p := by have := two_le_wanted p; omega
        rw [parentCalls_le hw, roots_le hw]
        rw [el, parentCalls_le w1, roots_le w1] at ihl
        rw [el, h2, parentCalls_le w1, roots_le w1] at ihr
        refine (Logs.lift _).bind' fun _ _ => (Logs.lift _).bind' fun _ _ => (Logs.lift _).bind' fun s _ =>
          (ihl _ _).bind' fun r1 e1 => (ihr _ _).bind' fun r2 e2 => (Logs.lift _).bind' fun _ _ =>
          (Logs.lift _).bind' fun _ _ => ?_
        dsimp only
        rw [if_pos e1, h2]
        exact (Logs.lift _).bind' fun _ _ => (Logs.lift _).bind' fun _ _ => .pure rfl
      · have hle : leftChunks (numChunks input.length) ≠ 1 := by
          intro h
          have h5 : Nat.log2 (numChunks input.length - 1) = 0 := by
            rw [leftChunks] at h
            exact (Nat.pow_eq_one.1 h).resolve_left (by decide)
          have := two_le_wanted p
          have h6 := Nat.lt_log2_self (n := numChunks input.length - 1)
          rw [h5] at h6
          omega
        rw [parentCalls_gt hw, roots_gt hw]
        refine (Logs.lift _).bind' fun _ _ => (Logs.lift _).bind' fun _ _ => (Logs.lift _).bind' fun s _ =>
          (ihl _ _).bind fun r1 e1 => (ihr _ _).bind fun r2 e2 => (Logs.lift _).bind' fun _ ha =>
          (Logs.lift _).bind' fun _ _ => ?_
        have hne : ¬ r1.1 = 1 := by
          have ha := assertR_ok ha
          rw [ha, if_neg (by rw [hll, hL, CHUNK_LEN]; omega), max_degree]
          have := two_le_wanted p
          omega
        dsimp only
        rw [if_neg hne]
        refine (Logs.lift _).bind' fun c hcs => ?_
        have := sliceTo_length hcs
        rw [← e1, ← e2]
        exact parents_hash_parents_parallel p cfg c (r1.1 + r2.1) this key flags out

theorem parents_condense_loop (p : Platform) (cfg : Config) (key : Vector Word 8) (flags : Byte) (n : Nat)
    (cs out : Bytes) (c : Nat) (hc : cs.length = c * 32) :
    Logs parentKernel (topCalls p c) (fun _ => True) (I.condense_loop cfg key flags p n cs out) := by
  induction n generalizing cs out c with
  | zero => exact .error _ _
  | succ n ih =>
    rw [I.condense_loop]
    by_cases h : c ≤ 2
    · rw [if_neg (by rw [hc, BLOCK_LEN]; omega), topCalls, dif_pos h]
      exact .pure trivial
    · rw [if_pos (by rw [hc, BLOCK_LEN]; omega), topCalls, dif_neg h]
      exact (parents_hash_parents_parallel p cfg cs c hc ..).bind fun r e => (Logs.lift _).bind' fun _ _ =>
        (Logs.lift _).bind' fun _ _ => (Logs.lift _).bind' fun _ hs => ih _ _ _ (by rw [sliceTo_length hs, OUT_LEN, e])

theorem parents_condense_root (p : Platform) (cfg : Config) (cs : Bytes) (key : Vector Word 8) (flags : Byte) (c : Nat)
    (hc : cs.length = c * 32) : Logs parentKernel (topCalls p c) (fun _ => True) (I.condense_root cfg cs key flags p) := by
  rw [← List.append_nil (topCalls p c)]
  exact (Logs.lift _).bind' fun _ _ => (Logs.lift _).bind' fun _ _ => (parents_condense_loop p cfg key flags _ cs _ c hc).bind fun _ _ =>
    (Logs.lift _).bind' fun _ _ => .pure trivial

theorem parents_oneShotXof (cfg : Config) (m : Spec.Mode) (input : Bytes) (h : 2048 < input.length) :
    Logs parentKernel (parentCalls (Platform.detect cfg) (numChunks input.length) ++
      topCalls (Platform.detect cfg) (roots (Platform.detect cfg) (numChunks input.length))) (fun _ => True)
      (I.oneShotXof cfg m input) := by
  have key : ∀ k f, Logs parentKernel (parentCalls (Platform.detect cfg) (numChunks input.length) ++
      topCalls (Platform.detect cfg) (roots (Platform.detect cfg) (numChunks input.length))) (fun _ => True)
      (I.hash_internal cfg input k f) := by
    intro k f
    unfold I.hash_internal
    dsimp only
    rw [if_neg (by simp only [CHUNK_LEN]; omega)]
    refine (parents_hash_recurse _ _ _ (List.length_pos_iff.1 (by omega)) ..).bind fun r e => (Logs.lift _).bind' fun _ hs => ?_
    exact parents_condense_root _ cfg _ k f _ (by rw [sliceTo_length hs, OUT_LEN, e])
  cases m <;> exact key _ _

theorem parents_oneShotXof_short (cfg : Config) (m : Spec.Mode) (input : Bytes) (h : input.length ≤ 2048) :
    Logs parentKernel [] (fun _ => True) (I.oneShotXof cfg m input) := by
  have key : ∀ k f, Logs parentKernel [] (fun _ => True) (I.hash_internal cfg input k f) := by
    intro k f
    unfold I.hash_internal
    dsimp only
    rw [if_pos (by simp only [CHUNK_LEN]; omega)]
    exact parents_hash_one_chunk ..
  cases m <;> exact key _ _

end Baokeshed.Proofs.I
