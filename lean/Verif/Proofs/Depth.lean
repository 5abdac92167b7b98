import Verif.Model.Depth
import Verif.Proofs.Output
import Verif.Proofs.Python

/-! # The recursion on a call stack of limited size -/

set_option linter.unusedVariables false

namespace Baokeshed.Proofs
open Baokeshed.Model

/-- Comparing powers of two: a smaller one is at most half. -/
theorem pow_half {a b : Nat} (h : 2 ^ a < 2 * 2 ^ b) : 2 ^ a ≤ 2 ^ b := by
  have : 2 ^ a < 2 ^ (b + 1) := by rw [Nat.pow_succ]; omega
  exact Nat.pow_le_pow_right (by decide) (by have := (Nat.pow_lt_pow_iff_right (by decide)).1 this; omega)

/-- The two parts of an input of more than `2 ^ j` and at most `2 ^ (j + d + 1)` chunks have at most `2 ^ (j + d)`
chunks. -/
theorem parts_le {len j d : Nat} (h : 2 ^ j * 2048 < len) (hle : len ≤ 2 ^ j * 2048 * 2 ^ (d + 1)) :
    2048 * lp (nChunks len) ≤ 2 ^ j * 2048 * 2 ^ d ∧ len - 2048 * lp (nChunks len) ≤ 2 ^ j * 2048 * 2 ^ d := by
  have hj := Nat.two_pow_pos j
  have h2 : 2 ≤ nChunks len := by unfold nChunks; omega
  have h1 := lp_lt h2
  have h3 := le_two_lp h2
  have e : 2 ^ j * 2048 * 2 ^ d = 2048 * 2 ^ (j + d) := by rw [Nat.pow_add, Nat.mul_right_comm, Nat.mul_comm]
  have e' : 2 ^ j * 2048 * 2 ^ (d + 1) = 2048 * (2 * 2 ^ (j + d)) := by
    rw [Nat.pow_succ, Nat.pow_add, ← Nat.mul_assoc, Nat.mul_right_comm (2 ^ j), Nat.mul_comm (2 ^ j * 2 ^ d) 2048,
      Nat.mul_assoc, Nat.mul_comm _ 2]
  rw [e'] at hle
  rw [e]
  have hn : nChunks len ≤ 2 * 2 ^ (j + d) := by unfold nChunks; omega
  have hl : lp (nChunks len) ≤ 2 ^ (j + d) := pow_half (a := Nat.log2 (nChunks len - 1)) (by unfold lp at h1; omega)
  refine ⟨by omega, ?_⟩
  have : len ≤ 2048 * nChunks len := by unfold nChunks; omega
  omega

/-- The left part of an input of more than `2 ^ (j + d + 1)` chunks has more than `2 ^ (j + d)` chunks. -/
theorem left_gt {len j d : Nat} (h : 2 ^ j * 2048 * 2 ^ (d + 1) < len) :
    2 ^ j * 2048 * 2 ^ d < 2048 * lp (nChunks len) := by
  have hp := Nat.two_pow_pos (j + d)
  have e : 2 ^ j * 2048 * 2 ^ d = 2048 * 2 ^ (j + d) := by rw [Nat.pow_add, Nat.mul_right_comm, Nat.mul_comm]
  have e' : 2 ^ j * 2048 * 2 ^ (d + 1) = 2048 * (2 * 2 ^ (j + d)) := by
    rw [Nat.pow_succ, Nat.pow_add, ← Nat.mul_assoc, Nat.mul_right_comm (2 ^ j), Nat.mul_comm (2 ^ j * 2 ^ d) 2048,
      Nat.mul_assoc, Nat.mul_comm _ 2]
  rw [e'] at h
  rw [e]
  have hn : 2 * 2 ^ (j + d) < nChunks len := by unfold nChunks; omega
  have h3 := le_two_lp (n := nChunks len) (by omega)
  omega

theorem left_le {len : Nat} (h : 2048 < len) : 2048 * lp (nChunks len) ≤ len := by
  have := lp_lt (n := nChunks len) (by unfold nChunks; omega)
  unfold nChunks at this ⊢
  omega

/-- With enough room the recursion does what it does on an unlimited stack. -/
theorem depth_enough (cfg : Config) (p : Platform) (key : Vector Word 8) (flags : Byte) (n : Nat) :
    ∀ (input : Bytes) (off : U64) (out : Bytes), input.length ≤ p.simd_degree * 2048 * 2 ^ n →
      D.hash_recurse cfg (n + 1) input key off flags p out = hash_recurse cfg input key off flags p out := by
  obtain ⟨j, hj, -⟩ := simd_pow p
  induction n with
  | zero =>
    intro input off out h
    have h : input.length ≤ p.simd_degree * CHUNK_LEN := by simpa using h
    rw [D.hash_recurse, hash_recurse, if_pos h, if_pos h]
  | succ n ih =>
    intro input off out h
    rw [D.hash_recurse, hash_recurse]
    by_cases hle : input.length ≤ p.simd_degree * CHUNK_LEN
    · rw [if_pos hle, if_pos hle]
    · rw [if_neg hle, if_neg hle]
      cases hl : left_len cfg.usizeBits input.length with
      | error e => rfl
      | ok l =>
        have hv := (left_len_val hl).2
        have hpos := Nat.two_pow_pos j
        rw [hj] at h hle
        have hcl : 2 ^ j * 2048 < input.length := by simpa [CHUNK_LEN] using hle
        obtain ⟨h1, h2⟩ := parts_le hcl h
        have hl' : l = 2048 * lp (nChunks input.length) := by
          rw [hv, lp, nChunks, Nat.add_sub_cancel, Nat.mul_comm]
        rw [← hl', ← hj] at h1 h2
        simp only [bind_ok]
        simp only [ih (input.take l) _ _ (by rw [List.length_take]; omega),
          ih (input.drop l) _ _ (by rw [List.length_drop]; omega)]

/-- Without enough room it exhausts the stack. -/
theorem depth_short (cfg : Config) (p : Platform) (hp : p.simd_degree ≤ MAX_SIMD_DEGREE cfg) (key : Vector Word 8)
    (flags : Byte) (n : Nat) : ∀ (input : Bytes) (off : Nat) (out : Bytes), off + input.length < 2 ^ 64 →
      input.length < 2 ^ cfg.usizeBits → p.simd_degree * 2048 * 2 ^ n < input.length →
      D.hash_recurse cfg (n + 1) input key (BitVec.ofNat 64 off) flags p out = .error .stack := by
  obtain ⟨j, hj, -⟩ := simd_pow p
  have hpos := Nat.two_pow_pos j
  have hor2 := or_2_ge cfg _ hp
  have step : ∀ (n : Nat) (input : Bytes) (off : Nat) (out : Bytes), off + input.length < 2 ^ 64 →
      input.length < 2 ^ cfg.usizeBits → p.simd_degree * 2048 < input.length →
      (∀ out, D.hash_recurse cfg n (input.take (2048 * lp (nChunks input.length))) key (BitVec.ofNat 64 off) flags p out
        = .error .stack) →
      D.hash_recurse cfg (n + 1) input key (BitVec.ofNat 64 off) flags p out = .error .stack := by
    intro n input off out hlt hw hgt hr
    have hcl : CHUNK_LEN < input.length := by simp only [CHUNK_LEN]; omega
    have h2 : 2 ≤ nChunks input.length := by unfold nChunks; simp only [CHUNK_LEN] at hcl; omega
    have hlp := lp_lt h2
    have hleft : (input.take (2048 * lp (nChunks input.length))).length = 2048 * lp (nChunks input.length) := by
      rw [List.length_take]; unfold nChunks at hlp ⊢; omega
    rw [D.hash_recurse, if_neg (by simp only [CHUNK_LEN]; omega), left_len_eq hcl hw, bind_ok]
    dsimp only
    rw [hleft, addU64_ofNat _ _ (by unfold nChunks at hlp ⊢; omega), bind_ok, assertR, if_pos (popcount_simd p), bind_ok,
      splitAtR, if_pos (by
        rw [List.length_replicate]; refine Nat.mul_le_mul_right _ ?_
        split <;> omega), bind_ok]
    dsimp only
    rw [hr]
    rfl
  induction n with
  | zero =>
    intro input off out hlt hw h
    exact step 0 input off out hlt hw (by simpa using h) fun out => by rw [D.hash_recurse]
  | succ n ih =>
    intro input off out hlt hw h
    have hg : p.simd_degree * 2048 < input.length := by
      have := Nat.le_mul_of_pos_right (p.simd_degree * 2048) (Nat.two_pow_pos (n + 1))
      omega
    refine step (n + 1) input off out hlt hw hg fun out => ih _ off out ?_ ?_ ?_
    · rw [List.length_take]; omega
    · rw [List.length_take]; omega
    · have h' := h
      rw [hj] at h'
      have := left_gt h'
      rw [List.length_take, hj, Nat.min_eq_left (left_le (by omega))]
      exact this

/-! ## Python -/

theorem py_depth_enough (key : Vector Word 8) (flags : Byte) (key_words : List Nat) (hk : PyCv key_words key) (n : Nat) :
    ∀ (input : Bytes) (offset : Nat), input.length ≤ 2048 * 2 ^ n →
    ∃ o, Py.hash_recurse (n + 1) input key_words offset flags.toNat = .ok o ∧
      PyOut o (Spec.subtree key flags offset input) := by
  induction n with
  | zero =>
    intro input offset h
    rw [Py.hash_recurse, Spec.subtree, if_pos (by simpa using h), dif_pos (by simpa using h)]
    exact py_hash_chunk key flags key_words hk input offset
  | succ n ih =>
    intro input offset h
    rw [Py.hash_recurse, Spec.subtree]
    simp only [Py.CHUNK_LEN]
    by_cases hle : input.length ≤ 2048
    · rw [if_pos hle, dif_pos hle]
      exact py_hash_chunk key flags key_words hk input offset
    · rw [if_neg hle, dif_neg hle, py_left_len _ (by omega)]
      have h1 := Spec.leftLen_lt (Nat.lt_of_not_le hle)
      have h2 := Spec.leftLen_pos input.length
      have hl : (input.take (Spec.leftLen input.length)).length = Spec.leftLen input.length := by
        rw [List.length_take]; omega
      obtain ⟨p1, p2⟩ := parts_le (j := 0) (d := n) (len := input.length) (by omega) (by simpa using h)
      have el : Spec.leftLen input.length = 2048 * lp (nChunks input.length) := by
        rw [Spec.leftLen, lp, nChunks, Nat.add_sub_cancel]
      rw [← el] at p1 p2
      simp only [Nat.pow_zero, Nat.one_mul] at p1 p2
      rw [hl]
      obtain ⟨ol, el, hol⟩ := ih (input.take (Spec.leftLen input.length)) offset (by omega)
      obtain ⟨or, er, hor⟩ := ih (input.drop (Spec.leftLen input.length)) (offset + Spec.leftLen input.length)
        (by rw [List.length_drop]; omega)
      rw [el, bind_ok, er, bind_ok]
      exact py_hash_parent key flags key_words hk ol or _ _ hol hor

theorem py_depth_short (flags : Nat) (key_words : List Nat) (n : Nat) :
    ∀ (input : Bytes) (offset : Nat), 2048 * 2 ^ n < input.length →
      Py.hash_recurse (n + 1) input key_words offset flags = .error .stack := by
  have el : ∀ l, Spec.leftLen l = 2048 * lp (nChunks l) := by
    intro l; rw [Spec.leftLen, lp, nChunks, Nat.add_sub_cancel]
  induction n with
  | zero =>
    intro input offset h
    rw [Py.hash_recurse, if_neg (by simp only [Py.CHUNK_LEN]; omega)]
    rfl
  | succ n ih =>
    intro input offset h
    have hg : 2048 < input.length := by
      have := Nat.le_mul_of_pos_right 2048 (Nat.two_pow_pos (n + 1)); omega
    have hl : (input.take (Spec.leftLen input.length)).length = Spec.leftLen input.length := by
      rw [List.length_take]; have := Spec.leftLen_lt hg; omega
    have := left_gt (j := 0) (d := n) (len := input.length) (by simpa using h)
    rw [Py.hash_recurse, if_neg (by simp only [Py.CHUNK_LEN]; omega), py_left_len _ hg]
    dsimp only
    rw [ih _ _ (by rw [hl, el]; simpa using this)]
    rfl

end Baokeshed.Proofs
