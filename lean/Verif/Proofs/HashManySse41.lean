import Verif.Proofs.HashMany4

/-! # `sse41::hash_many` = `portable::hash_many` -/

set_option linter.unusedVariables false
set_option linter.unusedSimpArgs false

namespace Baokeshed.Proofs
open Baokeshed.Model

theorem lanesOut_succ (key : Vector Word 8) (off d : U64) (flags fs fe : Byte) (i : Nat) (xs : List Bytes)
    (h : off.toNat + d.toNat < 2 ^ 64) :
    lanesOut key off d flags fs fe (i + 1) xs = lanesOut key (offs off d 1) d flags fs fe i xs := by
  induction xs generalizing i with
  | nil => rfl
  | cons x xs ih =>
    rw [lanesOut, lanesOut, ih, offs_offs off d 1 i (by omega), Nat.add_comm 1 i]

/-- running `portable::hash_many` over a prefix of the inputs -/
theorem portable_many_append (key : Vector Word 8) (d : U64) (flags fs fe : Byte) (xs ys : List Bytes)
    (off : U64) (out : Bytes) (hx : ∀ x ∈ xs, x.length % 64 = 0) (hout : 32 * xs.length ≤ out.length) :
    Portable.hash_many_loop key d flags fs fe (xs ++ ys) off out =
      if off.toNat + xs.length * d.toNat < 2 ^ 64 then do
        let rest ← Portable.hash_many_loop key d flags fs fe ys (offs off d xs.length)
          (out.drop (32 * xs.length))
        return lanesOut key off d flags fs fe 0 xs ++ rest
      else .error .overflow := by
  induction xs generalizing off out with
  | nil =>
    have := off.isLt
    rw [if_pos (by simp; omega)]
    simp only [List.nil_append, List.length_nil, offs_zero, Nat.mul_zero, List.drop_zero, lanesOut]
    cases Portable.hash_many_loop key d flags fs fe ys off out <;> rfl
  | cons x xs ih =>
    rw [List.length_cons] at hout
    rw [List.cons_append, Portable.hash_many_loop, if_neg (by simp only [OUT_LEN]; omega),
      hash1_eq x key off flags fs fe (hx x (List.mem_cons_self ..)), bind_ok, addU64_eq, List.length_cons]
    by_cases h1 : off.toNat + d.toNat < 2 ^ 64
    · rw [if_pos h1, bind_ok, ih _ _ (fun y hy => hx y (List.mem_cons_of_mem _ hy)) (by simp [OUT_LEN]; omega),
        toNat_offs off d 1 (by omega)]
      have e1 : off.toNat + 1 * d.toNat + xs.length * d.toNat = off.toNat + (xs.length + 1) * d.toNat := by
        rw [Nat.add_mul]; omega
      rw [e1]
      by_cases h2 : off.toNat + (xs.length + 1) * d.toNat < 2 ^ 64
      · rw [if_pos h2, if_pos h2, offs_offs off d 1 _ (by omega), Nat.add_comm 1, List.drop_drop,
          show OUT_LEN + 32 * xs.length = 32 * (xs.length + 1) by simp [OUT_LEN]; omega,
          lanesOut, offs_zero, lanesOut_succ _ _ _ _ _ _ _ _ h1]
        cases Portable.hash_many_loop key d flags fs fe ys (offs off d (xs.length + 1))
          (List.drop (32 * (xs.length + 1)) out) with
        | error e => rfl
        | ok r => simp only [bind_ok, pure_eq, List.append_assoc]
      · rw [if_neg h2, if_neg h2, bind_error]
    · rw [if_neg h1, bind_error, if_neg (by rw [Nat.add_mul]; omega)]

theorem sse41_tail_eq (key : Vector Word 8) (d : U64) (flags fs fe : Byte) (xs : List Bytes)
    (off : U64) (out : Bytes) :
    Sse41.hash_many_tail key d flags fs fe xs off out = Portable.hash_many_loop key d flags fs fe xs off out := by
  induction xs generalizing off out with
  | nil => rfl
  | cons x xs ih =>
    rw [Sse41.hash_many_tail, Portable.hash_many_loop, sse41_hash1_eq]
    simp only [ih]

theorem arrayRef_take {α} (s : List α) (n : Nat) (h : n ≤ s.length) :
    ∃ v : Vector α n, arrayRef s 0 n = .ok v ∧ v.toList = s.take n := by
  unfold arrayRef
  simp only [Nat.zero_add, List.drop_zero]
  rw [dif_pos h]
  exact ⟨_, rfl, by simp⟩

theorem sse41_loop_eq (cap : Nat) (hcap : cap % 64 = 0) (key : Vector Word 8) (d : U64) (flags fs fe : Byte)
    (xs : List Bytes) (off : U64) (out : Bytes) (hx : ∀ x ∈ xs, x.length = cap) :
    Sse41.hash_many_loop cap key d flags fs fe xs off out =
      Portable.hash_many_loop key d flags fs fe xs off out := by
  induction hn : xs.length using Nat.strongRecOn generalizing xs off out with
  | ind n ih =>
  rw [Sse41.hash_many_loop]
  split
  next h =>
    obtain ⟨h4, h5⟩ := h
    simp only [Sse41.DEGREE, OUT_LEN] at h4 h5
    obtain ⟨v, ev, tv⟩ := arrayRef_take xs 4 h4
    rw [ev, bind_ok]
    have hv : ∀ i (hi : i < 4), v[i].length = 64 * (cap / 64) := by
      intro i hi
      have : v[i] ∈ xs := List.mem_of_mem_take (by rw [← tv]; exact Vector.mem_toList_iff.2 (Vector.getElem_mem hi))
      rw [hx _ this]; omega
    have e := hash4_eq v (cap / 64) key off d flags fs fe (out.take 128) hv (by simp; omega)
    simp only [Sse41.DEGREE, OUT_LEN, BLOCK_LEN] at e ⊢
    rw [e]
    conv => rhs; rw [← List.take_append_drop 4 xs]
    have l4 : (xs.take 4).length = 4 := by simp; omega
    rw [portable_many_append _ _ _ _ _ _ _ _ _
      (fun x hx' => by rw [hx x (List.mem_of_mem_take hx')]; exact hcap) (by omega), l4,
      offset_plus_eq off d 4 (by decide)]
    by_cases h1 : off.toNat + 4 * d.toNat < 2 ^ 64
    · rw [if_pos h1, if_pos h1, if_pos (by omega), bind_ok, bind_ok,
        ih (xs.drop 4).length (by simp; omega) _ _ _ (fun x hx' => hx x (List.mem_of_mem_drop hx')) rfl, tv]
    · rw [if_neg h1, if_neg h1]
      split <;> rfl
  next h => exact sse41_tail_eq ..

theorem sse41_hash_many_eq (cap : Nat) (hcap : cap % 64 = 0) (xs : List Bytes) (key : Vector Word 8)
    (off d : U64) (flags fs fe : Byte) (out : Bytes) (hx : ∀ x ∈ xs, x.length = cap) :
    Sse41.hash_many cap xs key off d flags fs fe out =
      Portable.hash_many xs key off d flags fs fe out := by
  rw [Sse41.hash_many, Portable.hash_many]
  simp only [sse41_loop_eq cap hcap key d flags fs fe xs off out hx]

end Baokeshed.Proofs
