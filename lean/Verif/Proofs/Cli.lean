import Verif.Model.Cli
import Verif.Proofs.Hash
import Verif.Proofs.Output
import Verif.Props.Copy

/-! # The command line program: printing, keys -/

set_option linter.unusedVariables false

namespace Baokeshed.Proofs
open Baokeshed.Model Baokeshed.Model.Cli

attribute [local irreducible] Spec.compress Spec.outBytes Spec.cvBytes Spec.pad

theorem print_hex_loop_eq {m : Spec.Mode} {input : Bytes} (prof : Profile) (L : Nat) :
    ∀ {o : Output} {k : Nat}, OutAt o m input k → (prof = .release ∨ 64 * k + L < 2 ^ 63 + 64) → ∀ out : List Char,
    ∃ o', print_hex_loop prof o out (2 * L) = .ok (out ++ hexOf (slice m input (64 * k) L), o') := by
  induction L using Nat.strongRecOn with
  | ind L ih =>
  intro o k ho hk out
  rw [print_hex_loop]
  by_cases h0 : L = 0
  · rw [dif_pos (by omega), h0]
    exact ⟨o, by simp [slice, hexOf]⟩
  rw [dif_neg (by omega), ho.read prof (by rcases hk with h | h; exact .inl h; right; omega)]
  dsimp only
  rw [to_hex_eq, to_hex_eq]
  dsimp only
  have l1 : (hexOf ((Spec.streamBlock m input k).take 32).toList).length = 64 := by
    rw [length_hexOf, Vector.length_toList]; rfl
  have l2 : (hexOf ((Spec.streamBlock m input k).drop 32).toList).length = 64 := by
    rw [length_hexOf, Vector.length_toList]
  rw [dif_neg (by omega), l1, l2]
  have e : (hexOf ((Spec.streamBlock m input k).take 32).toList).take (min (2 * L) 64) ++
      (hexOf ((Spec.streamBlock m input k).drop 32).toList).take (min (2 * L - min (2 * L) 64) 64) =
      hexOf (slice m input (64 * k) (min L 64)) := by
    rw [slice_block _ _ _ _ (by omega), ← hexOf_take]
    have e2 : hexOf (Spec.streamBlock m input k).toList = hexOf ((Spec.streamBlock m input k).take 32).toList ++
        hexOf ((Spec.streamBlock m input k).drop 32).toList := by
      rw [← hexOf_append]
      congr 1
      simp only [Vector.toList_take, Vector.toList_drop]
      exact (List.take_append_drop ..).symm
    rw [e2, List.take_append, l1]
    congr 1
    · rw [List.take_eq_take_iff, l1]; omega
    · rw [List.take_eq_take_iff, l2]; omega
  rw [List.append_assoc, e]
  by_cases hL : L ≤ 64
  · have hz : 2 * L - min (2 * L) 64 - min (2 * L - min (2 * L) 64) 64 = 0 := by omega
    rw [hz, print_hex_loop, dif_pos rfl, Nat.min_eq_left hL]
    exact ⟨_, rfl⟩
  · have hz : 2 * L - min (2 * L) 64 - min (2 * L - min (2 * L) 64) 64 = 2 * (L - 64) := by omega
    obtain ⟨o', h'⟩ := ih (L - 64) (by omega) ho.next (by rcases hk with h | h; exact .inl h; right; omega)
      (out ++ hexOf (slice m input (64 * k) (min L 64)))
    rw [hz, h', List.append_assoc, ← hexOf_append, Nat.min_eq_right (by omega), Nat.mul_succ, ← slice_append]
    refine ⟨o', ?_⟩
    rw [show 64 + (L - 64) = L by omega]

/-- the hexadecimal text of an argument that is given as bytes -/
def asText (s : Bytes) : List Char := s.map fun b => Char.ofNat b.toNat

theorem hexVal_eq : ∀ c : Byte, (hexVal c).map BitVec.toNat = Spec.digitValue (Char.ofNat c.toNat) := by
  decide +kernel

theorem hexVal_lt : ∀ c : Byte, ∀ v, hexVal c = some v → v.toNat < 16 := by decide +kernel

theorem nibbles : ∀ a b : Fin 16, BitVec.ofNat 8 a.val <<< 4 ||| BitVec.ofNat 8 b.val = BitVec.ofNat 8 (16 * a.val + b.val) := by
  decide +kernel

theorem hexPairs_eq (s : Bytes) (h : s.length % 2 = 0) : hexPairs s = Spec.unhex (asText s) := by
  induction hn : s.length using Nat.strongRecOn generalizing s with
  | ind n ih =>
  match s, hn, h with
  | [], _, _ => rfl
  | [_], _, h => cases h
  | a :: b :: cs, hn, h =>
    rw [List.length_cons, List.length_cons] at hn h
    rw [hexPairs, show asText (a :: b :: cs) = Char.ofNat a.toNat :: Char.ofNat b.toNat :: asText cs from rfl,
      Spec.unhex, ← hexVal_eq, ← hexVal_eq, ← ih cs.length (by omega) cs (by omega) rfl]
    cases ha : hexVal a with
    | none => rfl
    | some x =>
      cases hb : hexVal b with
      | none => rfl
      | some y =>
        cases hc : hexPairs cs with
        | none => rfl
        | some bs =>
          have := nibbles ⟨x.toNat, hexVal_lt a x ha⟩ ⟨y.toNat, hexVal_lt b y hb⟩
          simp only [BitVec.ofNat_toNat, BitVec.setWidth_eq] at this
          show some ((x <<< 4 ||| y) :: bs) = some (BitVec.ofNat 8 (16 * x.toNat + y.toNat) :: bs)
          rw [this]

theorem unhex_odd (s : List Char) (h : s.length % 2 = 1) : Spec.unhex s = none := by
  induction hn : s.length using Nat.strongRecOn generalizing s with
  | ind n ih =>
  match s, hn, h with
  | [_], _, h => rfl
  | a :: b :: cs, hn, h =>
    rw [List.length_cons, List.length_cons] at hn h
    rw [Spec.unhex, ih cs.length (by omega) cs (by omega) rfl]
    split <;> first | rfl | (rename_i h; cases h)

theorem hexDecode_eq (s : Bytes) : hexDecode s = Spec.unhex (asText s) := by
  unfold hexDecode
  split
  next h => rw [unhex_odd]; rw [asText, List.length_map]; omega
  next h => exact hexPairs_eq s (by omega)

theorem unhex_length (s : List Char) (bs : Bytes) (h : Spec.unhex s = some bs) : s.length = 2 * bs.length := by
  induction hn : s.length using Nat.strongRecOn generalizing s bs with
  | ind n ih =>
  match s, hn, h with
  | [], hn, h => cases h; simpa using hn.symm
  | a :: b :: cs, hn, h =>
    rw [Spec.unhex] at h
    split at h
    next x y bs' h1 h2 h3 =>
      cases h
      rw [List.length_cons, List.length_cons] at hn
      rw [List.length_cons, ← hn, ih cs.length (by omega) cs bs' h3 rfl]; omega
    next => cases h

theorem unhex_isSome (s : List Char) (h : s.length % 2 = 0) :
    (Spec.unhex s).isSome ↔ ∀ c ∈ s, (Spec.digitValue c).isSome := by
  induction hn : s.length using Nat.strongRecOn generalizing s with
  | ind n ih =>
  match s, hn, h with
  | [], _, _ => simp [Spec.unhex]
  | a :: b :: cs, hn, h =>
    rw [List.length_cons, List.length_cons] at hn h
    have := ih cs.length (by omega) cs (by omega) rfl
    rw [List.forall_mem_cons, List.forall_mem_cons, ← this, Spec.unhex]
    cases Spec.digitValue a <;> cases Spec.digitValue b <;> cases Spec.unhex cs <;> simp

end Baokeshed.Proofs
