import Verif.Model.Hash
import Verif.SpecText
import Verif.Proofs.HashMany

/-! # Hexadecimal text and comparison -/

set_option linter.unusedVariables false

namespace Baokeshed.Proofs
open Baokeshed.Model

/-- the hexadecimal text the code produces -/
def hexOf (bs : Bytes) : List Char :=
  bs.flatMap fun b : Byte => [hexTable[(b >>> 4).toNat % 16]'(Nat.mod_lt _ (by decide)),
    hexTable[(b &&& 0xf).toNat % 16]'(Nat.mod_lt _ (by decide))]

theorem length_hexOf (bs : Bytes) : (hexOf bs).length = 2 * bs.length := by
  induction bs with
  | nil => rfl
  | cons b bs ih => simp only [hexOf, List.flatMap_cons, List.length_append, List.length_cons, List.length_nil] at ih ⊢; omega

theorem hexOf_cons (b : Byte) (bs : Bytes) : hexOf (b :: bs) =
    hexTable[(b >>> 4).toNat % 16]'(Nat.mod_lt _ (by decide)) ::
      hexTable[(b &&& 0xf).toNat % 16]'(Nat.mod_lt _ (by decide)) :: hexOf bs := rfl

theorem hexOf_append (a b : Bytes) : hexOf (a ++ b) = hexOf a ++ hexOf b := List.flatMap_append

theorem hexOf_take (bs : Bytes) (n : Nat) : (hexOf bs).take (2 * n) = hexOf (bs.take n) := by
  induction bs generalizing n with
  | nil => simp [hexOf]
  | cons b bs ih =>
    cases n with
    | zero => simp [hexOf]
    | succ n => rw [hexOf_cons, List.take_succ_cons, hexOf_cons, Nat.mul_succ, List.take_succ_cons,
        List.take_succ_cons, ih]

theorem shift_lt : ∀ b : Byte, (b >>> 4).toNat < 16 := by decide
theorem mask_lt : ∀ b : Byte, (b &&& 0xf).toNat < 16 := by decide

theorem tableAt_eq (i : Nat) (h : i < 16) : tableAt i = .ok (hexTable[i % 16]'(Nat.mod_lt _ (by decide))) := by
  rw [tableAt, dif_pos (by exact h)]
  congr 2
  exact (Nat.mod_eq_of_lt h).symm

theorem pushChar_eq (cap : Nat) (s : List Char) (c : Char) (h : s.length < cap) :
    pushChar cap s c = .ok (s ++ [c]) := by rw [pushChar, if_pos h]

theorem to_hex_loop_eq (bs : Bytes) (s : List Char) (h : s.length + 2 * bs.length ≤ 64) :
    to_hex_loop s bs = .ok (s ++ hexOf bs) := by
  induction bs generalizing s with
  | nil => simp [to_hex_loop, hexOf]
  | cons b bs ih =>
    rw [List.length_cons] at h
    rw [to_hex_loop, tableAt_eq _ (shift_lt b), bind_ok, pushChar_eq _ _ _ (by omega), bind_ok,
      tableAt_eq _ (mask_lt b), bind_ok, pushChar_eq _ _ _ (by rw [List.length_append, List.length_singleton]; omega),
      bind_ok, ih _ (by simp only [List.length_append, List.length_singleton]; omega), hexOf_cons]
    simp

theorem to_hex_eq (h : Vector Byte 32) : to_hex h = .ok (hexOf h.toList) := by
  rw [to_hex, to_hex_loop_eq _ _ (by simp), List.nil_append]

theorem digit_spec : ∀ i : Fin 16, Spec.digitValue (hexTable[i.val]'i.isLt) = some i.val ∧
    (('0' ≤ hexTable[i.val]'i.isLt ∧ hexTable[i.val]'i.isLt ≤ '9') ∨
     ('a' ≤ hexTable[i.val]'i.isLt ∧ hexTable[i.val]'i.isLt ≤ 'f')) := by decide

theorem digits_byte : ∀ b : Byte, BitVec.ofNat 8 (16 * ((b >>> 4).toNat % 16) + (b &&& 0xf).toNat % 16) = b := by
  decide

theorem unhex_hexOf (bs : Bytes) : Spec.unhex (hexOf bs) = some bs := by
  induction bs with
  | nil => rfl
  | cons b bs ih =>
    rw [hexOf_cons, Spec.unhex, ih, (digit_spec ⟨(b >>> 4).toNat % 16, Nat.mod_lt _ (by decide)⟩).1,
      (digit_spec ⟨(b &&& 0xf).toNat % 16, Nat.mod_lt _ (by decide)⟩).1]
    dsimp only
    rw [digits_byte]

theorem lower_hexOf (bs : Bytes) : Spec.LowerHex (hexOf bs) := by
  intro c hc
  obtain ⟨b, -, hb⟩ := List.mem_flatMap.1 hc
  rw [List.mem_cons, List.mem_singleton] at hb
  rcases hb with rfl | rfl
  · exact (digit_spec ⟨(b >>> 4).toNat % 16, Nat.mod_lt _ (by decide)⟩).2
  · exact (digit_spec ⟨(b &&& 0xf).toNat % 16, Nat.mod_lt _ (by decide)⟩).2

theorem hexOf_isHexOf (bs : Bytes) : Spec.IsHexOf (hexOf bs) bs := ⟨lower_hexOf bs, length_hexOf bs, unhex_hexOf bs⟩

theorem digitChar_table : ∀ b : Byte,
    hexTable[(b >>> 4).toNat % 16]'(Nat.mod_lt _ (by decide)) = Nat.digitChar (b.toNat / 16) ∧
    hexTable[(b &&& 0xf).toNat % 16]'(Nat.mod_lt _ (by decide)) = Nat.digitChar (b.toNat % 16) := by decide

theorem hexOf_eq (bs : Bytes) : hexOf bs = Spec.hex bs := by
  induction bs with
  | nil => rfl
  | cons b bs ih => rw [hexOf_cons, ih, (digitChar_table b).1, (digitChar_table b).2]; rfl

/-! ## Constant-time comparison -/

theorem or_eq_zero (a b : Byte) : a ||| b = 0 ↔ a = 0 ∧ b = 0 := by
  refine ⟨fun h => ?_, fun ⟨h1, h2⟩ => by rw [h1, h2]; rfl⟩
  constructor <;>
  · apply BitVec.eq_of_getLsbD_eq
    intro i hi
    have := congrArg (fun x : Byte => x.getLsbD i) h
    simp only [BitVec.getLsbD_or] at this
    cases h1 : a.getLsbD i <;> cases h2 : b.getLsbD i <;> simp_all

theorem ct_fold (l : List (Byte × Byte)) (acc : Byte) :
    l.foldl (fun acc (xy : Byte × Byte) => acc ||| (xy.1 ^^^ xy.2)) acc = 0 ↔ acc = 0 ∧ ∀ xy ∈ l, xy.1 = xy.2 := by
  induction l generalizing acc with
  | nil => simp
  | cons x l ih =>
    rw [List.foldl_cons, ih, or_eq_zero, List.forall_mem_cons, and_assoc]
    refine and_congr_right fun _ => and_congr_left fun _ => ?_
    exact BitVec.xor_eq_zero_iff

theorem ct_eq (a b : Bytes) : constant_time_eq a b = true ↔ a = b := by
  unfold constant_time_eq
  split
  next h => simp; intro e; exact h (congrArg _ e)
  next h =>
    have h : a.length = b.length := by omega
    rw [beq_iff_eq, ct_fold]
    constructor
    · intro ⟨_, h2⟩
      apply List.ext_getElem h
      intro i h3 h4
      exact h2 (a[i], b[i]) (by rw [List.mem_iff_getElem]; exact ⟨i, by rw [List.length_zip]; omega, by simp⟩)
    · rintro rfl
      refine ⟨rfl, fun xy hxy => ?_⟩
      obtain ⟨i, hi, e⟩ := List.mem_iff_getElem.1 hxy
      rw [List.getElem_zip] at e
      rw [← e]

end Baokeshed.Proofs
