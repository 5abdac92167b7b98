import Verif.Proofs.RelLe
import Verif.Proofs.Reference

/-! # The reference implementation without overflow checks, for inputs of any length -/

set_option linter.unusedVariables false

namespace Baokeshed.Proofs
open Baokeshed.Model

attribute [local irreducible] Spec.compress Spec.outBytes Spec.cvBytes Spec.pad

/-- With a final length of 0 the loop runs until there is nothing left to pop. -/
theorem rel_ref_merge_zero (h : Ref.Hasher) (cv : Vector Word 8) : Rel.Ref.Hasher.merge_loop h cv 0 = .error .bounds := by
  induction hn : h.subtree_stack.length using Nat.strongRecOn generalizing h cv with
  | ind n ih =>
  rw [Rel.Ref.Hasher.merge_loop, if_pos (Nat.zero_le _)]
  split
  next e he =>
    unfold Rel.Ref.Hasher.pop_stack at he
    split at he
    · cases he; rfl
    · cases he
  next left h' he =>
    exact ih _ (hn ▸ Rel.Ref.Hasher.pop_stack_length he) _ _ rfl

section
variable (key : Vector Word 8) (flags : Byte)

theorem rel_ref_update_long (w n : Nat) : ∀ {bytes : Bytes} {h : Ref.Hasher}, RefOk key flags bytes h → bytes.length ≤ 2 ^ 64 →
    ∀ (input : Bytes), input.length ≤ n → 2 ^ 64 < bytes.length + input.length →
    Rel.Ref.Hasher.update_loop w n h input = .error .bounds := by
  induction n with
  | zero => intro bytes h hh hb input hn hlt; omega
  | succ n ih =>
    intro bytes h hh hb input hn hlt
    rw [Rel.Ref.Hasher.update_loop]
    have h0 : input ≠ [] := by intro h; rw [h] at hlt; simp at hlt; omega
    have hpos : 0 < input.length := List.length_pos_iff.2 h0
    rw [if_neg h0]
    by_cases hf : bytes.length = 2 ^ 64
    · obtain ⟨f1, f2⟩ := hh.full key flags hf
      have e : h.chunk_state.offset + BitVec.ofNat 64 Ref.CHUNK_LEN = 0#64 := by rw [f2]; decide
      have e2 : popcount (0#64).toNat = 0 := popcount_zero
      rw [Rel.Ref.Hasher.finish_chunk, if_pos f1]
      dsimp only
      rw [e, Rel.Ref.Hasher.push_chunk_chaining_value]
      dsimp only
      rw [e2, rel_ref_merge_zero]
      rfl
    · obtain ⟨h1, s', l, e1, el, hl, e2, hle, hok⟩ := hh.step key flags input h0 (by omega)
      rw [(le_finish_chunk h).imp _ e1, bind_ok]
      simp only [Ref.CHUNK_LEN]
      rw [el, Rel.subW, if_pos (by omega), Rel.Ref.ChunkState.update, (le_ref_chunk_loop w _ _ _).imp _ e2, bind_ok]
      exact ih hok (by rw [List.length_append, List.length_take]; omega) (input.drop (min (2048 - l) input.length))
        (by rw [List.length_drop]; omega)
        (by rw [List.length_append, List.length_take, List.length_drop]; omega)

end

end Baokeshed.Proofs
