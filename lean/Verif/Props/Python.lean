import Verif.Proofs.Python
import Verif.Props.Reference

/-! # C14, C37: the Python implementation -/

set_option linter.unusedVariables false

namespace Baokeshed.Props
open Baokeshed.Model Baokeshed.Proofs

/-- The public functions of baokeshed.py. -/
def pyHash (m : Spec.Mode) (input : Bytes) (out_len : Nat) : R Bytes :=
  match m with
  | .hash => Py.hash input out_len
  | .keyedHash k => Py.keyed_hash k.toList input out_len
  | .deriveKey k => Py.derive_key k.toList input out_len

/-- C14.  For every mode, input and output length (without any bound), the Python functions raise no
exception and return the specified output. -/
theorem C14_python (m : Spec.Mode) (input : Bytes) (out_len : Nat) :
    pyHash m input out_len = .ok (Spec.output m input out_len) := by
  cases m with
  | hash =>
    refine py_hash_internal .hash input Py.IV ⟨[], ?_⟩ out_len
    decide
  | keyedHash k =>
    have := py_words_key k []
    rw [List.append_nil] at this
    exact py_hash_internal (.keyedHash k) input _ this out_len
  | deriveKey k =>
    have := py_words_key k []
    rw [List.append_nil] at this
    exact py_hash_internal (.deriveKey k) input _ this out_len

/-- C14.  The result has the requested length. -/
theorem C14_length (m : Spec.Mode) (input : Bytes) (out_len : Nat) :
    ∃ r, pyHash m input out_len = .ok r ∧ r.length = out_len :=
  ⟨_, C14_python m input out_len, by simp [Spec.output]⟩

/-- C14.  Python and the library's one-shot functions agree. -/
theorem C14_eq_one_shot (cfg : Config) (hv : cfg.Valid) (m : Spec.Mode) (input : Bytes) (hf : cfg.Fits input.length) :
    ∃ d, oneShot cfg m input = .ok d ∧ pyHash m input 32 = .ok d.toList := by
  obtain ⟨o, e', -, ho'⟩ := oneShotXof_eq cfg m input hv hf
  refine ⟨_, oneShot_of_xof cfg m _ o e', ?_⟩
  rw [C14_python, (OutAt.zero ho').to_hash, output_eq_slice]

/-- C14.  Python and the Rust reference implementation agree for every output length. -/
theorem C14_eq_reference (m : Spec.Mode) (ss : List Bytes) (out : Bytes) (hl : ss.flatten.length < 2 ^ 64)
    (ho : out.length ≤ 2 ^ 64 - 64) :
    pyHash m ss.flatten out.length = RefProgram m ss out := by
  rw [C14_python, C13_reference m ss out (Nat.le_of_lt hl) ho]

example : exSmall.Valid ∧ exSmall.Fits (rep 5000 7).length ∧ [rep 5000 7, [1]].flatten.length < 2 ^ 64 ∧
    (rep 100 0).length ≤ 2 ^ 64 - 64 := by simp

/-! ## Keys of the wrong length -/

/-- C37.  A key longer than 32 bytes is silently cut. -/
theorem C37_long_key (k : Vector Byte 32) (extra input : Bytes) (out_len : Nat) :
    Py.keyed_hash (k.toList ++ extra) input out_len = .ok (Spec.output (.keyedHash k) input out_len) ∧
    Py.derive_key (k.toList ++ extra) input out_len = .ok (Spec.output (.deriveKey k) input out_len) :=
  ⟨py_hash_internal (.keyedHash k) input _ (py_words_key k extra) out_len,
    py_hash_internal (.deriveKey k) input _ (py_words_key k extra) out_len⟩

theorem py_compress_short (cv : List Nat) (h : cv.length < 8) (block : Bytes) (block_len offset flags : Nat) :
    Py.compress cv block block_len offset flags = .error .bounds := by
  match cv, h with
  | [], _ => rfl
  | [_], _ => rfl
  | [_, _], _ => rfl
  | [_, _, _], _ => rfl
  | [_, _, _, _], _ => rfl
  | [_, _, _, _, _], _ => rfl
  | [_, _, _, _, _, _], _ => rfl
  | [_, _, _, _, _, _, _], _ => rfl
  | _ :: _ :: _ :: _ :: _ :: _ :: _ :: _ :: r, h => simp at h; omega

theorem py_recurse_short (key_words : List Nat) (h : key_words.length < 8) (flags : Nat) (fuel : Nat) :
    ∀ (input : Bytes) (offset : Nat), input.length < fuel →
    Py.hash_recurse fuel input key_words offset flags = .error .bounds ∨
      ∃ o, Py.hash_recurse fuel input key_words offset flags = .ok o ∧ o.cv = key_words := by
  induction fuel with
  | zero => intro input offset h; omega
  | succ fuel ih =>
    intro input offset hl
    rw [Py.hash_recurse]
    simp only [Py.CHUNK_LEN]
    by_cases hle : input.length ≤ 2048
    · rw [if_pos hle, Py.hash_chunk, Py.hash_chunk_loop]
      by_cases h64 : Py.BLOCK_LEN < input.length - 0
      · rw [dif_pos h64]; dsimp only; rw [py_compress_short _ h]; exact Or.inl rfl
      · rw [dif_neg h64]; exact Or.inr ⟨_, rfl, rfl⟩
    · left
      rw [if_neg hle, py_left_len _ (by omega)]
      have h1 := Spec.leftLen_lt (Nat.lt_of_not_le hle)
      have h2 := Spec.leftLen_pos input.length
      have hll : (input.take (Spec.leftLen input.length)).length = Spec.leftLen input.length := by
        rw [List.length_take]; omega
      rw [hll]
      rcases ih (input.take (Spec.leftLen input.length)) offset (by omega) with e | ⟨o, e, ho⟩
      · rw [e]; rfl
      · rw [e, bind_ok]
        rcases ih (input.drop (Spec.leftLen input.length)) (offset + Spec.leftLen input.length)
          (by rw [List.length_drop]; omega) with e' | ⟨o', e', -⟩
        · rw [e']; rfl
        · rw [e', bind_ok, Py.hash_parent, Py.Output.chaining_value, ho, py_compress_short _ h]; rfl

theorem py_internal_short (key_words : List Nat) (h : key_words.length < 8) (flags : Nat) (input : Bytes) (out_len : Nat)
    (ho : 0 < out_len) : Py.hash_internal input key_words flags out_len = .error .bounds := by
  rw [Py.hash_internal]
  rcases py_recurse_short key_words h flags (input.length + 1) input 0 (by omega) with e | ⟨o, e, hcv⟩
  · rw [e]; rfl
  · obtain ⟨n, rfl⟩ : ∃ n, out_len = n + 1 := ⟨out_len - 1, by omega⟩
    rw [e, bind_ok, Py.Output.root_output_bytes, Py.Output.root_output_loop, if_pos ho, hcv, py_compress_short _ h]
    rfl

/-- C37.  A key shorter than 32 bytes raises `IndexError`, if any output is asked for. -/
theorem C37_short_key (key input : Bytes) (h : key.length < 32) (out_len : Nat) (ho : 0 < out_len) :
    Py.keyed_hash key input out_len = .error .bounds ∧ Py.derive_key key input out_len = .error .bounds := by
  have hl : (Py.words_from_bytes key).length < 8 := by simp [Py.words_from_bytes, Py.WORD_BYTES]; omega
  exact ⟨py_internal_short _ hl _ input out_len ho, py_internal_short _ hl _ input out_len ho⟩

example : (rep 31 1).length < 32 := by simp

end Baokeshed.Props
