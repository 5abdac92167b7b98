import Verif.Proofs.Depth
import Verif.Props.OneShot
import Verif.Props.Python

/-!
# C46: how deep the recursion goes

`D.oneShot cfg n m input` is the one-shot function of lib.rs, and `D.pyHash n m input out_len` that of baokeshed.py, on
a call stack with room for `n` nested calls of `hash_recurse` (Model/Depth.lean).
-/

set_option linter.unusedVariables false

namespace Baokeshed.Props
open Baokeshed.Model Baokeshed.Proofs

/-- `n` nested calls are enough for `len` bytes when one call deals with `unit` bytes without recursion and every
level doubles that. -/
def Room (unit n len : Nat) : Prop := ∃ k, n = k + 1 ∧ len ≤ unit * 2 ^ k

instance (unit n len : Nat) : Decidable (Room unit n len) := by
  unfold Room
  cases n with
  | zero => exact isFalse (by rintro ⟨k, h, -⟩; cases h)
  | succ n => exact decidable_of_iff (len ≤ unit * 2 ^ n) ⟨fun h => ⟨n, rfl, h⟩, by rintro ⟨k, h, h'⟩; cases h; exact h'⟩

/-- C46, lib.rs.  The one-shot functions need exactly the depth of the tree above the parts handed to SIMD: with that
much room they return the specified hash, with less they exhaust the stack. -/
theorem C46_rust (cfg : Config) (hv : cfg.Valid) (n : Nat) (m : Spec.Mode) (input : Bytes)
    (hf : cfg.Fits input.length) :
    D.oneShot cfg n m input =
      if input.length ≤ 2048 ∨ Room ((Platform.detect cfg).simd_degree * 2048) n input.length
      then .ok (Spec.hash m input) else .error .stack := by
  have hw : input.length < 2 ^ cfg.usizeBits :=
    Nat.lt_of_lt_of_le hf (Nat.pow_le_pow_right (by decide) (by omega))
  have h64 : input.length < 2 ^ 64 := Nat.lt_of_lt_of_le hw (Nat.pow_le_pow_right (by decide) hv.2)
  have hD : ∀ key flags, D.hash_internal cfg n input key flags =
      if input.length ≤ 2048 ∨ Room ((Platform.detect cfg).simd_degree * 2048) n input.length
      then hash_internal cfg input key flags else .error .stack := by
    intro key flags
    rw [D.hash_internal, hash_internal]
    by_cases hle : input.length ≤ CHUNK_LEN
    · rw [if_pos hle, if_pos hle, if_pos (.inl hle)]
    · rw [if_neg hle, if_neg hle]
      cases n with
      | zero =>
        rw [if_neg (by rintro (h | ⟨k, h, -⟩); exact hle h; cases h)]
        rfl
      | succ n =>
        by_cases hr : input.length ≤ (Platform.detect cfg).simd_degree * 2048 * 2 ^ n
        · rw [if_pos (.inr ⟨n, rfl, hr⟩)]
          dsimp only
          rw [depth_enough cfg _ key flags n input 0 _ hr]
        · rw [if_neg (by rintro (h | ⟨k, h, h'⟩); exact hle h; cases h; exact hr h')]
          dsimp only
          rw [show (0 : U64) = BitVec.ofNat 64 0 from rfl,
            depth_short cfg _ (detect_le cfg) key flags n input 0 _ (by omega) hw (by omega)]
          rfl
  have hx : D.oneShotXof cfg n m input =
      if input.length ≤ 2048 ∨ Room ((Platform.detect cfg).simd_degree * 2048) n input.length
      then oneShotXof cfg m input else .error .stack := by
    cases m <;> exact hD _ _
  rw [D.oneShot, hx]
  split
  · have := C01_one_shot_eq_spec cfg hv m input hf
    obtain ⟨o, e, -⟩ := oneShotXof_eq cfg m input hv hf
    rw [oneShot_of_xof cfg m input o e] at this
    rw [e, bind_ok]
    exact this
  · rfl

/-- C46, lib.rs.  No input that can exist in memory makes the recursion nest more than 53 calls deep. -/
theorem C46_rust_53 (cfg : Config) (hv : cfg.Valid) (m : Spec.Mode) (input : Bytes) (hf : cfg.Fits input.length) :
    D.oneShot cfg 53 m input = .ok (Spec.hash m input) := by
  rw [C46_rust cfg hv 53 m input hf]
  refine if_pos (.inr ⟨52, rfl, ?_⟩)
  obtain ⟨j, hj, -⟩ := simd_pow (Platform.detect cfg)
  have h1 : 1 ≤ (Platform.detect cfg).simd_degree := by rw [hj]; exact Nat.two_pow_pos _
  have h2 : input.length < 2 ^ 63 :=
    Nat.lt_of_lt_of_le hf (Nat.pow_le_pow_right (by decide) (by have := hv.2; omega))
  have h3 := Nat.mul_le_mul_right (2048 * 2 ^ 52) h1
  have e : 1 * (2048 * 2 ^ 52) = 2 ^ 63 := by decide
  rw [e] at h3
  rw [Nat.mul_assoc]
  exact Nat.le_trans (Nat.le_of_lt h2) h3

/-- C46, baokeshed.py.  The same for the Python functions, where recursion goes down to single chunks and the length of
the input has no bound. -/
theorem C46_python (n : Nat) (m : Spec.Mode) (input : Bytes) (out_len : Nat) :
    D.pyHash n m input out_len =
      if Room 2048 n input.length then .ok (Spec.output m input out_len) else .error .stack := by
  have hD : ∀ kw, PyCv kw m.key → D.py_hash_internal n input kw m.flag.toNat out_len =
      if Room 2048 n input.length then .ok (Spec.output m input out_len) else .error .stack := by
    intro kw hk
    rw [D.py_hash_internal]
    cases n with
    | zero =>
      rw [if_neg (by rintro ⟨k, h, -⟩; cases h)]
      rfl
    | succ n =>
      by_cases hr : input.length ≤ 2048 * 2 ^ n
      · rw [if_pos ⟨n, rfl, hr⟩]
        obtain ⟨o, e, ho⟩ := py_depth_enough m.key m.flag kw hk n input 0 hr
        rw [e, bind_ok]
        exact ho.root_output_bytes rfl out_len
      · rw [if_neg (by rintro ⟨k, h, h'⟩; cases h; exact hr h'), py_depth_short _ kw n input 0 (by omega)]
        rfl
  cases m with
  | hash => exact hD _ ⟨[], by decide⟩
  | keyedHash k =>
    have := py_words_key k []
    rw [List.append_nil] at this
    exact hD _ this
  | deriveKey k =>
    have := py_words_key k []
    rw [List.append_nil] at this
    exact hD _ this

/-- C46, baokeshed.py.  For less than `2 ^ 64` bytes 54 nested calls are enough, far below CPython's limit of 1000 -/
theorem C46_python_54 (m : Spec.Mode) (input : Bytes) (h : input.length < 2 ^ 64) (out_len : Nat) :
    D.pyHash 54 m input out_len = .ok (Spec.output m input out_len) := by
  rw [C46_python, if_pos ⟨53, rfl, Nat.le_of_lt h⟩]

-- the bounds are sharp: nine chunks and a byte need two levels on AVX2, five on a machine without SIMD
example : Room (8 * 2048) 2 18433 ∧ ¬ Room (8 * 2048) 1 18433 := by decide
example : Room 2048 5 18433 ∧ ¬ Room 2048 4 18433 := by decide
example : D.oneShot exAvx2 1 .hash (rep 18433 7) = .error .stack := by
  rw [C46_rust exAvx2 (by simp) 1 .hash _ (by simp), length_rep, if_neg (by decide)]
example : D.oneShot exAvx2 2 .hash (rep 18433 7) = .ok (Spec.hash .hash (rep 18433 7)) := by
  rw [C46_rust exAvx2 (by simp) 2 .hash _ (by simp), length_rep, if_pos (by decide)]
example : D.pyHash 4 .hash (rep 18433 7) 32 = .error .stack := by
  rw [C46_python, length_rep, if_neg (by decide)]
example : exAvx2.Valid ∧ exAvx2.Fits (rep 18433 7).length ∧ (rep 18433 7).length < 2 ^ 64 := by simp

end Baokeshed.Props
