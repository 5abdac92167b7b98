import Verif.Proofs.Output
import Verif.Props.Ex

/-!
# C01, C10, C33, C35: the one-shot functions

`oneShot cfg m input` is `hash(input)`, `keyed_hash(key, input)` or `derive_key(key, input)`
(Model/Api.lean) on the machine described by `cfg`.  The result `.ok h` says both that the value
is `h` and that no assertion, overflow check, slice index, capacity check or raw pointer access
failed.
-/

namespace Baokeshed.Props
open Baokeshed.Model Baokeshed.Proofs

/-- C01.  The one-shot functions return the specified hash, for every mode, key, input that can
exist in memory, SIMD platform and pointer width. -/
theorem C01_one_shot_eq_spec (cfg : Config) (hv : cfg.Valid) (m : Spec.Mode) (input : Bytes)
    (hf : cfg.Fits input.length) : oneShot cfg m input = .ok (Spec.hash m input) := by
  obtain ⟨o, e, -, ho⟩ := oneShotXof_eq cfg m input hv hf
  rw [oneShot_of_xof cfg m input o e]
  refine congrArg Except.ok (Vector.toList_inj.1 ?_)
  rw [hash_toList, (OutAt.zero ho).to_hash]

/-- C01, the three functions by name. -/
theorem C01_hash_keyed_derive (cfg : Config) (hv : cfg.Valid) (key : Vector Byte 32) (input : Bytes)
    (hf : cfg.Fits input.length) :
    Model.hash cfg input = .ok (Spec.hash .hash input) ∧
    Model.keyed_hash cfg key input = .ok (Spec.hash (.keyedHash key) input) ∧
    Model.derive_key cfg key input = .ok (Spec.hash (.deriveKey key) input) :=
  ⟨C01_one_shot_eq_spec cfg hv .hash input hf, C01_one_shot_eq_spec cfg hv (.keyedHash key) input hf,
    C01_one_shot_eq_spec cfg hv (.deriveKey key) input hf⟩

-- non-vacuity: inputs of 9 chunks and one byte on AVX2, of 5 chunks on SSE4.1, of 2.5 on 16 bits
example : exAvx2.Valid ∧ exAvx2.Fits (rep 18433 7).length := by simp
example : exSse41.Valid ∧ exSse41.Fits (rep 10240 7).length := by simp
example : exSmall.Valid ∧ exSmall.Fits (rep 5000 7).length := by simp
example (k : Vector Byte 32) :
    Model.keyed_hash exAvx2 k (rep 18433 7) = .ok (Spec.hash (.keyedHash k) (rep 18433 7)) :=
  C01_one_shot_eq_spec exAvx2 (by simp) (.keyedHash k) _ (by simp)

/-- C10.  No check fails in any one-shot function, the `_xof` ones included. -/
theorem C10_one_shot_no_panic (cfg : Config) (hv : cfg.Valid) (m : Spec.Mode) (input : Bytes)
    (hf : cfg.Fits input.length) :
    (∀ e, oneShot cfg m input ≠ .error e) ∧ (∀ e, oneShotXof cfg m input ≠ .error e) := by
  refine ⟨fun e he => ?_, fun e he => ?_⟩
  · rw [C01_one_shot_eq_spec cfg hv m input hf] at he; cases he
  · obtain ⟨o, h, -⟩ := oneShotXof_eq cfg m input hv hf
    rw [h] at he; cases he

-- the checks are there: `left_len` of one chunk fails its assertion, and a 16-bit `usize` cannot
-- hold the left length of 2^17 bytes
example : left_len 64 2048 = .error .assert := by decide
example : left_len 16 (2 ^ 17 + 1) = .error .overflow := by decide

/-- C33.  `left_len` splits off the largest power of two of chunks that leaves at least one byte. -/
theorem C33_left_len (w n : Nat) (h : 2048 < n) (hw : n < 2 ^ w) :
    ∃ k, left_len w n = .ok (2048 * 2 ^ k) ∧ 2048 * 2 ^ k < n ∧ ∀ j, 2048 * 2 ^ j < n → j ≤ k := by
  refine ⟨Nat.log2 ((n - 1) / 2048), left_len_eq h hw, Spec.leftLen_lt h, ?_⟩
  intro j hj
  exact (Nat.le_log2 (by omega)).2 (by omega)

example : left_len 64 (16 * 2048 + 1) = .ok (16 * 2048) ∧ left_len 64 (16 * 2048) = .ok (8 * 2048) := by
  decide

/-- C35, first half.  `hash_many` of every platform writes exactly the first `32 * n` bytes. -/
theorem C35_hash_many_frame (p : Platform) (cap : Nat) (hcap : cap % 64 = 0) (xs : List Bytes)
    (key : Vector Word 8) (off d : U64) (flags fs fe : Byte) (out out' : Bytes)
    (hx : ∀ x ∈ xs, x.length = cap)
    (h : p.hash_many cap xs key off d flags fs fe out = .ok out') :
    out'.length = out.length ∧ out'.drop (32 * xs.length) = out.drop (32 * xs.length) ∧
      32 * xs.length ≤ out.length := by
  have e : p.hash_many cap xs key off d flags fs fe out =
      Portable.hash_many xs key off d flags fs fe out := by
    cases p
    · rfl
    · exact sse41_hash_many_eq cap hcap xs key off d flags fs fe out hx
    · exact avx2_hash_many_eq cap hcap xs key off d flags fs fe out hx
  by_cases hout : 32 * xs.length ≤ out.length
  · by_cases hoff : off.toNat + xs.length * d.toNat < 2 ^ 64
    · rw [plat_hash_many p cap hcap xs key off d flags fs fe out hx hout hoff] at h
      obtain rfl := Except.ok.inj h
      have hl : (lanesOut key off d flags fs fe 0 xs).length = 32 * xs.length :=
        length_lanesOut key off d flags fs fe 0 xs
      refine ⟨?_, ?_, hout⟩
      · rw [List.length_append, hl, List.length_drop]; omega
      · rw [List.drop_left' hl]
    · exfalso
      have e2 := portable_many_append key d flags fs fe xs [] off out
        (fun x h => by rw [hx x h]; exact hcap) hout
      rw [List.append_nil, if_neg hoff] at e2
      rw [e, Portable.hash_many, assertR, if_pos (by simp only [OUT_LEN]; omega), bind_ok, e2] at h
      cases h
  · exfalso
    rw [e, Portable.hash_many, assertR, if_neg (by simp only [OUT_LEN]; omega)] at h
    cases h

example : ∃ out', Platform.avx2.hash_many 64 [List.replicate 64 1, List.replicate 64 2] IV 0 0 4 0 0
    (List.replicate 100 9) = .ok out' :=
  ⟨_, plat_hash_many .avx2 64 (by decide) _ _ _ _ _ _ _ _ (by simp) (by simp) (by simp)⟩

/-- C35, second half.  The recursion reports the number `n` of chaining values it wrote: the first
`32 * n` bytes of `out` are those of `n` subtrees that together make up the tree of the input, the
rest of `out` is untouched. -/
theorem C35_recursion_count (cfg : Config) (key : Vector Word 8) (flags : Byte) (input : Bytes)
    (off : Nat) (out : Bytes) (h0 : input ≠ []) (hoff : off % 2048 = 0) (hlt : off + input.length < 2 ^ 64)
    (hf : cfg.Fits input.length)
    (hout : 32 * max (Platform.detect cfg).simd_degree 2 ≤ out.length) :
    ∃ n out', hash_recurse cfg input key (BitVec.ofNat 64 off) flags (Platform.detect cfg) out = .ok (n, out') ∧
      1 ≤ n ∧ n ≤ max (Platform.detect cfg).simd_degree 2 ∧ n ≤ (input.length - 1) / 2048 + 1 ∧
      out'.length = out.length ∧ out'.drop (32 * n) = out.drop (32 * n) ∧
      ∃ T : List (Tree Spec.Input), T.length = n ∧ out'.take (32 * n) = bufOf key flags T ∧
        inp key flags (shape T) = Spec.subtree key flags off input := by
  have hw : input.length < 2 ^ cfg.usizeBits :=
    Nat.lt_of_lt_of_le hf (Nat.pow_le_pow_right (by decide) (by omega))
  obtain ⟨T, hT, e⟩ := hash_recurse_eq key flags cfg _ (detect_le cfg) input off out h0 hoff hlt hw (by omega)
  have hle := hT.le
  unfold nChunks at hle
  have hl := length_bufOf key flags T
  refine ⟨T.length, _, e, hT.pos, by omega, by omega, ?_, ?_, T, rfl, ?_, ?_⟩
  · rw [List.length_append, hl, List.length_drop]; omega
  · rw [List.drop_left' hl]
  · rw [List.take_left' hl]
  · rw [hT.shape_eq, subtree_eq]

example : ∃ n out', hash_recurse exAvx2 (rep 18433 7) IV (BitVec.ofNat 64 0) 0 (Platform.detect exAvx2)
    (rep 256 0) = .ok (n, out') := by
  obtain ⟨n, o, h, -⟩ := C35_recursion_count exAvx2 IV 0 (rep 18433 7) 0
    (rep 256 0) (rep_ne_nil _ _ (by decide)) rfl (by simp) (by simp) (by rw [length_rep]; decide)
  exact ⟨n, o, h⟩

end Baokeshed.Props
