import Verif.Model.Steps
import Verif.Proofs.Oblivious

/-!
# The recorded steps of two runs

`Eqv x y`: the computations `x` and `y`, which cannot panic, execute the same steps.
`Same Q x y`: `x` and `y` execute the same steps and either panic for the same reason or return results related by `Q`.
-/

namespace Baokeshed.Proofs.Steps
open Baokeshed.Model Baokeshed.Model.Steps Baokeshed.Proofs.Obl
set_option linter.unusedVariables false
set_option linter.unusedSimpArgs false

theorem bind_val {α β} (x : Run α) (f : α → Run β) : (x >>= f).val = (f x.val).val := rfl
theorem pure_val {α} (a : α) : (pure a : Run α).val = a := rfl
theorem op_val {α} (s : String) (i : List Nat) (a : α) : (op s i a).val = a := rfl
theorem read_val {α} {n} (s : String) (a : Vector α n) (i : Fin n) : (read s a i).val = a[i] := rfl
theorem write_val {α} {n} (s : String) (a : Vector α n) (i : Fin n) (x : α) : (write s a i x).val = a.set i x := rfl
theorem pick_val {α} (m : Vector α 16) (r : Fin 7) (k : Fin 16) : (Steps.pick m r k).val = m[MSG_SCHEDULE[r][k]] := rfl

def Eqv {α β} (x : Run α) (y : Run β) : Prop := x.log = y.log

theorem Eqv.bind {α β α' β'} {x : Run α} {y : Run β} {f : α → Run α'} {g : β → Run β'}
    (h : Eqv x y) (hf : ∀ a b, Eqv (f a) (g b)) : Eqv (x >>= f) (y >>= g) := by
  show x.log ++ _ = y.log ++ _
  rw [show x.log = y.log from h, show (f x.val).log = (g y.val).log from hf _ _]

theorem Eqv.pure {α β} (a : α) (b : β) : Eqv (Pure.pure a : Run α) (Pure.pure b : Run β) := rfl

theorem Eqv.op {α β} (s : String) (i : List Nat) (a : α) (b : β) : Eqv (Steps.op s i a) (Steps.op s i b) := rfl

theorem Eqv.pick {α β} (m : Vector α 16) (m' : Vector β 16) (r : Fin 7) (k : Fin 16) :
    Eqv (Steps.pick m r k) (Steps.pick m' r k) := rfl

theorem Eqv.read {α β} {n} (s : String) (a : Vector α n) (b : Vector β n) (i : Fin n) :
    Eqv (Steps.read s a i) (Steps.read s b i) := rfl

theorem Eqv.write {α β} {n} (s : String) (a : Vector α n) (b : Vector β n) (i : Fin n) (x : α) (y : β) :
    Eqv (Steps.write s a i x) (Steps.write s b i y) := rfl

/-- one step after the other -/
syntax "eqv" "[" term,* "]" : tactic
macro_rules
  | `(tactic| eqv [$[$ts],*]) => do
    let ts' ← ts.mapM fun t => `(tactic| with_reducible exact $t)
    `(tactic| repeat' first
      | with_reducible exact Eqv.op ..
      | with_reducible exact Eqv.pick ..
      | with_reducible exact Eqv.read ..
      | with_reducible exact Eqv.write ..
      | with_reducible exact Eqv.pure ..
      $[| $ts':tactic]*
      | (with_reducible refine Eqv.bind ?_ fun _ _ => ?_))

/-! ## portable.rs -/

theorem p_add_eqv (a b a' b') : Eqv (Steps.Portable.add a b) (Steps.Portable.add a' b') := by
  unfold Steps.Portable.add
  eqv [p_xor_eqv ..]
theorem p_xor_eqv (a b a' b') : Eqv (Steps.Portable.xor a b) (Steps.Portable.xor a' b') := by
  unfold Steps.Portable.xor
  eqv [p_xor_eqv ..]
theorem p_rotate_right_eqv (a n a') : Eqv (Steps.Portable.rotate_right a n) (Steps.Portable.rotate_right a' n) := by
  unfold Steps.Portable.rotate_right
  eqv [p_xor_eqv ..]
theorem p_put_eqv (v i w v' w') : Eqv (Steps.Portable.put v i w) (Steps.Portable.put v' i w') := by
  unfold Steps.Portable.put
  eqv [p_xor_eqv ..]

theorem p_words_from_block_eqv (b b') : Eqv (Steps.Portable.words_from_block b) (Steps.Portable.words_from_block b') := by
  unfold Steps.Portable.words_from_block
  eqv []

theorem p_g_eqv (s a b c d x y s' x' y') : Eqv (Steps.Portable.g s a b c d x y) (Steps.Portable.g s' a b c d x' y') := by
  unfold Steps.Portable.g
  eqv [p_add_eqv .., p_xor_eqv .., p_rotate_right_eqv ..]

theorem p_round_eqv (s m r s' m') : Eqv (Steps.Portable.round s m r) (Steps.Portable.round s' m' r) := by
  unfold Steps.Portable.round
  eqv [p_g_eqv ..]

theorem p_compress_inner_eqv (cv b l t f cv' b' l' t' f') : Eqv (Steps.Portable.compress_inner cv b l t f) (Steps.Portable.compress_inner cv' b' l' t' f') := by
  unfold Steps.Portable.compress_inner
  dsimp only
  eqv [p_words_from_block_eqv .., p_round_eqv ..]

theorem p_compress_eqv (cv b l t f cv' b' l' t' f') : Eqv (Steps.Portable.compress cv b l t f) (Steps.Portable.compress cv' b' l' t' f') := by
  unfold Steps.Portable.compress
  eqv [p_compress_inner_eqv .., p_xor_eqv ..]

theorem p_compress_xof_eqv (cv b l t f cv' b' l' t' f') : Eqv (Steps.Portable.compress_xof cv b l t f) (Steps.Portable.compress_xof cv' b' l' t' f') := by
  unfold Steps.Portable.compress_xof
  dsimp only
  eqv [p_compress_inner_eqv .., p_xor_eqv .., p_put_eqv ..]

theorem p_bytes_from_state_words_eqv (w w') : Eqv (Steps.Portable.bytes_from_state_words w) (Steps.Portable.bytes_from_state_words w') := by
  unfold Steps.Portable.bytes_from_state_words
  eqv []

theorem p_words_from_block_val (b) : (Steps.Portable.words_from_block b).val = Model.Portable.words_from_block b := rfl
theorem p_g_val (s a b c d x y) : (Steps.Portable.g s a b c d x y).val = Model.Portable.g s a b c d x y := rfl
section
attribute [local irreducible] Model.Portable.g

theorem p_round_val (s m r) : (Steps.Portable.round s m r).val = Model.Portable.round s m r := by
  unfold Steps.Portable.round Model.Portable.round
  simp only [bind_val, pure_val, op_val, read_val, pick_val, p_g_val]
  rfl

end

section
attribute [local irreducible] Model.Portable.round

theorem p_compress_inner_val (cv b l t f) : (Steps.Portable.compress_inner cv b l t f).val = Model.Portable.compress_inner cv b l t f := by
  unfold Steps.Portable.compress_inner Model.Portable.compress_inner
  simp only [bind_val, pure_val, op_val, read_val, pick_val, p_round_val, p_words_from_block_val]
  rfl

end


theorem p_compress_val (cv b l t f) : (Steps.Portable.compress cv b l t f).val = Model.Portable.compress cv b l t f := by
  have e : ∀ (s : Vector Word 16) (c : Vector Word 8),
      (((((((((c.set 0 (s[0] ^^^ s[8])).set 1 (s[1] ^^^ s[9])).set 2 (s[2] ^^^ s[10])).set 3 (s[3] ^^^ s[11])).set 4 (s[4] ^^^ s[12])).set 5 (s[5] ^^^ s[13])).set 6
        (s[6] ^^^ s[14])).set 7 (s[7] ^^^ s[15]))) = Vector.ofFn fun i : Fin 8 => s[i.val] ^^^ s[i.val + 8] := by
    intro s c
    refine Vector.ext fun i hi => ?_
    have : i = 0 ∨ i = 1 ∨ i = 2 ∨ i = 3 ∨ i = 4 ∨ i = 5 ∨ i = 6 ∨ i = 7 := by omega
    rcases this with h | h | h | h | h | h | h | h <;> subst h <;> simp
  have k : (Steps.Portable.compress_inner cv b l t f).val = Model.Portable.compress_inner cv b l t f := p_compress_inner_val ..
  unfold Steps.Portable.compress Model.Portable.compress
  simp only [bind_val, pure_val, k]
  generalize Model.Portable.compress_inner cv b l t f = s
  exact e s cv

/-! ## sse41.rs -/

theorem s_add_eqv (a b a' b') : Eqv (Steps.Sse41.add a b) (Steps.Sse41.add a' b') := by
  unfold Steps.Sse41.add
  eqv [s_xor_eqv ..]
theorem s_xor_eqv (a b a' b') : Eqv (Steps.Sse41.xor a b) (Steps.Sse41.xor a' b') := by
  unfold Steps.Sse41.xor
  eqv [s_xor_eqv ..]
theorem s_set1_eqv (a a') : Eqv (Steps.Sse41.set1 a) (Steps.Sse41.set1 a') := by
  unfold Steps.Sse41.set1
  eqv [s_xor_eqv ..]
theorem s_set4_eqv (a b c d a' b' c' d') : Eqv (Steps.Sse41.set4 a b c d) (Steps.Sse41.set4 a' b' c' d') := by
  unfold Steps.Sse41.set4
  eqv [s_xor_eqv ..]
theorem s_rot16_eqv (a a') : Eqv (Steps.Sse41.rot16 a) (Steps.Sse41.rot16 a') := by
  unfold Steps.Sse41.rot16
  eqv [s_xor_eqv ..]
theorem s_rot12_eqv (a a') : Eqv (Steps.Sse41.rot12 a) (Steps.Sse41.rot12 a') := by
  unfold Steps.Sse41.rot12
  eqv [s_xor_eqv ..]
theorem s_rot8_eqv (a a') : Eqv (Steps.Sse41.rot8 a) (Steps.Sse41.rot8 a') := by
  unfold Steps.Sse41.rot8
  eqv [s_xor_eqv ..]
theorem s_rot7_eqv (a a') : Eqv (Steps.Sse41.rot7 a) (Steps.Sse41.rot7 a') := by
  unfold Steps.Sse41.rot7
  eqv [s_xor_eqv ..]

theorem s_g1_eqv (r m r' m') : Eqv (Steps.Sse41.g1 r m) (Steps.Sse41.g1 r' m') := by
  cases r; cases r'
  unfold Steps.Sse41.g1
  dsimp only
  eqv [s_add_eqv .., s_xor_eqv .., s_rot16_eqv .., s_rot12_eqv .., s_rot8_eqv .., s_rot7_eqv ..]

theorem s_g2_eqv (r m r' m') : Eqv (Steps.Sse41.g2 r m) (Steps.Sse41.g2 r' m') := by
  cases r; cases r'
  unfold Steps.Sse41.g2
  dsimp only
  eqv [s_add_eqv .., s_xor_eqv .., s_rot16_eqv .., s_rot12_eqv .., s_rot8_eqv .., s_rot7_eqv ..]

theorem s_diagonalize_eqv (r r') : Eqv (Steps.Sse41.diagonalize r) (Steps.Sse41.diagonalize r') := by
  cases r; cases r'
  unfold Steps.Sse41.diagonalize
  dsimp only
  eqv []

theorem s_undiagonalize_eqv (r r') : Eqv (Steps.Sse41.undiagonalize r) (Steps.Sse41.undiagonalize r') := by
  cases r; cases r'
  unfold Steps.Sse41.undiagonalize
  dsimp only
  eqv []

theorem s_compress_round1_eqv (m0 m1 m2 m3 r m0' m1' m2' m3' r') : Eqv (Steps.Sse41.compress_round1 m0 m1 m2 m3 r) (Steps.Sse41.compress_round1 m0' m1' m2' m3' r') := by
  unfold Steps.Sse41.compress_round1
  eqv [s_g1_eqv .., s_g2_eqv .., s_diagonalize_eqv .., s_undiagonalize_eqv ..]

theorem s_compress_round2_eqv (m0 m1 m2 m3 r m0' m1' m2' m3' r') : Eqv (Steps.Sse41.compress_round2 m0 m1 m2 m3 r) (Steps.Sse41.compress_round2 m0' m1' m2' m3' r') := by
  unfold Steps.Sse41.compress_round2
  eqv [s_g1_eqv .., s_g2_eqv .., s_diagonalize_eqv .., s_undiagonalize_eqv ..]

theorem s_compress_round3_eqv (m0 m1 m2 m3 r m0' m1' m2' m3' r') : Eqv (Steps.Sse41.compress_round3 m0 m1 m2 m3 r) (Steps.Sse41.compress_round3 m0' m1' m2' m3' r') := by
  unfold Steps.Sse41.compress_round3
  eqv [s_g1_eqv .., s_g2_eqv .., s_diagonalize_eqv .., s_undiagonalize_eqv ..]

theorem s_compress_round4_eqv (m0 m1 m2 m3 r m0' m1' m2' m3' r') : Eqv (Steps.Sse41.compress_round4 m0 m1 m2 m3 r) (Steps.Sse41.compress_round4 m0' m1' m2' m3' r') := by
  unfold Steps.Sse41.compress_round4
  eqv [s_g1_eqv .., s_g2_eqv .., s_diagonalize_eqv .., s_undiagonalize_eqv ..]

theorem s_compress_round5_eqv (m0 m1 m2 m3 r m0' m1' m2' m3' r') : Eqv (Steps.Sse41.compress_round5 m0 m1 m2 m3 r) (Steps.Sse41.compress_round5 m0' m1' m2' m3' r') := by
  unfold Steps.Sse41.compress_round5
  eqv [s_g1_eqv .., s_g2_eqv .., s_diagonalize_eqv .., s_undiagonalize_eqv ..]

theorem s_compress_round6_eqv (m0 m1 m2 m3 r m0' m1' m2' m3' r') : Eqv (Steps.Sse41.compress_round6 m0 m1 m2 m3 r) (Steps.Sse41.compress_round6 m0' m1' m2' m3' r') := by
  unfold Steps.Sse41.compress_round6
  eqv [s_g1_eqv .., s_g2_eqv .., s_diagonalize_eqv .., s_undiagonalize_eqv ..]

theorem s_compress_round7_eqv (m0 m1 m2 m3 r m0' m1' m2' m3' r') : Eqv (Steps.Sse41.compress_round7 m0 m1 m2 m3 r) (Steps.Sse41.compress_round7 m0' m1' m2' m3' r') := by
  unfold Steps.Sse41.compress_round7
  eqv [s_g1_eqv .., s_g2_eqv .., s_diagonalize_eqv .., s_undiagonalize_eqv ..]

theorem s_compress_inner_eqv (cv b l t f cv' b' l' t' f') : Eqv (Steps.Sse41.compress_inner cv b l t f) (Steps.Sse41.compress_inner cv' b' l' t' f') := by
  unfold Steps.Sse41.compress_inner
  eqv [s_set4_eqv .., s_compress_round1_eqv .., s_compress_round2_eqv .., s_compress_round3_eqv .., s_compress_round4_eqv .., s_compress_round5_eqv .., s_compress_round6_eqv .., s_compress_round7_eqv ..]

theorem s_compress_eqv (cv b l t f cv' b' l' t' f') : Eqv (Steps.Sse41.compress cv b l t f) (Steps.Sse41.compress cv' b' l' t' f') := by
  unfold Steps.Sse41.compress
  eqv [s_compress_inner_eqv .., s_xor_eqv ..]

theorem s_compress_xof_eqv (cv b l t f cv' b' l' t' f') : Eqv (Steps.Sse41.compress_xof cv b l t f) (Steps.Sse41.compress_xof cv' b' l' t' f') := by
  unfold Steps.Sse41.compress_xof
  eqv [s_compress_inner_eqv .., s_xor_eqv ..]

theorem s_round_eqv (v m r v' m') : Eqv (Steps.Sse41.round v m r) (Steps.Sse41.round v' m' r) := by
  unfold Steps.Sse41.round
  dsimp only
  eqv [s_add_eqv .., s_xor_eqv .., s_rot16_eqv .., s_rot12_eqv .., s_rot8_eqv .., s_rot7_eqv ..]

theorem s_transpose_vecs_eqv (v v') : Eqv (Steps.Sse41.transpose_vecs v) (Steps.Sse41.transpose_vecs v') := by
  unfold Steps.Sse41.transpose_vecs
  eqv []

theorem s_hash4_block_eqv (h a b c d m h' a' b' c' d' m') : Eqv (Steps.Sse41.hash4_block h a b c d m) (Steps.Sse41.hash4_block h' a' b' c' d' m') := by
  unfold Steps.Sse41.hash4_block
  dsimp only
  eqv [s_set1_eqv .., s_xor_eqv .., s_round_eqv ..]

section
attribute [local irreducible] mm_add_epi32 mm_xor_si128 mm_shuffle_epi8 mm_srli_epi32 mm_slli_epi32 mm_shuffle_epi32 mm_shuffle_ps mm_blend_epi16 mm_slli_si128 mm_srli_si128
  mm_alignr_epi8 mm_unpacklo_epi32 mm_unpackhi_epi32 mm_unpacklo_epi64 mm_unpackhi_epi64 mm_set1_epi32 mm_setr_epi32

theorem s_g1_val (r m) : (Steps.Sse41.g1 r m).val = Model.Sse41.g1 r m := rfl
theorem s_g2_val (r m) : (Steps.Sse41.g2 r m).val = Model.Sse41.g2 r m := rfl
theorem s_diagonalize_val (r) : (Steps.Sse41.diagonalize r).val = Model.Sse41.diagonalize r := rfl
theorem s_undiagonalize_val (r) : (Steps.Sse41.undiagonalize r).val = Model.Sse41.undiagonalize r := rfl
theorem s_compress_round1_val (m0 m1 m2 m3 r) : (Steps.Sse41.compress_round1 m0 m1 m2 m3 r).val = Model.Sse41.compress_round1 m0 m1 m2 m3 r := rfl
theorem s_compress_round2_val (m0 m1 m2 m3 r) : (Steps.Sse41.compress_round2 m0 m1 m2 m3 r).val = Model.Sse41.compress_round2 m0 m1 m2 m3 r := rfl
theorem s_compress_round3_val (m0 m1 m2 m3 r) : (Steps.Sse41.compress_round3 m0 m1 m2 m3 r).val = Model.Sse41.compress_round3 m0 m1 m2 m3 r := rfl
theorem s_compress_round4_val (m0 m1 m2 m3 r) : (Steps.Sse41.compress_round4 m0 m1 m2 m3 r).val = Model.Sse41.compress_round4 m0 m1 m2 m3 r := rfl
theorem s_compress_round5_val (m0 m1 m2 m3 r) : (Steps.Sse41.compress_round5 m0 m1 m2 m3 r).val = Model.Sse41.compress_round5 m0 m1 m2 m3 r := rfl
theorem s_compress_round6_val (m0 m1 m2 m3 r) : (Steps.Sse41.compress_round6 m0 m1 m2 m3 r).val = Model.Sse41.compress_round6 m0 m1 m2 m3 r := rfl
theorem s_compress_round7_val (m0 m1 m2 m3 r) : (Steps.Sse41.compress_round7 m0 m1 m2 m3 r).val = Model.Sse41.compress_round7 m0 m1 m2 m3 r := rfl
theorem s_compress_inner_val (cv b l t f) : (Steps.Sse41.compress_inner cv b l t f).val = Model.Sse41.compress_inner cv b l t f := rfl
theorem s_compress_val (cv b l t f) : (Steps.Sse41.compress cv b l t f).val = Model.Sse41.compress cv b l t f := rfl
theorem s_compress_xof_val (cv b l t f) : (Steps.Sse41.compress_xof cv b l t f).val = Model.Sse41.compress_xof cv b l t f := rfl
theorem s_round_val (v m r) : (Steps.Sse41.round v m r).val = Model.Sse41.round v m r := rfl
theorem s_transpose_vecs_val (v) : (Steps.Sse41.transpose_vecs v).val = Model.Sse41.transpose_vecs v := rfl

end

theorem s_set1_val (a) : (Steps.Sse41.set1 a).val = Model.Sse41.set1 a := rfl
theorem s_xor_val (a b) : (Steps.Sse41.xor a b).val = Model.Sse41.xor a b := rfl

section
attribute [local irreducible] Model.Sse41.round Model.Sse41.set1 Model.Sse41.xor

theorem s_hash4_block_val (h a b c d m) : (Steps.Sse41.hash4_block h a b c d m).val = Model.Sse41.hash4_block h a b c d m := by
  unfold Steps.Sse41.hash4_block Model.Sse41.hash4_block
  simp only [bind_val, pure_val, op_val, read_val, pick_val, s_round_val, s_set1_val, s_xor_val]

end

/-! ## avx2.rs -/

theorem a_add_eqv (a b a' b') : Eqv (Steps.Avx2.add a b) (Steps.Avx2.add a' b') := by
  unfold Steps.Avx2.add
  eqv [a_xor_eqv ..]
theorem a_xor_eqv (a b a' b') : Eqv (Steps.Avx2.xor a b) (Steps.Avx2.xor a' b') := by
  unfold Steps.Avx2.xor
  eqv [a_xor_eqv ..]
theorem a_set1_eqv (a a') : Eqv (Steps.Avx2.set1 a) (Steps.Avx2.set1 a') := by
  unfold Steps.Avx2.set1
  eqv [a_xor_eqv ..]
theorem a_set8_eqv (a b c d e f g h a' b' c' d' e' f' g' h') : Eqv (Steps.Avx2.set8 a b c d e f g h) (Steps.Avx2.set8 a' b' c' d' e' f' g' h') := by
  unfold Steps.Avx2.set8
  eqv [a_xor_eqv ..]
theorem a_rot16_eqv (a a') : Eqv (Steps.Avx2.rot16 a) (Steps.Avx2.rot16 a') := by
  unfold Steps.Avx2.rot16
  eqv [a_xor_eqv ..]
theorem a_rot12_eqv (a a') : Eqv (Steps.Avx2.rot12 a) (Steps.Avx2.rot12 a') := by
  unfold Steps.Avx2.rot12
  eqv [a_xor_eqv ..]
theorem a_rot8_eqv (a a') : Eqv (Steps.Avx2.rot8 a) (Steps.Avx2.rot8 a') := by
  unfold Steps.Avx2.rot8
  eqv [a_xor_eqv ..]
theorem a_rot7_eqv (a a') : Eqv (Steps.Avx2.rot7 a) (Steps.Avx2.rot7 a') := by
  unfold Steps.Avx2.rot7
  eqv [a_xor_eqv ..]
theorem a_interleave128_eqv (a b a' b') : Eqv (Steps.Avx2.interleave128 a b) (Steps.Avx2.interleave128 a' b') := by
  unfold Steps.Avx2.interleave128
  eqv [a_xor_eqv ..]

theorem a_round_eqv (v m r v' m') : Eqv (Steps.Avx2.round v m r) (Steps.Avx2.round v' m' r) := by
  unfold Steps.Avx2.round
  dsimp only
  eqv [a_add_eqv .., a_xor_eqv .., a_rot16_eqv .., a_rot12_eqv .., a_rot8_eqv .., a_rot7_eqv ..]

theorem a_transpose_vecs_eqv (v v') : Eqv (Steps.Avx2.transpose_vecs v) (Steps.Avx2.transpose_vecs v') := by
  unfold Steps.Avx2.transpose_vecs
  eqv [a_interleave128_eqv ..]

theorem a_hash8_block_eqv (h a b c d m h' a' b' c' d' m') : Eqv (Steps.Avx2.hash8_block h a b c d m) (Steps.Avx2.hash8_block h' a' b' c' d' m') := by
  unfold Steps.Avx2.hash8_block
  dsimp only
  eqv [a_set1_eqv .., a_xor_eqv .., a_round_eqv ..]

section
attribute [local irreducible] mm256_add_epi32 mm256_xor_si256 mm256_shuffle_epi8 mm256_srli_epi32 mm256_slli_epi32 mm256_or_si256 mm256_unpacklo_epi32 mm256_unpackhi_epi32
  mm256_unpacklo_epi64 mm256_unpackhi_epi64 mm256_set1_epi32 mm256_permute2x128_si256

theorem a_round_val (v m r) : (Steps.Avx2.round v m r).val = Model.Avx2.round v m r := rfl
theorem a_transpose_vecs_val (v) : (Steps.Avx2.transpose_vecs v).val = Model.Avx2.transpose_vecs v := rfl

end

theorem a_set1_val (a) : (Steps.Avx2.set1 a).val = Model.Avx2.set1 a := rfl
theorem a_xor_val (a b) : (Steps.Avx2.xor a b).val = Model.Avx2.xor a b := rfl

section
attribute [local irreducible] Model.Avx2.round Model.Avx2.set1 Model.Avx2.xor

theorem a_hash8_block_val (h a b c d m) : (Steps.Avx2.hash8_block h a b c d m).val = Model.Avx2.hash8_block h a b c d m := by
  unfold Steps.Avx2.hash8_block Model.Avx2.hash8_block
  simp only [bind_val, pure_val, op_val, read_val, pick_val, a_round_val, a_set1_val, a_xor_val]

end

/-! ## Functions that may panic -/

theorem bind_res {α β} (x : Try α) (f : α → Try β) : (x >>= f).res = x.res >>= fun a => (f a).res := by
  show (match x.res with
    | .ok a => ⟨(f a).res, x.log ++ (f a).log⟩
    | .error e => ⟨.error e, x.log⟩ : Try β).res = _
  cases x.res <;> rfl

theorem lift_res {α} (x : Run α) : (liftM x : Try α).res = .ok x.val := rfl
theorem tryOp_res {α} (s : String) (i : List Nat) (a : R α) : (tryOp s i a).res = a := rfl
theorem test_res (s : String) (b : Bool) : (Steps.test s b).res = .ok () := rfl
theorem pure_res {α} (a : α) : (pure a : Try α).res = .ok a := rfl
theorem ok_bind {α β} (a : α) (f : α → R β) : ((.ok a : R α) >>= f) = f a := rfl

def Same {α β} (Q : α → β → Prop) (x : Try α) (y : Try β) : Prop := x.log = y.log ∧ RelR Q x.res y.res

theorem Same.bind {α β α' β'} {Q : α → β → Prop} {Q' : α' → β' → Prop} {x : Try α} {y : Try β} {f : α → Try α'} {g : β → Try β'}
    (h : Same Q x y) (hf : ∀ a b, Q a b → Same Q' (f a) (g b)) : Same Q' (x >>= f) (y >>= g) := by
  obtain ⟨rx, lx⟩ := x
  obtain ⟨ry, ly⟩ := y
  obtain ⟨h1, h2⟩ := h
  cases rx <;> cases ry
  · exact ⟨h1, h2⟩
  · exact h2.elim
  · exact h2.elim
  · obtain ⟨k1, k2⟩ := hf _ _ h2
    refine ⟨?_, k2⟩
    show lx ++ _ = ly ++ _
    rw [k1, show lx = ly from h1]

theorem Same.pure {α β} {Q : α → β → Prop} {a : α} {b : β} (h : Q a b) : Same Q (Pure.pure a : Try α) (Pure.pure b : Try β) :=
  ⟨rfl, h⟩

theorem Same.run {α β} {x : Run α} {y : Run β} (h : Eqv x y) : Same Any (liftM x : Try α) (liftM y : Try β) := ⟨h, trivial⟩

theorem Same.op {α β} {Q : α → β → Prop} (s : String) (i : List Nat) {x : R α} {y : R β} (h : RelR Q x y) :
    Same Q (tryOp s i x) (tryOp s i y) := ⟨rfl, h⟩

theorem Same.test (s : String) {b b' : Bool} (h : b = b') : Same Any (Steps.test s b) (Steps.test s b') := by
  subst h; exact ⟨rfl, trivial⟩

theorem Same.ite {α β} {Q : α → β → Prop} {c c' : Prop} [Decidable c] [Decidable c'] {x y : Try α} {x' y' : Try β}
    (hc : c ↔ c') (h : c → c' → Same Q x x') (h' : ¬ c → ¬ c' → Same Q y y') :
    Same Q (if c then x else y) (if c' then x' else y') := by
  by_cases k : c
  · rw [if_pos k, if_pos (hc.1 k)]; exact h k (hc.1 k)
  · rw [if_neg k, if_neg (fun t => k (hc.2 t))]; exact h' k (fun t => k (hc.2 t))

/-! ### `compress_xof` of portable.rs -/

theorem put_prefix (o : Vector Byte 64) (i : Fin 16) (w : Word) (l : Bytes) (h : o.toList.take (4 * i.val) = l) :
    (Steps.Portable.put o i w).val.toList.take (4 * i.val + 4) = l ++ leBytes w := by
  have hi := i.isLt
  have e : (Steps.Portable.put o i w).val.toList =
      o.toList.take (4 * i.val) ++ leBytes w ++ o.toList.drop (4 * i.val + 4) := rfl
  rw [e, h]
  have hl : (l ++ leBytes w).length = 4 * i.val + 4 := by
    rw [← h]; simp [leBytes]; omega
  rw [← hl, List.take_left]

theorem puts (s : Vector Word 16) (cv : Vector Word 8) (o0 : Vector Byte 64) :
    let o1 := (Steps.Portable.put o0 0 (s[0] ^^^ s[8])).val
    let o2 := (Steps.Portable.put o1 1 (s[1] ^^^ s[9])).val
    let o3 := (Steps.Portable.put o2 2 (s[2] ^^^ s[10])).val
    let o4 := (Steps.Portable.put o3 3 (s[3] ^^^ s[11])).val
    let o5 := (Steps.Portable.put o4 4 (s[4] ^^^ s[12])).val
    let o6 := (Steps.Portable.put o5 5 (s[5] ^^^ s[13])).val
    let o7 := (Steps.Portable.put o6 6 (s[6] ^^^ s[14])).val
    let o8 := (Steps.Portable.put o7 7 (s[7] ^^^ s[15])).val
    let o9 := (Steps.Portable.put o8 8 (s[8] ^^^ cv[0])).val
    let o10 := (Steps.Portable.put o9 9 (s[9] ^^^ cv[1])).val
    let o11 := (Steps.Portable.put o10 10 (s[10] ^^^ cv[2])).val
    let o12 := (Steps.Portable.put o11 11 (s[11] ^^^ cv[3])).val
    let o13 := (Steps.Portable.put o12 12 (s[12] ^^^ cv[4])).val
    let o14 := (Steps.Portable.put o13 13 (s[13] ^^^ cv[5])).val
    let o15 := (Steps.Portable.put o14 14 (s[14] ^^^ cv[6])).val
    let o16 := (Steps.Portable.put o15 15 (s[15] ^^^ cv[7])).val
    o16.toList = (((List.finRange 8).map fun i : Fin 8 => s[i.val] ^^^ s[i.val + 8]) ++ (List.finRange 8).map fun i : Fin 8 => s[i.val + 8] ^^^ cv[i]).flatMap leBytes := by
  intro o1 o2 o3 o4 o5 o6 o7 o8 o9 o10 o11 o12 o13 o14 o15 o16
  have h0 : o0.toList.take (4 * (0 : Fin 16).val) = [] := rfl
  have h1 : o1.toList.take (4 * (0 : Fin 16).val + 4) = _ := put_prefix o0 0 (s[0] ^^^ s[8]) _ h0
  have h2 : o2.toList.take (4 * (1 : Fin 16).val + 4) = _ := put_prefix o1 1 (s[1] ^^^ s[9]) _ h1
  have h3 : o3.toList.take (4 * (2 : Fin 16).val + 4) = _ := put_prefix o2 2 (s[2] ^^^ s[10]) _ h2
  have h4 : o4.toList.take (4 * (3 : Fin 16).val + 4) = _ := put_prefix o3 3 (s[3] ^^^ s[11]) _ h3
  have h5 : o5.toList.take (4 * (4 : Fin 16).val + 4) = _ := put_prefix o4 4 (s[4] ^^^ s[12]) _ h4
  have h6 : o6.toList.take (4 * (5 : Fin 16).val + 4) = _ := put_prefix o5 5 (s[5] ^^^ s[13]) _ h5
  have h7 : o7.toList.take (4 * (6 : Fin 16).val + 4) = _ := put_prefix o6 6 (s[6] ^^^ s[14]) _ h6
  have h8 : o8.toList.take (4 * (7 : Fin 16).val + 4) = _ := put_prefix o7 7 (s[7] ^^^ s[15]) _ h7
  have h9 : o9.toList.take (4 * (8 : Fin 16).val + 4) = _ := put_prefix o8 8 (s[8] ^^^ cv[0]) _ h8
  have h10 : o10.toList.take (4 * (9 : Fin 16).val + 4) = _ := put_prefix o9 9 (s[9] ^^^ cv[1]) _ h9
  have h11 : o11.toList.take (4 * (10 : Fin 16).val + 4) = _ := put_prefix o10 10 (s[10] ^^^ cv[2]) _ h10
  have h12 : o12.toList.take (4 * (11 : Fin 16).val + 4) = _ := put_prefix o11 11 (s[11] ^^^ cv[3]) _ h11
  have h13 : o13.toList.take (4 * (12 : Fin 16).val + 4) = _ := put_prefix o12 12 (s[12] ^^^ cv[4]) _ h12
  have h14 : o14.toList.take (4 * (13 : Fin 16).val + 4) = _ := put_prefix o13 13 (s[13] ^^^ cv[5]) _ h13
  have h15 : o15.toList.take (4 * (14 : Fin 16).val + 4) = _ := put_prefix o14 14 (s[14] ^^^ cv[6]) _ h14
  have h16 : o16.toList.take (4 * (15 : Fin 16).val + 4) = _ := put_prefix o15 15 (s[15] ^^^ cv[7]) _ h15
  refine Eq.trans ?_ (h16.trans ?_)
  · exact (List.take_of_length_le (Nat.le_of_eq (Vector.length_toList (xs := o16)))).symm
  · simp only [List.nil_append, List.append_assoc]
    rfl

theorem p_compress_xof_val (cv b l t f) : (Steps.Portable.compress_xof cv b l t f).val = Model.Portable.compress_xof cv b l t f := by
  have k : (Steps.Portable.compress_inner cv b l t f).val = Model.Portable.compress_inner cv b l t f := p_compress_inner_val ..
  unfold Steps.Portable.compress_xof Model.Portable.compress_xof
  rw [bind_val, k]
  refine Vector.toList_inj.1 ?_
  exact puts (Model.Portable.compress_inner cv b l t f) cv _

/-! ### `hash1` -/

theorem p_hash1_loop_same (f f' fe fe' : Byte) (t : U64) (s s' : Bytes) (h : s.length = s'.length) :
    ∀ (cv cv' : Vector Word 8) (bf bf' : Byte),
      Same Any (Steps.Portable.hash1_loop f fe t cv bf s) (Steps.Portable.hash1_loop f' fe' t cv' bf' s') := by
  induction hn : s.length using Nat.strongRecOn generalizing s s' with
  | _ n ih =>
    intro cv cv' bf bf'
    subst hn
    rw [Steps.Portable.hash1_loop, Steps.Portable.hash1_loop]
    by_cases k : BLOCK_LEN ≤ s.length
    · rw [dif_pos k, dif_pos (h ▸ k)]
      refine Same.bind (Same.test _ rfl) fun _ _ _ => ?_
      refine Same.bind (Same.test _ (by rw [h])) fun _ _ _ => ?_
      dsimp only
      rw [h]
      refine Same.bind (Same.op _ _ (rel_arrayRef h _ _)) fun b b' _ => ?_
      refine Same.bind (Same.run (p_compress_eqv ..)) fun c c' _ => ?_
      have k' : 64 ≤ s.length := k
      exact ih _ (by simp only [List.length_drop, BLOCK_LEN]; omega) _ _ (by simp only [List.length_drop, h]) rfl _ _ _ _
    · rw [dif_neg k, dif_neg (h ▸ k)]
      exact Same.bind (Same.test _ rfl) fun _ _ _ => Same.pure trivial

theorem p_hash1_same (s s' : Bytes) (h : s.length = s'.length) (k k' : Vector Word 8) (t : U64) (f fs fe f' fs' fe' : Byte) :
    Same Any (Steps.Portable.hash1 s k t f fs fe) (Steps.Portable.hash1 s' k' t f' fs' fe') := by
  unfold Steps.Portable.hash1
  refine Same.bind (Same.op _ _ (rel_assert (by rw [h]))) fun _ _ _ => ?_
  refine Same.bind (p_hash1_loop_same _ _ _ _ _ _ _ h _ _ _ _) fun _ _ _ => ?_
  exact Same.run (p_bytes_from_state_words_eqv ..)

theorem p_hash_many_loop_same (k k' : Vector Word 8) (d : U64) (f fs fe f' fs' fe' : Byte) (xs : List Bytes) :
    ∀ (ys : List Bytes) (t : U64) (out out' : Bytes), SameLens xs ys → SameLen out out' →
      Same SameLen (Steps.Portable.hash_many_loop k d f fs fe xs t out) (Steps.Portable.hash_many_loop k' d f' fs' fe' ys t out') := by
  induction xs with
  | nil =>
    intro ys t out out' h ho
    cases ys with
    | nil => exact Same.bind (Same.test _ rfl) fun _ _ _ => Same.pure ho
    | cons _ _ => cases h
  | cons x xs ih =>
    intro ys t out out' h ho
    cases ys with
    | nil => cases h
    | cons y ys =>
      have h1 : x.length = y.length := by injection h
      have h2 : SameLens xs ys := by injection h
      rw [Steps.Portable.hash_many_loop, Steps.Portable.hash_many_loop]
      refine Same.ite (by rw [show out.length = out'.length from ho])
        (fun _ _ => Same.bind (Same.test _ rfl) fun _ _ _ => Same.pure ho) (fun _ _ => ?_)
      refine Same.bind (Same.test _ rfl) fun _ _ _ => ?_
      refine Same.bind (p_hash1_same _ _ h1 ..) fun a b _ => ?_
      refine Same.bind (Same.op _ _ (RelR.refl _)) fun o _ e => ?_
      subst e
      refine Same.bind (ih ys o _ _ h2 (by show List.length _ = List.length _; simp only [List.length_drop, show out.length = out'.length from ho])) fun r r' hr => ?_
      refine Same.pure ?_
      show List.length _ = List.length _
      simp only [List.length_append, Vector.length_toList, show r.length = r'.length from hr]

theorem p_hash_many_same (k k' : Vector Word 8) (t d : U64) (f fs fe f' fs' fe' : Byte) (xs ys : List Bytes) (out out' : Bytes)
    (h : SameLens xs ys) (ho : SameLen out out') :
    Same SameLen (Steps.Portable.hash_many xs k t d f fs fe out) (Steps.Portable.hash_many ys k' t d f' fs' fe' out') := by
  unfold Steps.Portable.hash_many
  refine Same.bind (Same.op _ _ (rel_assert (by rw [h.length, show out.length = out'.length from ho]))) fun _ _ _ => ?_
  exact p_hash_many_loop_same _ _ _ _ _ _ _ _ _ _ _ _ _ _ h ho

theorem p_hash1_loop_res (f fe : Byte) (t : U64) (s : Bytes) : ∀ (cv : Vector Word 8) (bf : Byte),
    (Steps.Portable.hash1_loop f fe t cv bf s).res = Model.Portable.hash1_loop f fe t cv bf s := by
  induction hn : s.length using Nat.strongRecOn generalizing s with
  | _ n ih =>
    intro cv bf
    subst hn
    rw [Steps.Portable.hash1_loop, Model.Portable.hash1_loop]
    by_cases k : BLOCK_LEN ≤ s.length
    · rw [dif_pos k, dif_pos k]
      simp only [bind_res, test_res, tryOp_res, lift_res, ok_bind, p_compress_val]
      have k' : 64 ≤ s.length := k
      refine congrArg _ (funext fun b => ?_)
      exact ih _ (by simp only [List.length_drop, BLOCK_LEN]; omega) _ rfl _ _
    · rw [dif_neg k, dif_neg k]; rfl

theorem p_hash1_res (s : Bytes) (k : Vector Word 8) (t : U64) (f fs fe : Byte) :
    (Steps.Portable.hash1 s k t f fs fe).res = Model.Portable.hash1 s k t f fs fe := by
  unfold Steps.Portable.hash1 Model.Portable.hash1
  simp only [bind_res, tryOp_res, lift_res, p_hash1_loop_res]
  rfl

theorem p_hash_many_loop_res (k : Vector Word 8) (d : U64) (f fs fe : Byte) (xs : List Bytes) : ∀ (t : U64) (out : Bytes),
    (Steps.Portable.hash_many_loop k d f fs fe xs t out).res = Model.Portable.hash_many_loop k d f fs fe xs t out := by
  induction xs with
  | nil => intro t out; rfl
  | cons x xs ih =>
    intro t out
    rw [Steps.Portable.hash_many_loop, Model.Portable.hash_many_loop]
    by_cases h : out.length < OUT_LEN
    · rw [if_pos h, if_pos h]; rfl
    · rw [if_neg h, if_neg h]
      simp only [bind_res, test_res, tryOp_res, ok_bind, p_hash1_res, ih, pure_res]
      rfl

theorem p_hash_many_res (xs : List Bytes) (k : Vector Word 8) (t d : U64) (f fs fe : Byte) (out : Bytes) :
    (Steps.Portable.hash_many xs k t d f fs fe out).res = Model.Portable.hash_many xs k t d f fs fe out := by
  unfold Steps.Portable.hash_many Model.Portable.hash_many
  simp only [bind_res, tryOp_res, p_hash_many_loop_res]

/-! ### sse41.rs -/

theorem s_hash1_loop_same (f f' fe fe' : Byte) (t : U64) (s s' : Bytes) (h : s.length = s'.length) :
    ∀ (cv cv' : Vector Word 8) (bf bf' : Byte),
      Same Any (Steps.Sse41.hash1_loop f fe t cv bf s) (Steps.Sse41.hash1_loop f' fe' t cv' bf' s') := by
  induction hn : s.length using Nat.strongRecOn generalizing s s' with
  | _ n ih =>
    intro cv cv' bf bf'
    subst hn
    rw [Steps.Sse41.hash1_loop, Steps.Sse41.hash1_loop]
    by_cases k : BLOCK_LEN ≤ s.length
    · rw [dif_pos k, dif_pos (h ▸ k)]
      refine Same.bind (Same.test _ rfl) fun _ _ _ => ?_
      refine Same.bind (Same.test _ (by rw [h])) fun _ _ _ => ?_
      dsimp only
      rw [h]
      refine Same.bind (Same.op _ _ (rel_arrayRef h _ _)) fun b b' _ => ?_
      refine Same.bind (Same.run (s_compress_eqv ..)) fun c c' _ => ?_
      have k' : 64 ≤ s.length := k
      exact ih _ (by simp only [List.length_drop, BLOCK_LEN]; omega) _ _ (by simp only [List.length_drop, h]) rfl _ _ _ _
    · rw [dif_neg k, dif_neg (h ▸ k)]
      exact Same.bind (Same.test _ rfl) fun _ _ _ => Same.pure trivial

theorem s_hash1_same (s s' : Bytes) (h : s.length = s'.length) (k k' : Vector Word 8) (t : U64) (f fs fe f' fs' fe' : Byte) :
    Same Any (Steps.Sse41.hash1 s k t f fs fe) (Steps.Sse41.hash1 s' k' t f' fs' fe') := by
  unfold Steps.Sse41.hash1
  refine Same.bind (Same.op _ _ (rel_assert (by rw [h]))) fun _ _ _ => ?_
  refine Same.bind (s_hash1_loop_same _ _ _ _ _ _ _ h _ _ _ _) fun _ _ _ => ?_
  exact Same.run (Eqv.op ..)

theorem s_hash_many_tail_same (k k' : Vector Word 8) (d : U64) (f fs fe f' fs' fe' : Byte) (xs : List Bytes) :
    ∀ (ys : List Bytes) (t : U64) (out out' : Bytes), SameLens xs ys → SameLen out out' →
      Same SameLen (Steps.Sse41.hash_many_tail k d f fs fe xs t out) (Steps.Sse41.hash_many_tail k' d f' fs' fe' ys t out') := by
  induction xs with
  | nil =>
    intro ys t out out' h ho
    cases ys with
    | nil => exact Same.bind (Same.test _ rfl) fun _ _ _ => Same.pure ho
    | cons _ _ => cases h
  | cons x xs ih =>
    intro ys t out out' h ho
    cases ys with
    | nil => cases h
    | cons y ys =>
      have h1 : x.length = y.length := by injection h
      have h2 : SameLens xs ys := by injection h
      rw [Steps.Sse41.hash_many_tail, Steps.Sse41.hash_many_tail]
      refine Same.ite (by rw [show out.length = out'.length from ho])
        (fun _ _ => Same.bind (Same.test _ rfl) fun _ _ _ => Same.pure ho) (fun _ _ => ?_)
      refine Same.bind (Same.test _ rfl) fun _ _ _ => ?_
      refine Same.bind (s_hash1_same _ _ h1 ..) fun a b _ => ?_
      refine Same.bind (Same.op _ _ (RelR.refl _)) fun o _ e => ?_
      subst e
      refine Same.bind (ih ys o _ _ h2 (by show List.length _ = List.length _; simp only [List.length_drop, show out.length = out'.length from ho])) fun r r' hr => ?_
      refine Same.pure ?_
      show List.length _ = List.length _
      simp only [List.length_append, Vector.length_toList, show r.length = r'.length from hr]

theorem s_load_rel {s s' : Bytes} (h : s.length = s'.length) (i : Nat) :
    RelR Any (Model.Sse41.loadu s i) (Model.Sse41.loadu s' i) := by
  unfold Model.Sse41.loadu mm_loadu_si128 loadBytes
  rw [h]
  exact RelR.ite Iff.rfl (fun _ _ => trivial) (fun _ _ => rfl)

theorem s_transpose_msg_vecs_same (xs ys : Vector Bytes 4) (h : ∀ i : Fin 4, xs[i].length = ys[i].length) (n : Nat) :
    Same Any (Steps.Sse41.transpose_msg_vecs xs n) (Steps.Sse41.transpose_msg_vecs ys n) := by
  unfold Steps.Sse41.transpose_msg_vecs
  refine Same.bind (Same.op _ _ (s_load_rel (h 0) _)) fun _ _ _ => ?_
  refine Same.bind (Same.op _ _ (s_load_rel (h 1) _)) fun _ _ _ => ?_
  refine Same.bind (Same.op _ _ (s_load_rel (h 2) _)) fun _ _ _ => ?_
  refine Same.bind (Same.op _ _ (s_load_rel (h 3) _)) fun _ _ _ => ?_
  refine Same.bind (Same.op _ _ (s_load_rel (h 0) _)) fun _ _ _ => ?_
  refine Same.bind (Same.op _ _ (s_load_rel (h 1) _)) fun _ _ _ => ?_
  refine Same.bind (Same.op _ _ (s_load_rel (h 2) _)) fun _ _ _ => ?_
  refine Same.bind (Same.op _ _ (s_load_rel (h 3) _)) fun _ _ _ => ?_
  refine Same.bind (Same.op _ _ (s_load_rel (h 0) _)) fun _ _ _ => ?_
  refine Same.bind (Same.op _ _ (s_load_rel (h 1) _)) fun _ _ _ => ?_
  refine Same.bind (Same.op _ _ (s_load_rel (h 2) _)) fun _ _ _ => ?_
  refine Same.bind (Same.op _ _ (s_load_rel (h 3) _)) fun _ _ _ => ?_
  refine Same.bind (Same.op _ _ (s_load_rel (h 0) _)) fun _ _ _ => ?_
  refine Same.bind (Same.op _ _ (s_load_rel (h 1) _)) fun _ _ _ => ?_
  refine Same.bind (Same.op _ _ (s_load_rel (h 2) _)) fun _ _ _ => ?_
  refine Same.bind (Same.op _ _ (s_load_rel (h 3) _)) fun _ _ _ => ?_
  refine Same.bind (Same.run (s_transpose_vecs_eqv ..)) fun _ _ _ => ?_
  refine Same.bind (Same.run (s_transpose_vecs_eqv ..)) fun _ _ _ => ?_
  refine Same.bind (Same.run (s_transpose_vecs_eqv ..)) fun _ _ _ => ?_
  refine Same.bind (Same.run (s_transpose_vecs_eqv ..)) fun _ _ _ => ?_
  exact Same.pure trivial

theorem s_load_offsets_same (t d : U64) : Same Any (Steps.Sse41.load_offsets t d) (Steps.Sse41.load_offsets t d) := by
  exact ⟨rfl, (RelR.refl _).mono fun _ _ _ => trivial⟩

theorem s_hash4_loop_same (xs ys : Vector Bytes 4) (h : ∀ i : Fin 4, xs[i].length = ys[i].length) (blocks : Nat) (a b a' b' : M128)
    (f fe f' fe' : Byte) (n : Nat) : ∀ (block : Nat) (hs hs' : Vector M128 8) (bf bf' : Byte),
      Same Any (Steps.Sse41.hash4_loop xs blocks a b f fe n block hs bf) (Steps.Sse41.hash4_loop ys blocks a' b' f' fe' n block hs' bf') := by
  induction n with
  | zero =>
    intro block hs hs' bf bf'
    exact Same.bind (Same.test _ rfl) fun _ _ _ => Same.pure trivial
  | succ n ih =>
    intro block hs hs' bf bf'
    rw [Steps.Sse41.hash4_loop, Steps.Sse41.hash4_loop]
    refine Same.bind (Same.test _ rfl) fun _ _ _ => ?_
    refine Same.bind (Same.test _ rfl) fun _ _ _ => ?_
    dsimp only
    refine Same.bind (Same.run (s_set1_eqv ..)) fun _ _ _ => ?_
    refine Same.bind (Same.run (s_set1_eqv ..)) fun _ _ _ => ?_
    refine Same.bind (s_transpose_msg_vecs_same xs ys h _) fun _ _ _ => ?_
    refine Same.bind (Same.run (s_hash4_block_eqv ..)) fun _ _ _ => ?_
    exact ih _ _ _ _ _

theorem s_hash4_same (xs ys : Vector Bytes 4) (h : ∀ i : Fin 4, xs[i].length = ys[i].length) (blocks : Nat) (k k' : Vector Word 8)
    (t d : U64) (f fs fe f' fs' fe' : Byte) (out out' : Bytes) (ho : SameLen out out') :
    Same SameLen (Steps.Sse41.hash4 xs blocks k t d f fs fe out) (Steps.Sse41.hash4 ys blocks k' t d f' fs' fe' out') := by
  unfold Steps.Sse41.hash4
  refine Same.bind (Same.run (s_set1_eqv ..)) fun _ _ _ => ?_
  refine Same.bind (Same.run (s_set1_eqv ..)) fun _ _ _ => ?_
  refine Same.bind (Same.run (s_set1_eqv ..)) fun _ _ _ => ?_
  refine Same.bind (Same.run (s_set1_eqv ..)) fun _ _ _ => ?_
  refine Same.bind (Same.run (s_set1_eqv ..)) fun _ _ _ => ?_
  refine Same.bind (Same.run (s_set1_eqv ..)) fun _ _ _ => ?_
  refine Same.bind (Same.run (s_set1_eqv ..)) fun _ _ _ => ?_
  refine Same.bind (Same.run (s_set1_eqv ..)) fun _ _ _ => ?_
  dsimp only
  refine Same.bind (s_load_offsets_same _ _) fun _ _ _ => ?_
  refine Same.bind (s_hash4_loop_same xs ys h ..) fun _ _ _ => ?_
  refine Same.bind (Same.run (s_transpose_vecs_eqv ..)) fun _ _ _ => ?_
  refine Same.bind (Same.run (s_transpose_vecs_eqv ..)) fun _ _ _ => ?_
  refine Same.bind (Same.op _ _ (rel_writeAt ho _ (by simp only [length_regBytes]))) fun _ _ h0 => ?_
  refine Same.bind (Same.op _ _ (rel_writeAt h0 _ (by simp only [length_regBytes]))) fun _ _ h1 => ?_
  refine Same.bind (Same.op _ _ (rel_writeAt h1 _ (by simp only [length_regBytes]))) fun _ _ h2 => ?_
  refine Same.bind (Same.op _ _ (rel_writeAt h2 _ (by simp only [length_regBytes]))) fun _ _ h3 => ?_
  refine Same.bind (Same.op _ _ (rel_writeAt h3 _ (by simp only [length_regBytes]))) fun _ _ h4 => ?_
  refine Same.bind (Same.op _ _ (rel_writeAt h4 _ (by simp only [length_regBytes]))) fun _ _ h5 => ?_
  refine Same.bind (Same.op _ _ (rel_writeAt h5 _ (by simp only [length_regBytes]))) fun _ _ h6 => ?_
  exact Same.op _ _ (rel_writeAt h6 _ (by simp only [length_regBytes]))

theorem s_transpose_msg_vecs_res (xs : Vector Bytes 4) (n : Nat) :
    (Steps.Sse41.transpose_msg_vecs xs n).res = Model.Sse41.transpose_msg_vecs xs n := by
  unfold Steps.Sse41.transpose_msg_vecs Model.Sse41.transpose_msg_vecs
  simp only [bind_res, tryOp_res, lift_res, ok_bind, s_transpose_vecs_val, pure_res]
  rfl

theorem s_load_offsets_res (t d : U64) : (Steps.Sse41.load_offsets t d).res = Model.Sse41.load_offsets t d := by
  unfold Steps.Sse41.load_offsets Model.Sse41.load_offsets
  simp only [bind_res, tryOp_res, lift_res, ok_bind, pure_res]
  rfl

theorem s_hash4_loop_res (xs : Vector Bytes 4) (blocks : Nat) (a b : M128) (f fe : Byte) (n : Nat) :
    ∀ (block : Nat) (hs : Vector M128 8) (bf : Byte),
      (Steps.Sse41.hash4_loop xs blocks a b f fe n block hs bf).res = Model.Sse41.hash4_loop xs blocks a b f fe n block hs bf := by
  induction n with
  | zero => intros; rfl
  | succ n ih =>
    intro block hs bf
    rw [Steps.Sse41.hash4_loop, Model.Sse41.hash4_loop]
    simp only [bind_res, tryOp_res, lift_res, ok_bind, test_res, s_transpose_msg_vecs_res, s_hash4_block_val, s_set1_val, ih]

theorem s_hash4_res (xs : Vector Bytes 4) (blocks : Nat) (k : Vector Word 8) (t d : U64) (f fs fe : Byte) (out : Bytes) :
    (Steps.Sse41.hash4 xs blocks k t d f fs fe out).res = Model.Sse41.hash4 xs blocks k t d f fs fe out := by
  unfold Steps.Sse41.hash4 Model.Sse41.hash4
  simp only [bind_res, tryOp_res, lift_res, ok_bind, s_set1_val, s_load_offsets_res, s_hash4_loop_res, s_transpose_vecs_val, pure_res]

theorem arrayRef_lens {xs ys : List Bytes} (h : SameLens xs ys) (i n : Nat) :
    RelR (fun v w : Vector Bytes n => ∀ j : Fin n, v[j].length = w[j].length) (arrayRef xs i n) (arrayRef ys i n) := by
  have hl := h.length
  unfold arrayRef
  by_cases k : i + n ≤ xs.length
  · rw [dif_pos k, dif_pos (hl ▸ k)]
    intro j
    have hj := j.isLt
    have e := congrArg (·[i + j.val]?) h
    simp [List.getElem?_map, show i + j.val < xs.length by omega, show i + j.val < ys.length by omega] at e
    simpa using e
  · rw [dif_neg k, dif_neg (hl ▸ k)]; rfl

theorem s_hash_many_loop_same (cap : Nat) (k k' : Vector Word 8) (d : U64) (f fs fe f' fs' fe' : Byte) (xs : List Bytes) :
    ∀ (ys : List Bytes) (t : U64) (out out' : Bytes), SameLens xs ys → SameLen out out' →
      Same SameLen (Steps.Sse41.hash_many_loop cap k d f fs fe xs t out) (Steps.Sse41.hash_many_loop cap k' d f' fs' fe' ys t out') := by
  induction hn : xs.length using Nat.strongRecOn generalizing xs with
  | _ n ih =>
    intro ys t out out' h ho
    subst hn
    rw [Steps.Sse41.hash_many_loop, Steps.Sse41.hash_many_loop]
    have hl := h.length
    have ho' : out.length = out'.length := ho
    by_cases c : Model.Sse41.DEGREE ≤ xs.length ∧ Model.Sse41.DEGREE * OUT_LEN ≤ out.length
    · rw [dif_pos c, dif_pos (by rw [← hl, ← ho']; exact c)]
      refine Same.bind (Same.test _ rfl) fun _ _ _ => ?_
      rw [hl]
      refine Same.bind (Same.op _ _ (arrayRef_lens h _ _)) fun v w hv => ?_
      dsimp only
      refine Same.bind (s_hash4_same v w hv _ _ _ _ _ _ _ _ _ _ _ _ _ ?_) fun r r' hr => ?_
      · show List.length _ = List.length _
        simp only [List.length_take, ho']
      refine Same.bind (Same.op _ _ (RelR.refl _)) fun o _ e => ?_
      subst e
      have hd : 4 ≤ xs.length := c.1
      refine Same.bind (ih _ (by simp only [List.length_drop, Model.Sse41.DEGREE]; omega) _ rfl _ _ _ _ ?_ ?_) fun q q' hq => ?_
      · show List.map _ _ = List.map _ _
        rw [List.map_drop, List.map_drop]
        exact congrArg _ h
      · show List.length _ = List.length _
        simp only [List.length_drop, ho']
      refine Same.pure ?_
      show List.length _ = List.length _
      simp only [List.length_append, show r.length = r'.length from hr, show q.length = q'.length from hq]
    · rw [dif_neg c, dif_neg (by rw [← hl, ← ho']; exact c)]
      refine Same.bind (Same.test _ rfl) fun _ _ _ => ?_
      exact s_hash_many_tail_same _ _ _ _ _ _ _ _ _ _ _ _ _ _ h ho

theorem s_hash_many_same (cap : Nat) (k k' : Vector Word 8) (t d : U64) (f fs fe f' fs' fe' : Byte) (xs ys : List Bytes) (out out' : Bytes)
    (h : SameLens xs ys) (ho : SameLen out out') :
    Same SameLen (Steps.Sse41.hash_many cap xs k t d f fs fe out) (Steps.Sse41.hash_many cap ys k' t d f' fs' fe' out') := by
  unfold Steps.Sse41.hash_many
  refine Same.bind (Same.op _ _ (rel_assert (by rw [h.length, show out.length = out'.length from ho]))) fun _ _ _ => ?_
  exact s_hash_many_loop_same _ _ _ _ _ _ _ _ _ _ _ _ _ _ _ h ho

theorem s_hash1_loop_res (f fe : Byte) (t : U64) (s : Bytes) : ∀ (cv : Vector Word 8) (bf : Byte),
    (Steps.Sse41.hash1_loop f fe t cv bf s).res = Model.Sse41.hash1_loop f fe t cv bf s := by
  induction hn : s.length using Nat.strongRecOn generalizing s with
  | _ n ih =>
    intro cv bf
    subst hn
    rw [Steps.Sse41.hash1_loop, Model.Sse41.hash1_loop]
    by_cases k : BLOCK_LEN ≤ s.length
    · rw [dif_pos k, dif_pos k]
      simp only [bind_res, test_res, tryOp_res, lift_res, ok_bind, s_compress_val]
      have k' : 64 ≤ s.length := k
      refine congrArg _ (funext fun b => ?_)
      exact ih _ (by simp only [List.length_drop, BLOCK_LEN]; omega) _ rfl _ _
    · rw [dif_neg k, dif_neg k]; rfl

theorem s_hash1_res (s : Bytes) (k : Vector Word 8) (t : U64) (f fs fe : Byte) :
    (Steps.Sse41.hash1 s k t f fs fe).res = Model.Sse41.hash1 s k t f fs fe := by
  unfold Steps.Sse41.hash1 Model.Sse41.hash1
  simp only [bind_res, tryOp_res, lift_res, s_hash1_loop_res]
  rfl

theorem s_hash_many_tail_res (k : Vector Word 8) (d : U64) (f fs fe : Byte) (xs : List Bytes) : ∀ (t : U64) (out : Bytes),
    (Steps.Sse41.hash_many_tail k d f fs fe xs t out).res = Model.Sse41.hash_many_tail k d f fs fe xs t out := by
  induction xs with
  | nil => intro t out; rfl
  | cons x xs ih =>
    intro t out
    rw [Steps.Sse41.hash_many_tail, Model.Sse41.hash_many_tail]
    by_cases h : out.length < OUT_LEN
    · rw [if_pos h, if_pos h]; rfl
    · rw [if_neg h, if_neg h]
      simp only [bind_res, test_res, tryOp_res, ok_bind, s_hash1_res, ih, pure_res]
      rfl

theorem s_hash_many_loop_res (cap : Nat) (k : Vector Word 8) (d : U64) (f fs fe : Byte) (xs : List Bytes) : ∀ (t : U64) (out : Bytes),
    (Steps.Sse41.hash_many_loop cap k d f fs fe xs t out).res = Model.Sse41.hash_many_loop cap k d f fs fe xs t out := by
  induction hn : xs.length using Nat.strongRecOn generalizing xs with
  | _ n ih =>
    intro t out
    subst hn
    rw [Steps.Sse41.hash_many_loop, Model.Sse41.hash_many_loop]
    by_cases c : Model.Sse41.DEGREE ≤ xs.length ∧ Model.Sse41.DEGREE * OUT_LEN ≤ out.length
    · rw [dif_pos c, dif_pos c]
      have hd : 4 ≤ xs.length := c.1
      have ih' := fun t out => ih (xs.drop Model.Sse41.DEGREE).length (by simp only [List.length_drop, Model.Sse41.DEGREE]; omega) _ rfl t out
      simp only [bind_res, tryOp_res, test_res, ok_bind, s_hash4_res, ih', pure_res]
      rfl
    · rw [dif_neg c, dif_neg c]
      simp only [bind_res, test_res, ok_bind, s_hash_many_tail_res]

theorem s_hash_many_res (cap : Nat) (xs : List Bytes) (k : Vector Word 8) (t d : U64) (f fs fe : Byte) (out : Bytes) :
    (Steps.Sse41.hash_many cap xs k t d f fs fe out).res = Model.Sse41.hash_many cap xs k t d f fs fe out := by
  unfold Steps.Sse41.hash_many Model.Sse41.hash_many
  simp only [bind_res, tryOp_res, s_hash_many_loop_res]

/-! ### avx2.rs -/

theorem a_load_rel {s s' : Bytes} (h : s.length = s'.length) (i : Nat) :
    RelR Any (Model.Avx2.loadu s i) (Model.Avx2.loadu s' i) := by
  unfold Model.Avx2.loadu mm256_loadu_si256 loadBytes
  rw [h]
  exact RelR.ite Iff.rfl (fun _ _ => trivial) (fun _ _ => rfl)

theorem a_transpose_msg_vecs_same (xs ys : Vector Bytes 8) (h : ∀ i : Fin 8, xs[i].length = ys[i].length) (n : Nat) :
    Same Any (Steps.Avx2.transpose_msg_vecs xs n) (Steps.Avx2.transpose_msg_vecs ys n) := by
  unfold Steps.Avx2.transpose_msg_vecs
  refine Same.bind (Same.op _ _ (a_load_rel (h 0) _)) fun _ _ _ => ?_
  refine Same.bind (Same.op _ _ (a_load_rel (h 1) _)) fun _ _ _ => ?_
  refine Same.bind (Same.op _ _ (a_load_rel (h 2) _)) fun _ _ _ => ?_
  refine Same.bind (Same.op _ _ (a_load_rel (h 3) _)) fun _ _ _ => ?_
  refine Same.bind (Same.op _ _ (a_load_rel (h 4) _)) fun _ _ _ => ?_
  refine Same.bind (Same.op _ _ (a_load_rel (h 5) _)) fun _ _ _ => ?_
  refine Same.bind (Same.op _ _ (a_load_rel (h 6) _)) fun _ _ _ => ?_
  refine Same.bind (Same.op _ _ (a_load_rel (h 7) _)) fun _ _ _ => ?_
  refine Same.bind (Same.op _ _ (a_load_rel (h 0) _)) fun _ _ _ => ?_
  refine Same.bind (Same.op _ _ (a_load_rel (h 1) _)) fun _ _ _ => ?_
  refine Same.bind (Same.op _ _ (a_load_rel (h 2) _)) fun _ _ _ => ?_
  refine Same.bind (Same.op _ _ (a_load_rel (h 3) _)) fun _ _ _ => ?_
  refine Same.bind (Same.op _ _ (a_load_rel (h 4) _)) fun _ _ _ => ?_
  refine Same.bind (Same.op _ _ (a_load_rel (h 5) _)) fun _ _ _ => ?_
  refine Same.bind (Same.op _ _ (a_load_rel (h 6) _)) fun _ _ _ => ?_
  refine Same.bind (Same.op _ _ (a_load_rel (h 7) _)) fun _ _ _ => ?_
  refine Same.bind (Same.run (a_transpose_vecs_eqv ..)) fun _ _ _ => ?_
  refine Same.bind (Same.run (a_transpose_vecs_eqv ..)) fun _ _ _ => ?_
  exact Same.pure trivial

theorem a_load_offsets_same (t d : U64) : Same Any (Steps.Avx2.load_offsets t d) (Steps.Avx2.load_offsets t d) := by
  exact ⟨rfl, (RelR.refl _).mono fun _ _ _ => trivial⟩

theorem a_hash8_loop_same (xs ys : Vector Bytes 8) (h : ∀ i : Fin 8, xs[i].length = ys[i].length) (blocks : Nat) (a b a' b' : M256)
    (f fe f' fe' : Byte) (n : Nat) : ∀ (block : Nat) (hs hs' : Vector M256 8) (bf bf' : Byte),
      Same Any (Steps.Avx2.hash8_loop xs blocks a b f fe n block hs bf) (Steps.Avx2.hash8_loop ys blocks a' b' f' fe' n block hs' bf') := by
  induction n with
  | zero =>
    intro block hs hs' bf bf'
    exact Same.bind (Same.test _ rfl) fun _ _ _ => Same.pure trivial
  | succ n ih =>
    intro block hs hs' bf bf'
    rw [Steps.Avx2.hash8_loop, Steps.Avx2.hash8_loop]
    refine Same.bind (Same.test _ rfl) fun _ _ _ => ?_
    refine Same.bind (Same.test _ rfl) fun _ _ _ => ?_
    dsimp only
    refine Same.bind (Same.run (a_set1_eqv ..)) fun _ _ _ => ?_
    refine Same.bind (Same.run (a_set1_eqv ..)) fun _ _ _ => ?_
    refine Same.bind (a_transpose_msg_vecs_same xs ys h _) fun _ _ _ => ?_
    refine Same.bind (Same.run (a_hash8_block_eqv ..)) fun _ _ _ => ?_
    exact ih _ _ _ _ _

theorem a_hash8_same (xs ys : Vector Bytes 8) (h : ∀ i : Fin 8, xs[i].length = ys[i].length) (blocks : Nat) (k k' : Vector Word 8)
    (t d : U64) (f fs fe f' fs' fe' : Byte) (out out' : Bytes) (ho : SameLen out out') :
    Same SameLen (Steps.Avx2.hash8 xs blocks k t d f fs fe out) (Steps.Avx2.hash8 ys blocks k' t d f' fs' fe' out') := by
  unfold Steps.Avx2.hash8
  refine Same.bind (Same.run (a_set1_eqv ..)) fun _ _ _ => ?_
  refine Same.bind (Same.run (a_set1_eqv ..)) fun _ _ _ => ?_
  refine Same.bind (Same.run (a_set1_eqv ..)) fun _ _ _ => ?_
  refine Same.bind (Same.run (a_set1_eqv ..)) fun _ _ _ => ?_
  refine Same.bind (Same.run (a_set1_eqv ..)) fun _ _ _ => ?_
  refine Same.bind (Same.run (a_set1_eqv ..)) fun _ _ _ => ?_
  refine Same.bind (Same.run (a_set1_eqv ..)) fun _ _ _ => ?_
  refine Same.bind (Same.run (a_set1_eqv ..)) fun _ _ _ => ?_
  dsimp only
  refine Same.bind (a_load_offsets_same _ _) fun _ _ _ => ?_
  refine Same.bind (a_hash8_loop_same xs ys h ..) fun _ _ _ => ?_
  refine Same.bind (Same.run (a_transpose_vecs_eqv ..)) fun _ _ _ => ?_
  refine Same.bind (Same.op _ _ (rel_writeAt ho _ (by simp only [length_regBytes]))) fun _ _ h0 => ?_
  refine Same.bind (Same.op _ _ (rel_writeAt h0 _ (by simp only [length_regBytes]))) fun _ _ h1 => ?_
  refine Same.bind (Same.op _ _ (rel_writeAt h1 _ (by simp only [length_regBytes]))) fun _ _ h2 => ?_
  refine Same.bind (Same.op _ _ (rel_writeAt h2 _ (by simp only [length_regBytes]))) fun _ _ h3 => ?_
  refine Same.bind (Same.op _ _ (rel_writeAt h3 _ (by simp only [length_regBytes]))) fun _ _ h4 => ?_
  refine Same.bind (Same.op _ _ (rel_writeAt h4 _ (by simp only [length_regBytes]))) fun _ _ h5 => ?_
  refine Same.bind (Same.op _ _ (rel_writeAt h5 _ (by simp only [length_regBytes]))) fun _ _ h6 => ?_
  exact Same.op _ _ (rel_writeAt h6 _ (by simp only [length_regBytes]))

theorem a_transpose_msg_vecs_res (xs : Vector Bytes 8) (n : Nat) :
    (Steps.Avx2.transpose_msg_vecs xs n).res = Model.Avx2.transpose_msg_vecs xs n := by
  unfold Steps.Avx2.transpose_msg_vecs Model.Avx2.transpose_msg_vecs
  simp only [bind_res, tryOp_res, lift_res, ok_bind, a_transpose_vecs_val, pure_res]
  rfl

theorem a_load_offsets_res (t d : U64) : (Steps.Avx2.load_offsets t d).res = Model.Avx2.load_offsets t d := by
  unfold Steps.Avx2.load_offsets Model.Avx2.load_offsets
  simp only [bind_res, tryOp_res, lift_res, ok_bind, pure_res]
  rfl

theorem a_hash8_loop_res (xs : Vector Bytes 8) (blocks : Nat) (a b : M256) (f fe : Byte) (n : Nat) :
    ∀ (block : Nat) (hs : Vector M256 8) (bf : Byte),
      (Steps.Avx2.hash8_loop xs blocks a b f fe n block hs bf).res = Model.Avx2.hash8_loop xs blocks a b f fe n block hs bf := by
  induction n with
  | zero => intros; rfl
  | succ n ih =>
    intro block hs bf
    rw [Steps.Avx2.hash8_loop, Model.Avx2.hash8_loop]
    simp only [bind_res, tryOp_res, lift_res, ok_bind, test_res, a_transpose_msg_vecs_res, a_hash8_block_val, a_set1_val, ih]

theorem a_hash8_res (xs : Vector Bytes 8) (blocks : Nat) (k : Vector Word 8) (t d : U64) (f fs fe : Byte) (out : Bytes) :
    (Steps.Avx2.hash8 xs blocks k t d f fs fe out).res = Model.Avx2.hash8 xs blocks k t d f fs fe out := by
  unfold Steps.Avx2.hash8 Model.Avx2.hash8
  simp only [bind_res, tryOp_res, lift_res, ok_bind, a_set1_val, a_load_offsets_res, a_hash8_loop_res, a_transpose_vecs_val, pure_res]

theorem a_hash_many_loop_same (cap : Nat) (k k' : Vector Word 8) (d : U64) (f fs fe f' fs' fe' : Byte) (xs : List Bytes) :
    ∀ (ys : List Bytes) (t : U64) (out out' : Bytes), SameLens xs ys → SameLen out out' →
      Same SameLen (Steps.Avx2.hash_many_loop cap k d f fs fe xs t out) (Steps.Avx2.hash_many_loop cap k' d f' fs' fe' ys t out') := by
  induction hn : xs.length using Nat.strongRecOn generalizing xs with
  | _ n ih =>
    intro ys t out out' h ho
    subst hn
    rw [Steps.Avx2.hash_many_loop, Steps.Avx2.hash_many_loop]
    have hl := h.length
    have ho' : out.length = out'.length := ho
    by_cases c : Model.Avx2.DEGREE ≤ xs.length ∧ Model.Avx2.DEGREE * OUT_LEN ≤ out.length
    · rw [dif_pos c, dif_pos (by rw [← hl, ← ho']; exact c)]
      refine Same.bind (Same.test _ rfl) fun _ _ _ => ?_
      rw [hl]
      refine Same.bind (Same.op _ _ (arrayRef_lens h _ _)) fun v w hv => ?_
      dsimp only
      refine Same.bind (a_hash8_same v w hv _ _ _ _ _ _ _ _ _ _ _ _ _ ?_) fun r r' hr => ?_
      · show List.length _ = List.length _
        simp only [List.length_take, ho']
      refine Same.bind (Same.op _ _ (RelR.refl _)) fun o _ e => ?_
      subst e
      have hd : 8 ≤ xs.length := c.1
      refine Same.bind (ih _ (by simp only [List.length_drop, Model.Avx2.DEGREE]; omega) _ rfl _ _ _ _ ?_ ?_) fun q q' hq => ?_
      · show List.map _ _ = List.map _ _
        rw [List.map_drop, List.map_drop]
        exact congrArg _ h
      · show List.length _ = List.length _
        simp only [List.length_drop, ho']
      refine Same.pure ?_
      show List.length _ = List.length _
      simp only [List.length_append, show r.length = r'.length from hr, show q.length = q'.length from hq]
    · rw [dif_neg c, dif_neg (by rw [← hl, ← ho']; exact c)]
      refine Same.bind (Same.test _ rfl) fun _ _ _ => ?_
      exact s_hash_many_same _ _ _ _ _ _ _ _ _ _ _ _ _ _ _ h ho

theorem a_hash_many_same (cap : Nat) (k k' : Vector Word 8) (t d : U64) (f fs fe f' fs' fe' : Byte) (xs ys : List Bytes) (out out' : Bytes)
    (h : SameLens xs ys) (ho : SameLen out out') :
    Same SameLen (Steps.Avx2.hash_many cap xs k t d f fs fe out) (Steps.Avx2.hash_many cap ys k' t d f' fs' fe' out') := by
  unfold Steps.Avx2.hash_many
  refine Same.bind (Same.op _ _ (rel_assert (by rw [h.length, show out.length = out'.length from ho]))) fun _ _ _ => ?_
  exact a_hash_many_loop_same _ _ _ _ _ _ _ _ _ _ _ _ _ _ _ h ho

theorem a_hash_many_loop_res (cap : Nat) (k : Vector Word 8) (d : U64) (f fs fe : Byte) (xs : List Bytes) : ∀ (t : U64) (out : Bytes),
    (Steps.Avx2.hash_many_loop cap k d f fs fe xs t out).res = Model.Avx2.hash_many_loop cap k d f fs fe xs t out := by
  induction hn : xs.length using Nat.strongRecOn generalizing xs with
  | _ n ih =>
    intro t out
    subst hn
    rw [Steps.Avx2.hash_many_loop, Model.Avx2.hash_many_loop]
    by_cases c : Model.Avx2.DEGREE ≤ xs.length ∧ Model.Avx2.DEGREE * OUT_LEN ≤ out.length
    · rw [dif_pos c, dif_pos c]
      have hd : 8 ≤ xs.length := c.1
      have ih' := fun t out => ih (xs.drop Model.Avx2.DEGREE).length (by simp only [List.length_drop, Model.Avx2.DEGREE]; omega) _ rfl t out
      simp only [bind_res, tryOp_res, test_res, ok_bind, a_hash8_res, ih', pure_res]
      rfl
    · rw [dif_neg c, dif_neg c]
      simp only [bind_res, test_res, ok_bind, s_hash_many_res]

theorem a_hash_many_res (cap : Nat) (xs : List Bytes) (k : Vector Word 8) (t d : U64) (f fs fe : Byte) (out : Bytes) :
    (Steps.Avx2.hash_many cap xs k t d f fs fe out).res = Model.Avx2.hash_many cap xs k t d f fs fe out := by
  unfold Steps.Avx2.hash_many Model.Avx2.hash_many
  simp only [bind_res, tryOp_res, a_hash_many_loop_res]

end Baokeshed.Proofs.Steps
