import Verif.Spec
import Verif.Model.Portable

namespace Baokeshed.Proofs
open Baokeshed.Model

theorem vec16_ex {α} (v : Vector α 16) : ∃ a0 a1 a2 a3 a4 a5 a6 a7 a8 a9 a10 a11 a12 a13 a14 a15,
    v = #v[a0, a1, a2, a3, a4, a5, a6, a7, a8, a9, a10, a11, a12, a13, a14, a15] := by
  refine ⟨v[0], v[1], v[2], v[3], v[4], v[5], v[6], v[7], v[8], v[9], v[10], v[11], v[12], v[13],
    v[14], v[15], ?_⟩
  ext i hi
  rcases i with _|_|_|_|_|_|_|_|_|_|_|_|_|_|_|_|i
  all_goals first | rfl | omega

/-- the matrix of a 16-word state -/
def toMatrix (v : Vector Word 16) : Spec.Matrix where
  a i := v[i.val]
  b i := v[4 + i.val]
  c i := v[8 + i.val]
  d i := v[12 + i.val]

/-- `Portable.round` with the row of the schedule as parameter -/
def roundP (state : Vector Word 16) (msg : Vector Word 16) (p : Vector (Fin 16) 16) :
    Vector Word 16 :=
  let state := Portable.g state 0 4 8 12 msg[p[0]] msg[p[1]]
  let state := Portable.g state 1 5 9 13 msg[p[2]] msg[p[3]]
  let state := Portable.g state 2 6 10 14 msg[p[4]] msg[p[5]]
  let state := Portable.g state 3 7 11 15 msg[p[6]] msg[p[7]]
  let state := Portable.g state 0 5 10 15 msg[p[8]] msg[p[9]]
  let state := Portable.g state 1 6 11 12 msg[p[10]] msg[p[11]]
  let state := Portable.g state 2 7 8 13 msg[p[12]] msg[p[13]]
  Portable.g state 3 4 9 14 msg[p[14]] msg[p[15]]

theorem g_0_4 (a0 a1 a2 a3 a4 a5 a6 a7 a8 a9 a10 a11 a12 a13 a14 a15 x y : Word) :
    Portable.g #v[a0, a1, a2, a3, a4, a5, a6, a7, a8, a9, a10, a11, a12, a13, a14, a15] 0 4 8 12 x y =
      #v[(Spec.mix a0 a4 a8 a12 x y).1, a1, a2, a3, (Spec.mix a0 a4 a8 a12 x y).2.1, a5, a6, a7, (Spec.mix a0 a4 a8 a12 x y).2.2.1, a9, a10, a11, (Spec.mix a0 a4 a8 a12 x y).2.2.2, a13, a14, a15] := rfl

theorem g_1_5 (a0 a1 a2 a3 a4 a5 a6 a7 a8 a9 a10 a11 a12 a13 a14 a15 x y : Word) :
    Portable.g #v[a0, a1, a2, a3, a4, a5, a6, a7, a8, a9, a10, a11, a12, a13, a14, a15] 1 5 9 13 x y =
      #v[a0, (Spec.mix a1 a5 a9 a13 x y).1, a2, a3, a4, (Spec.mix a1 a5 a9 a13 x y).2.1, a6, a7, a8, (Spec.mix a1 a5 a9 a13 x y).2.2.1, a10, a11, a12, (Spec.mix a1 a5 a9 a13 x y).2.2.2, a14, a15] := rfl

theorem g_2_6 (a0 a1 a2 a3 a4 a5 a6 a7 a8 a9 a10 a11 a12 a13 a14 a15 x y : Word) :
    Portable.g #v[a0, a1, a2, a3, a4, a5, a6, a7, a8, a9, a10, a11, a12, a13, a14, a15] 2 6 10 14 x y =
      #v[a0, a1, (Spec.mix a2 a6 a10 a14 x y).1, a3, a4, a5, (Spec.mix a2 a6 a10 a14 x y).2.1, a7, a8, a9, (Spec.mix a2 a6 a10 a14 x y).2.2.1, a11, a12, a13, (Spec.mix a2 a6 a10 a14 x y).2.2.2, a15] := rfl

theorem g_3_7 (a0 a1 a2 a3 a4 a5 a6 a7 a8 a9 a10 a11 a12 a13 a14 a15 x y : Word) :
    Portable.g #v[a0, a1, a2, a3, a4, a5, a6, a7, a8, a9, a10, a11, a12, a13, a14, a15] 3 7 11 15 x y =
      #v[a0, a1, a2, (Spec.mix a3 a7 a11 a15 x y).1, a4, a5, a6, (Spec.mix a3 a7 a11 a15 x y).2.1, a8, a9, a10, (Spec.mix a3 a7 a11 a15 x y).2.2.1, a12, a13, a14, (Spec.mix a3 a7 a11 a15 x y).2.2.2] := rfl

theorem g_0_5 (a0 a1 a2 a3 a4 a5 a6 a7 a8 a9 a10 a11 a12 a13 a14 a15 x y : Word) :
    Portable.g #v[a0, a1, a2, a3, a4, a5, a6, a7, a8, a9, a10, a11, a12, a13, a14, a15] 0 5 10 15 x y =
      #v[(Spec.mix a0 a5 a10 a15 x y).1, a1, a2, a3, a4, (Spec.mix a0 a5 a10 a15 x y).2.1, a6, a7, a8, a9, (Spec.mix a0 a5 a10 a15 x y).2.2.1, a11, a12, a13, a14, (Spec.mix a0 a5 a10 a15 x y).2.2.2] := rfl

theorem g_1_6 (a0 a1 a2 a3 a4 a5 a6 a7 a8 a9 a10 a11 a12 a13 a14 a15 x y : Word) :
    Portable.g #v[a0, a1, a2, a3, a4, a5, a6, a7, a8, a9, a10, a11, a12, a13, a14, a15] 1 6 11 12 x y =
      #v[a0, (Spec.mix a1 a6 a11 a12 x y).1, a2, a3, a4, a5, (Spec.mix a1 a6 a11 a12 x y).2.1, a7, a8, a9, a10, (Spec.mix a1 a6 a11 a12 x y).2.2.1, (Spec.mix a1 a6 a11 a12 x y).2.2.2, a13, a14, a15] := rfl

theorem g_2_7 (a0 a1 a2 a3 a4 a5 a6 a7 a8 a9 a10 a11 a12 a13 a14 a15 x y : Word) :
    Portable.g #v[a0, a1, a2, a3, a4, a5, a6, a7, a8, a9, a10, a11, a12, a13, a14, a15] 2 7 8 13 x y =
      #v[a0, a1, (Spec.mix a2 a7 a8 a13 x y).1, a3, a4, a5, a6, (Spec.mix a2 a7 a8 a13 x y).2.1, (Spec.mix a2 a7 a8 a13 x y).2.2.1, a9, a10, a11, a12, (Spec.mix a2 a7 a8 a13 x y).2.2.2, a14, a15] := rfl

theorem g_3_4 (a0 a1 a2 a3 a4 a5 a6 a7 a8 a9 a10 a11 a12 a13 a14 a15 x y : Word) :
    Portable.g #v[a0, a1, a2, a3, a4, a5, a6, a7, a8, a9, a10, a11, a12, a13, a14, a15] 3 4 9 14 x y =
      #v[a0, a1, a2, (Spec.mix a3 a4 a9 a14 x y).1, (Spec.mix a3 a4 a9 a14 x y).2.1, a5, a6, a7, a8, (Spec.mix a3 a4 a9 a14 x y).2.2.1, a10, a11, a12, a13, (Spec.mix a3 a4 a9 a14 x y).2.2.2, a15] := rfl


theorem matrix_ext {s t : Spec.Matrix} (ha : ∀ i, s.a i = t.a i) (hb : ∀ i, s.b i = t.b i)
    (hc : ∀ i, s.c i = t.c i) (hd : ∀ i, s.d i = t.d i) : s = t := by
  cases s; cases t; congr <;> funext i
  · exact ha i
  · exact hb i
  · exact hc i
  · exact hd i

theorem roundP_eq (v m : Vector Word 16) (p : Vector (Fin 16) 16) :
    toMatrix (roundP v m p) = Spec.round p (fun i => m[i]) (toMatrix v) := by
  obtain ⟨a0, a1, a2, a3, a4, a5, a6, a7, a8, a9, a10, a11, a12, a13, a14, a15, rfl⟩ := vec16_ex v
  unfold roundP
  simp only [g_0_4, g_1_5, g_2_6, g_3_7, g_0_5, g_1_6, g_2_7, g_3_4]
  apply matrix_ext <;> intro i <;> match i with | 0 | 1 | 2 | 3 => rfl

theorem schedule_eq (r : Fin 7) : MSG_SCHEDULE[r] = Spec.sigma r := by
  revert r; decide

theorem round_eq (v m : Vector Word 16) (r : Fin 7) :
    toMatrix (Portable.round v m r) = Spec.round (Spec.sigma r) (fun i => m[i]) (toMatrix v) := by
  rw [← schedule_eq]
  exact roundP_eq v m _

theorem offset_low_eq (o : U64) : offset_low o = o.extractLsb' 0 32 := by
  apply BitVec.eq_of_getLsbD_eq; intro i hi; simp [offset_low, hi]

theorem offset_high_eq (o : U64) : offset_high o = o.extractLsb' 32 32 := by
  apply BitVec.eq_of_getLsbD_eq; intro i hi; simp [offset_high, hi]

theorem blockWord_eq (b : Vector Byte 64) (i : Fin 16) :
    (Portable.words_from_block b)[i] = Spec.blockWord b i := by
  rcases i with ⟨i, hi⟩
  rcases i with _|_|_|_|_|_|_|_|_|_|_|_|_|_|_|_|i
  all_goals first | rfl | omega

theorem compress_inner_eq (cv : Vector Word 8) (block : Vector Byte 64) (len : Byte) (off : U64)
    (fl : Byte) :
    toMatrix (Portable.compress_inner cv block len off fl) =
      Spec.permuted ⟨cv, block, len, off, fl⟩ := by
  have hfin : List.finRange 7 = [0, 1, 2, 3, 4, 5, 6] := by decide
  have hmsg : (fun i : Fin 16 => (Portable.words_from_block block)[i]) = Spec.blockWord block :=
    funext (blockWord_eq block)
  unfold Spec.permuted Portable.compress_inner
  simp only [hfin, List.foldl_cons, List.foldl_nil, round_eq, hmsg]
  congr 7
  apply matrix_ext <;> intro i <;> match i with
    | 0 | 1 | 2 | 3 => first | rfl | exact offset_low_eq off | exact offset_high_eq off

theorem compress_eq (cv : Vector Word 8) (block : Vector Byte 64) (len : Byte) (off : U64)
    (fl : Byte) :
    Portable.compress cv block len off fl = Spec.compress ⟨cv, block, len, off, fl⟩ := by
  unfold Portable.compress Spec.compress Spec.outLow
  rw [← compress_inner_eq]
  generalize Portable.compress_inner cv block len off fl = v
  congr 1

theorem leBytes_flatMap (ws : List Word) : ws.flatMap leBytes = Spec.wordBytes ws := rfl

theorem compress_xof_eq (cv : Vector Word 8) (block : Vector Byte 64) (len : Byte) (off : U64)
    (fl : Byte) :
    Portable.compress_xof cv block len off fl = Spec.outBytes ⟨cv, block, len, off, fl⟩ := by
  apply Vector.toList_inj.1
  have h := compress_inner_eq cv block len off fl
  have hlo : (Spec.outLow ⟨cv, block, len, off, fl⟩).toList = _ :=
    congrArg Vector.toList (compress_eq cv block len off fl).symm
  have hhi : Spec.outHigh ⟨cv, block, len, off, fl⟩ =
      Vector.ofFn fun i : Fin 8 => (Portable.compress_inner cv block len off fl)[i.val + 8] ^^^ cv[i] := by
    unfold Spec.outHigh
    rw [← h]
    generalize Portable.compress_inner cv block len off fl = v
    congr 1
  have hfin : List.finRange 8 = [0, 1, 2, 3, 4, 5, 6, 7] := by decide
  have hx : (Spec.outBytes ⟨cv, block, len, off, fl⟩).toList =
      Spec.wordBytes ((Spec.outLow ⟨cv, block, len, off, fl⟩).toList ++
        (Spec.outHigh ⟨cv, block, len, off, fl⟩).toList) := by
    simp only [Spec.outBytes, Vector.toList_mk]
  rw [hx, hlo, hhi]
  have hy : (Portable.compress_xof cv block len off fl).toList =
      Spec.wordBytes (((List.finRange 8).map fun i : Fin 8 =>
          (Portable.compress_inner cv block len off fl)[i.val] ^^^
            (Portable.compress_inner cv block len off fl)[i.val + 8]) ++
        (List.finRange 8).map fun i : Fin 8 =>
          (Portable.compress_inner cv block len off fl)[i.val + 8] ^^^ cv[i]) := by
    simp only [Portable.compress_xof, Vector.toList_mk, leBytes_flatMap]
  rw [hy]
  unfold Portable.compress
  generalize Portable.compress_inner cv block len off fl = v
  congr 1

theorem vec8_ex {α} (v : Vector α 8) : ∃ a0 a1 a2 a3 a4 a5 a6 a7,
    v = #v[a0, a1, a2, a3, a4, a5, a6, a7] := by
  refine ⟨v[0], v[1], v[2], v[3], v[4], v[5], v[6], v[7], ?_⟩
  ext i hi
  rcases i with _|_|_|_|_|_|_|_|i
  all_goals first | rfl | omega

theorem bytes_from_state_words_eq (w : Vector Word 8) :
    bytes_from_state_words w = Spec.cvBytes w := by
  obtain ⟨a0, a1, a2, a3, a4, a5, a6, a7, rfl⟩ := vec8_ex w
  rfl

end Baokeshed.Proofs
