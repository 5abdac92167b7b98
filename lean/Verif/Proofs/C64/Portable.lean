import Verif.Spec64
import Verif.Model.Portable64
import Verif.Proofs.Portable

/-! # portable64.rs: the compression function -/

namespace Baokeshed.Proofs.W64
open Baokeshed.Model Baokeshed.Model.Portable64

/-- the matrix of a 16-word state -/
def toMatrix (v : Vector U64 16) : Spec64.Matrix where
  a i := v[i.val]
  b i := v[4 + i.val]
  c i := v[8 + i.val]
  d i := v[12 + i.val]

/-- `Portable64.round` with the row of the schedule as parameter -/
def roundP (state : Vector U64 16) (msg : Vector U64 16) (p : Vector (Fin 16) 16) :
    Vector U64 16 :=
  let state := Portable64.g state 0 4 8 12 msg[p[0]] msg[p[1]]
  let state := Portable64.g state 1 5 9 13 msg[p[2]] msg[p[3]]
  let state := Portable64.g state 2 6 10 14 msg[p[4]] msg[p[5]]
  let state := Portable64.g state 3 7 11 15 msg[p[6]] msg[p[7]]
  let state := Portable64.g state 0 5 10 15 msg[p[8]] msg[p[9]]
  let state := Portable64.g state 1 6 11 12 msg[p[10]] msg[p[11]]
  let state := Portable64.g state 2 7 8 13 msg[p[12]] msg[p[13]]
  Portable64.g state 3 4 9 14 msg[p[14]] msg[p[15]]

theorem g_0_4 (a0 a1 a2 a3 a4 a5 a6 a7 a8 a9 a10 a11 a12 a13 a14 a15 x y : U64) :
    Portable64.g #v[a0, a1, a2, a3, a4, a5, a6, a7, a8, a9, a10, a11, a12, a13, a14, a15] 0 4 8 12 x y =
      #v[(Spec64.mix a0 a4 a8 a12 x y).1, a1, a2, a3, (Spec64.mix a0 a4 a8 a12 x y).2.1, a5, a6, a7, (Spec64.mix a0 a4 a8 a12 x y).2.2.1, a9, a10, a11, (Spec64.mix a0 a4 a8 a12 x y).2.2.2, a13, a14, a15] := rfl

theorem g_1_5 (a0 a1 a2 a3 a4 a5 a6 a7 a8 a9 a10 a11 a12 a13 a14 a15 x y : U64) :
    Portable64.g #v[a0, a1, a2, a3, a4, a5, a6, a7, a8, a9, a10, a11, a12, a13, a14, a15] 1 5 9 13 x y =
      #v[a0, (Spec64.mix a1 a5 a9 a13 x y).1, a2, a3, a4, (Spec64.mix a1 a5 a9 a13 x y).2.1, a6, a7, a8, (Spec64.mix a1 a5 a9 a13 x y).2.2.1, a10, a11, a12, (Spec64.mix a1 a5 a9 a13 x y).2.2.2, a14, a15] := rfl

theorem g_2_6 (a0 a1 a2 a3 a4 a5 a6 a7 a8 a9 a10 a11 a12 a13 a14 a15 x y : U64) :
    Portable64.g #v[a0, a1, a2, a3, a4, a5, a6, a7, a8, a9, a10, a11, a12, a13, a14, a15] 2 6 10 14 x y =
      #v[a0, a1, (Spec64.mix a2 a6 a10 a14 x y).1, a3, a4, a5, (Spec64.mix a2 a6 a10 a14 x y).2.1, a7, a8, a9, (Spec64.mix a2 a6 a10 a14 x y).2.2.1, a11, a12, a13, (Spec64.mix a2 a6 a10 a14 x y).2.2.2, a15] := rfl

theorem g_3_7 (a0 a1 a2 a3 a4 a5 a6 a7 a8 a9 a10 a11 a12 a13 a14 a15 x y : U64) :
    Portable64.g #v[a0, a1, a2, a3, a4, a5, a6, a7, a8, a9, a10, a11, a12, a13, a14, a15] 3 7 11 15 x y =
      #v[a0, a1, a2, (Spec64.mix a3 a7 a11 a15 x y).1, a4, a5, a6, (Spec64.mix a3 a7 a11 a15 x y).2.1, a8, a9, a10, (Spec64.mix a3 a7 a11 a15 x y).2.2.1, a12, a13, a14, (Spec64.mix a3 a7 a11 a15 x y).2.2.2] := rfl

theorem g_0_5 (a0 a1 a2 a3 a4 a5 a6 a7 a8 a9 a10 a11 a12 a13 a14 a15 x y : U64) :
    Portable64.g #v[a0, a1, a2, a3, a4, a5, a6, a7, a8, a9, a10, a11, a12, a13, a14, a15] 0 5 10 15 x y =
      #v[(Spec64.mix a0 a5 a10 a15 x y).1, a1, a2, a3, a4, (Spec64.mix a0 a5 a10 a15 x y).2.1, a6, a7, a8, a9, (Spec64.mix a0 a5 a10 a15 x y).2.2.1, a11, a12, a13, a14, (Spec64.mix a0 a5 a10 a15 x y).2.2.2] := rfl

theorem g_1_6 (a0 a1 a2 a3 a4 a5 a6 a7 a8 a9 a10 a11 a12 a13 a14 a15 x y : U64) :
    Portable64.g #v[a0, a1, a2, a3, a4, a5, a6, a7, a8, a9, a10, a11, a12, a13, a14, a15] 1 6 11 12 x y =
      #v[a0, (Spec64.mix a1 a6 a11 a12 x y).1, a2, a3, a4, a5, (Spec64.mix a1 a6 a11 a12 x y).2.1, a7, a8, a9, a10, (Spec64.mix a1 a6 a11 a12 x y).2.2.1, (Spec64.mix a1 a6 a11 a12 x y).2.2.2, a13, a14, a15] := rfl

theorem g_2_7 (a0 a1 a2 a3 a4 a5 a6 a7 a8 a9 a10 a11 a12 a13 a14 a15 x y : U64) :
    Portable64.g #v[a0, a1, a2, a3, a4, a5, a6, a7, a8, a9, a10, a11, a12, a13, a14, a15] 2 7 8 13 x y =
      #v[a0, a1, (Spec64.mix a2 a7 a8 a13 x y).1, a3, a4, a5, a6, (Spec64.mix a2 a7 a8 a13 x y).2.1, (Spec64.mix a2 a7 a8 a13 x y).2.2.1, a9, a10, a11, a12, (Spec64.mix a2 a7 a8 a13 x y).2.2.2, a14, a15] := rfl

theorem g_3_4 (a0 a1 a2 a3 a4 a5 a6 a7 a8 a9 a10 a11 a12 a13 a14 a15 x y : U64) :
    Portable64.g #v[a0, a1, a2, a3, a4, a5, a6, a7, a8, a9, a10, a11, a12, a13, a14, a15] 3 4 9 14 x y =
      #v[a0, a1, a2, (Spec64.mix a3 a4 a9 a14 x y).1, (Spec64.mix a3 a4 a9 a14 x y).2.1, a5, a6, a7, a8, (Spec64.mix a3 a4 a9 a14 x y).2.2.1, a10, a11, a12, a13, (Spec64.mix a3 a4 a9 a14 x y).2.2.2, a15] := rfl


theorem matrix_ext {s t : Spec64.Matrix} (ha : ∀ i, s.a i = t.a i) (hb : ∀ i, s.b i = t.b i)
    (hc : ∀ i, s.c i = t.c i) (hd : ∀ i, s.d i = t.d i) : s = t := by
  cases s; cases t; congr <;> funext i
  · exact ha i
  · exact hb i
  · exact hc i
  · exact hd i

theorem roundP_eq (v m : Vector U64 16) (p : Vector (Fin 16) 16) :
    toMatrix (roundP v m p) = Spec64.round p (fun i => m[i]) (toMatrix v) := by
  obtain ⟨a0, a1, a2, a3, a4, a5, a6, a7, a8, a9, a10, a11, a12, a13, a14, a15, rfl⟩ := vec16_ex v
  unfold roundP
  simp only [g_0_4, g_1_5, g_2_6, g_3_7, g_0_5, g_1_6, g_2_7, g_3_4]
  apply matrix_ext <;> intro i <;> match i with | 0 | 1 | 2 | 3 => rfl

theorem schedule_eq (r : Fin 8) : Portable64.MSG_SCHEDULE[r] = Spec64.sigma r := by
  revert r; decide

theorem round_eq (v m : Vector U64 16) (r : Fin 8) :
    toMatrix (Portable64.round v m r) = Spec64.round (Spec64.sigma r) (fun i => m[i]) (toMatrix v) := by
  rw [← schedule_eq]
  exact roundP_eq v m _

theorem blockWord_eq (b : Vector Byte 128) (i : Fin 16) :
    (words_from_block b)[i] = Spec64.blockWord b i := by
  rcases i with ⟨i, hi⟩
  rcases i with _|_|_|_|_|_|_|_|_|_|_|_|_|_|_|_|i
  all_goals first | rfl | omega

/-- initial state of the code -/
def init16 (cv : Vector U64 4) (len : U64) (off : U64) (fl : U64) : Vector U64 16 :=
  #v[cv[0], cv[1], cv[2], cv[3], Portable64.IV[4], Portable64.IV[5], Portable64.IV[6], Portable64.IV[7], Portable64.IV[0], Portable64.IV[1], Portable64.IV[2], Portable64.IV[3], off, Portable64.IV[5], len, fl]

theorem init_eq (cv : Vector U64 4) (block : Vector Byte 128) (len : Byte) (off : U64) (fl : Byte) :
    toMatrix (init16 cv (len.setWidth 64) off (fl.setWidth 64)) = Spec64.initial ⟨cv, block, len, off, fl⟩ := by
  apply matrix_ext <;> intro i <;> match i with
    | 0 | 1 | 2 | 3 => rfl

theorem compress_inner_eq (cv : Vector U64 4) (block : Vector Byte 128) (len : Byte) (off : U64)
    (fl : Byte) :
    toMatrix (compress_inner cv block len off fl) =
      Spec64.permuted ⟨cv, block, len, off, fl⟩ := by
  have hfin : List.finRange 8 = [0, 1, 2, 3, 4, 5, 6, 7] := by decide
  have hmsg : (fun i : Fin 16 => (words_from_block block)[i]) = Spec64.blockWord block :=
    funext (blockWord_eq block)
  unfold Spec64.permuted compress_inner
  simp only [hfin, List.foldl_cons, List.foldl_nil, round_eq, hmsg]
  rw [← init_eq cv block len off fl]
  rfl

theorem compress_eq (cv : Vector U64 4) (block : Vector Byte 128) (len : Byte) (off : U64)
    (fl : Byte) :
    Portable64.compress cv block len off fl = Spec64.compress ⟨cv, block, len, off, fl⟩ := by
  unfold Portable64.compress Spec64.compress
  rw [← compress_inner_eq]
  generalize compress_inner cv block len off fl = v
  refine congrArg Vector.ofFn (funext fun i => ?_)
  match i with | 0 | 1 | 2 | 3 => rfl

theorem wordBytes_eq (w : U64) : Spec64.wordBytes w = leBytes64 w := rfl

/-- the sixteen words of the extended output -/
def xofWords (v : Vector U64 16) (cv : Vector U64 4) : List U64 :=
  ((List.finRange 4).map fun i : Fin 4 => v[i.val] ^^^ v[i.val + 4]) ++
    ((List.finRange 4).map fun i : Fin 4 => v[i.val + 4] ^^^ cv[i]) ++
    ((List.finRange 8).map fun i : Fin 8 => v[i.val + 8])

theorem xofWords_eq (v : Vector U64 16) (cv : Vector U64 4) :
    xofWords v cv = ((List.finRange 4).map fun i => (toMatrix v).a i ^^^ (toMatrix v).b i) ++
      ((List.finRange 4).map fun i => (toMatrix v).b i ^^^ cv[i]) ++
      (List.finRange 4).map (toMatrix v).c ++ (List.finRange 4).map (toMatrix v).d := by
  have h4 : List.finRange 4 = [0, 1, 2, 3] := by decide
  have h8 : List.finRange 8 = [0, 1, 2, 3, 4, 5, 6, 7] := by decide
  unfold xofWords
  rw [h4, h8]
  rfl

theorem xof_toList (cv : Vector U64 4) (block : Vector Byte 128) (len : Byte) (off : U64)
    (fl : Byte) :
    (compress_xof cv block len off fl).toList =
      (xofWords (compress_inner cv block len off fl) cv).flatMap leBytes64 := by
  unfold compress_xof xofWords
  rfl

theorem compress_xof_eq (cv : Vector U64 4) (block : Vector Byte 128) (len : Byte) (off : U64)
    (fl : Byte) :
    (compress_xof cv block len off fl).toList = Spec64.outBytes ⟨cv, block, len, off, fl⟩ := by
  have hw : Spec64.wordBytes = leBytes64 := funext wordBytes_eq
  rw [xof_toList, xofWords_eq, compress_inner_eq, ← hw]
  rfl

theorem bytes_from_state_words_eq (w : Vector U64 4) :
    (Portable64.bytes_from_state_words w).toList = Spec64.cvBytes w := by
  have e : w = #v[w[0], w[1], w[2], w[3]] := by
    apply Vector.ext; intro i hi
    rcases i with _|_|_|_|i
    all_goals first | rfl | omega
  rw [e]
  have hw : Spec64.wordBytes = leBytes64 := funext wordBytes_eq
  unfold Spec64.cvBytes
  rw [hw]
  simp [Portable64.bytes_from_state_words, List.flatMap_cons]

end Baokeshed.Proofs.W64
