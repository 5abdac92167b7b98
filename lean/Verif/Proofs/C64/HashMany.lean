import Verif.Proofs.C64.Transposed
import Verif.Proofs.HashMany

/-! # The loops over blocks and inputs, 64-bit variant -/

set_option linter.unusedVariables false
set_option linter.unusedSimpArgs false

namespace Baokeshed.Proofs.W64
open Baokeshed.Model Baokeshed.Model.Portable64

/-! ## blocks of a slice -/

theorem pad_getElem (b : Bytes) (i : Nat) (hi : i < 128) : (Spec64.pad b)[i] = b.getD i 0 := by
  simp [Spec64.pad]

theorem pad_take (b : Bytes) : Spec64.pad (b.take 128) = Spec64.pad b := by
  apply Vector.ext; intro i hi
  simp [pad_getElem, List.getD_eq_getElem?_getD, List.getElem?_take, hi]

theorem arrayRef_block (s : Bytes) (off : Nat) (h : off + 128 ≤ s.length) :
    arrayRef s off 128 = .ok (Spec64.pad (s.drop off)) := by
  rw [arrayRef, dif_pos h]
  refine congrArg Except.ok (Vector.ext fun i hi => ?_)
  rw [pad_getElem]
  simp [List.getD_eq_getElem?_getD, List.getElem?_drop]
  rw [List.getElem?_eq_getElem (by omega)]; rfl

/-- chaining value after absorbing the whole 128-byte blocks of `s` -/
def cvLoop (flags fe : Byte) (off : U64) (cv : Vector U64 4) (bf : Byte) (s : Bytes) : Vector U64 4 :=
  if _h : 128 ≤ s.length then
    cvLoop flags fe off
      (Spec64.compress ⟨cv, Spec64.pad s, 128, off, if s.length = 128 then bf ||| fe else bf⟩) flags
      (s.drop 128)
  else cv
termination_by s.length
decreasing_by simp; omega

theorem hash1_loop_eq (flags fe : Byte) (off : U64) (cv : Vector U64 4) (bf : Byte) (s : Bytes) :
    Portable64.hash1_loop flags fe off cv bf s = .ok (cvLoop flags fe off cv bf s) := by
  induction hn : s.length using Nat.strongRecOn generalizing s cv bf with
  | _ n ih =>
    rw [Portable64.hash1_loop, cvLoop]
    split
    next h =>
      rw [arrayRef_block s 0 (by simpa using h)]
      simp only [bind_ok, List.drop_zero, compress_eq]
      have h' : 128 ≤ s.length := h
      exact ih (s.drop 128).length (by rw [List.length_drop]; omega) _ _ _ rfl
    next h => rfl

theorem hash1_eq (input : Bytes) (key : Vector U64 4) (off : U64) (flags fs fe : Byte)
    (h : input.length % 128 = 0) : Portable64.hash1 input key off flags fs fe =
      .ok (Portable64.bytes_from_state_words (cvLoop flags fe off key (flags ||| fs) input)) := by
  simp only [Portable64.hash1, assertR, Portable64.BLOCK_LEN, h, hash1_loop_eq, bind_ok, pure_eq, if_true]

/-! ## one block, all lanes -/

/-- `portable64::compress` on message words -/
def compressW (cv : Vector U64 4) (m : Vector U64 16) (off len fl : U64) : Vector U64 4 :=
  let s : Vector U64 16 := init16 cv len off fl
  let s := Portable64.round s m 0
  let s := Portable64.round s m 1
  let s := Portable64.round s m 2
  let s := Portable64.round s m 3
  let s := Portable64.round s m 4
  let s := Portable64.round s m 5
  let s := Portable64.round s m 6
  let s := Portable64.round s m 7
  Vector.ofFn fun i : Fin 4 => s[i.val] ^^^ s[i.val + 4]

theorem compressW_eq (cv : Vector U64 4) (b : Vector Byte 128) (len : Byte) (off : U64) (fl : Byte) :
    compressW cv (Portable64.words_from_block b) off (len.setWidth 64)
      (fl.setWidth 64) = Spec64.compress ⟨cv, b, len, off, fl⟩ :=
  compress_eq cv b len off fl

/-- the output step of the transposed compression -/
def Ops.out {V : Type} (o : Ops V) (v : Vector V 16) : Vector V 4 :=
  #v[o.xor v[0] v[4], o.xor v[1] v[5], o.xor v[2] v[6], o.xor v[3] v[7]]

theorem Ops.out_lane {V : Type} (o : Ops V) (L : V → U64) (hL : LaneHom o L) (v : Vector V 16) :
    (o.out v).map L = Vector.ofFn fun i : Fin 4 => (v.map L)[i.val] ^^^ (v.map L)[i.val + 4] := by
  apply Vector.ext; intro i hi
  rw [Vector.getElem_map, Vector.getElem_ofFn, Vector.getElem_map, Vector.getElem_map]
  rcases i with _|_|_|_|i
  all_goals first | omega | exact hL.xor _ _

/-- the transposed compression -/
def Ops.block {V : Type} (o : Ops V) (iv : Vector V 8) (h : Vector V 4) (off len fl : V)
    (m : Vector V 16) : Vector V 4 :=
  let v : Vector V 16 := #v[h[0], h[1], h[2], h[3], iv[4], iv[5], iv[6], iv[7],
    iv[0], iv[1], iv[2], iv[3], off, iv[5], len, fl]
  let v := o.round v m (Portable64.MSG_SCHEDULE.get 0)
  let v := o.round v m (Portable64.MSG_SCHEDULE.get 1)
  let v := o.round v m (Portable64.MSG_SCHEDULE.get 2)
  let v := o.round v m (Portable64.MSG_SCHEDULE.get 3)
  let v := o.round v m (Portable64.MSG_SCHEDULE.get 4)
  let v := o.round v m (Portable64.MSG_SCHEDULE.get 5)
  let v := o.round v m (Portable64.MSG_SCHEDULE.get 6)
  let v := o.round v m (Portable64.MSG_SCHEDULE.get 7)
  o.out v

theorem roundP_schedule (v m : Vector U64 16) (r : Fin 8) :
    roundP v m (Portable64.MSG_SCHEDULE.get r) = Portable64.round v m r := rfl

theorem Ops.block_lane {V : Type} (o : Ops V) (L : V → U64) (hL : LaneHom o L) (iv : Vector V 8)
    (h : Vector V 4) (off len fl : V) (m : Vector V 16) (hiv : iv.map L = Portable64.IV) :
    (o.block iv h off len fl m).map L =
      compressW (h.map L) (m.map L) (L off) (L len) (L fl) := by
  unfold Ops.block compressW
  have e : (#v[h[0], h[1], h[2], h[3], iv[4], iv[5], iv[6], iv[7],
      iv[0], iv[1], iv[2], iv[3], off, iv[5], len, fl]).map L = init16 (h.map L) (L len) (L off) (L fl) := by
    rw [map16, init16, ← hiv]; simp only [Vector.getElem_map]
  simp only [← e, ← roundP_schedule, ← o.round_lane L hL, o.out_lane L hL]

/-! ## the loop over blocks -/

/-- the common shape of the transposed loops -/
def loopG {V : Type} (ld : Nat → R (Vector V 16)) (step : Vector V 4 → Byte → Vector V 16 → Vector V 4)
    (blocks : Nat) (flags fe : Byte) : (n block : Nat) → Vector V 4 → Byte → R (Vector V 4)
  | 0, _, h, _ => .ok h
  | n + 1, block, h, bf => do
    let bf := if block + 1 = blocks then bf ||| fe else bf
    let m ← ld block
    loopG ld step blocks flags fe n (block + 1) (step h bf m) flags

theorem loopG_lane {V : Type} {I : Type} (L : I → V → U64) (inp : I → Bytes) (off : I → U64)
    (ld : Nat → R (Vector V 16)) (step : Vector V 4 → Byte → Vector V 16 → Vector V 4)
    (blocks : Nat) (flags fe : Byte)
    (hlen : ∀ i, (inp i).length = 128 * blocks)
    (hld : ∀ b < blocks, ∃ m, ld b = .ok m ∧
      ∀ i, m.map (L i) = Portable64.words_from_block (Spec64.pad ((inp i).drop (128 * b))))
    (hstep : ∀ i h bf m, (step h bf m).map (L i) =
      compressW (h.map (L i)) (m.map (L i)) (off i)
        (BitVec.setWidth 64 (128 : Byte)) (BitVec.setWidth 64 bf))
    (n block : Nat) (hb : block + n = blocks) (h : Vector V 4) (bf : Byte) :
    ∃ h', loopG ld step blocks flags fe n block h bf = .ok h' ∧
      ∀ i, h'.map (L i) = cvLoop flags fe (off i) (h.map (L i)) bf ((inp i).drop (128 * block)) := by
  induction n generalizing block h bf with
  | zero =>
    refine ⟨h, rfl, fun i => ?_⟩
    rw [cvLoop, dif_neg]
    simp [hlen]; omega
  | succ n ih =>
    obtain ⟨m, hm, hw⟩ := hld block (by omega)
    obtain ⟨h', e, hh⟩ := ih (block + 1) (by omega)
      (step h (if block + 1 = blocks then bf ||| fe else bf) m) flags
    refine ⟨h', ?_, fun i => ?_⟩
    · simp only [loopG, hm, bind_ok]; exact e
    · rw [hh i, hstep, hw, compressW_eq]
      conv => rhs; rw [cvLoop]
      rw [dif_pos (by simp [hlen]; omega), List.drop_drop]
      have : ((inp i).drop (128 * block)).length = 128 ↔ block + 1 = blocks := by simp [hlen]; omega
      simp only [this, Nat.mul_succ]

end Baokeshed.Proofs.W64
