import Verif.Proofs.Sse41Compress
import Verif.Model.Avx2

/-! # `hash_many`: all implementations compute the same bytes -/

set_option linter.unusedVariables false
set_option linter.unusedSimpArgs false

namespace Baokeshed.Proofs
open Baokeshed.Model

@[simp] theorem bind_ok {α β} (a : α) (f : α → R β) : (Except.ok a >>= f) = f a := rfl
@[simp] theorem bind_error {α β} (e : Panic) (f : α → R β) : ((Except.error e : R α) >>= f) = .error e := rfl
@[simp] theorem pure_eq {α} (a : α) : (pure a : R α) = .ok a := rfl

/-! ## blocks of a slice -/

theorem pad_getElem (b : Bytes) (i : Nat) (hi : i < 64) : (Spec.pad b)[i] = b.getD i 0 := by
  simp [Spec.pad]

theorem pad_take (b : Bytes) : Spec.pad (b.take 64) = Spec.pad b := by
  apply Vector.ext; intro i hi
  simp [pad_getElem, List.getD_eq_getElem?_getD, List.getElem?_take, hi]

theorem arrayRef_block (s : Bytes) (off : Nat) (h : off + 64 ≤ s.length) :
    arrayRef s off 64 = .ok (Spec.pad (s.drop off)) := by
  rw [arrayRef, dif_pos h]
  refine congrArg Except.ok (Vector.ext fun i hi => ?_)
  rw [pad_getElem]
  simp [List.getD_eq_getElem?_getD, List.getElem?_drop]
  rw [List.getElem?_eq_getElem (by omega)]; rfl

/-- chaining value after absorbing the whole 64-byte blocks of `s` -/
def cvLoop (flags fe : Byte) (off : U64) (cv : Vector Word 8) (bf : Byte) (s : Bytes) : Vector Word 8 :=
  if _h : 64 ≤ s.length then
    cvLoop flags fe off
      (Spec.compress ⟨cv, Spec.pad s, 64, off, if s.length = 64 then bf ||| fe else bf⟩) flags (s.drop 64)
  else cv
termination_by s.length
decreasing_by simp; omega

theorem hash1_loop_eq (flags fe : Byte) (off : U64) (cv : Vector Word 8) (bf : Byte) (s : Bytes) :
    Portable.hash1_loop flags fe off cv bf s = .ok (cvLoop flags fe off cv bf s) := by
  induction hn : s.length using Nat.strongRecOn generalizing s cv bf with
  | _ n ih =>
    rw [Portable.hash1_loop, cvLoop]
    split
    next h =>
      rw [arrayRef_block s 0 (by simpa using h)]
      simp only [bind_ok, List.drop_zero, compress_eq]
      have h' : 64 ≤ s.length := h
      exact ih (s.drop 64).length (by rw [List.length_drop]; omega) _ _ _ rfl
    next h => rfl

theorem sse41_hash1_loop_eq (flags fe : Byte) (off : U64) (cv : Vector Word 8) (bf : Byte) (s : Bytes) :
    Sse41.hash1_loop flags fe off cv bf s = .ok (cvLoop flags fe off cv bf s) := by
  induction hn : s.length using Nat.strongRecOn generalizing s cv bf with
  | _ n ih =>
    rw [Sse41.hash1_loop, cvLoop]
    split
    next h =>
      rw [arrayRef_block s 0 (by simpa using h)]
      simp only [bind_ok, List.drop_zero, sse41_compress_eq, compress_eq]
      have h' : 64 ≤ s.length := h
      exact ih (s.drop 64).length (by rw [List.length_drop]; omega) _ _ _ rfl
    next h => rfl

theorem hash1_eq (input : Bytes) (key : Vector Word 8) (off : U64) (flags fs fe : Byte)
    (h : input.length % 64 = 0) : Portable.hash1 input key off flags fs fe =
      .ok (Spec.cvBytes (cvLoop flags fe off key (flags ||| fs) input)) := by
  simp only [Portable.hash1, assertR, BLOCK_LEN, h, hash1_loop_eq, bind_ok, pure_eq, if_true,
    bytes_from_state_words_eq]

theorem sse41_hash1_eq (input : Bytes) (key : Vector Word 8) (off : U64) (flags fs fe : Byte) :
    Sse41.hash1 input key off flags fs fe = Portable.hash1 input key off flags fs fe := by
  simp only [Sse41.hash1, Portable.hash1, sse41_hash1_loop_eq, hash1_loop_eq, memOfWords_eq]

/-! ## one block, all lanes -/

/-- `portable::compress` on message words -/
def compressW (cv : Vector Word 8) (m : Vector Word 16) (lo hi len fl : Word) : Vector Word 8 :=
  let s : Vector Word 16 := #v[cv[0], cv[1], cv[2], cv[3], cv[4], cv[5], cv[6], cv[7],
    IV[0], IV[1], IV[2], IV[3], lo, hi, len, fl]
  let s := Portable.round s m 0
  let s := Portable.round s m 1
  let s := Portable.round s m 2
  let s := Portable.round s m 3
  let s := Portable.round s m 4
  let s := Portable.round s m 5
  let s := Portable.round s m 6
  Vector.ofFn fun i : Fin 8 => s[i.val] ^^^ s[i.val + 8]

theorem compressW_eq (cv : Vector Word 8) (b : Vector Byte 64) (len : Byte) (off : U64) (fl : Byte) :
    compressW cv (Portable.words_from_block b) (offset_low off) (offset_high off) (len.setWidth 32)
      (fl.setWidth 32) = Spec.compress ⟨cv, b, len, off, fl⟩ :=
  compress_eq cv b len off fl

/-- the output step of the transposed compression -/
def Ops.out {V : Type} (o : Ops V) (v : Vector V 16) : Vector V 8 :=
  #v[o.xor v[0] v[8], o.xor v[1] v[9], o.xor v[2] v[10], o.xor v[3] v[11],
     o.xor v[4] v[12], o.xor v[5] v[13], o.xor v[6] v[14], o.xor v[7] v[15]]

theorem Ops.out_lane {V : Type} (o : Ops V) (L : V → Word) (hL : LaneHom o L) (v : Vector V 16) :
    (o.out v).map L = Vector.ofFn fun i : Fin 8 => (v.map L)[i.val] ^^^ (v.map L)[i.val + 8] := by
  apply Vector.ext; intro i hi
  rw [Vector.getElem_map, Vector.getElem_ofFn, Vector.getElem_map, Vector.getElem_map]
  rcases i with _|_|_|_|_|_|_|_|i
  all_goals first | omega | exact hL.xor _ _

/-- the transposed compression -/
def Ops.block {V : Type} (o : Ops V) (iv0 iv1 iv2 iv3 : V) (h : Vector V 8) (lo hi len fl : V)
    (m : Vector V 16) : Vector V 8 :=
  let v : Vector V 16 := #v[h[0], h[1], h[2], h[3], h[4], h[5], h[6], h[7], iv0, iv1, iv2, iv3,
    lo, hi, len, fl]
  let v := o.round v m (MSG_SCHEDULE.get 0)
  let v := o.round v m (MSG_SCHEDULE.get 1)
  let v := o.round v m (MSG_SCHEDULE.get 2)
  let v := o.round v m (MSG_SCHEDULE.get 3)
  let v := o.round v m (MSG_SCHEDULE.get 4)
  let v := o.round v m (MSG_SCHEDULE.get 5)
  let v := o.round v m (MSG_SCHEDULE.get 6)
  o.out v

theorem roundP_schedule (v m : Vector Word 16) (r : Fin 7) :
    roundP v m (MSG_SCHEDULE.get r) = Portable.round v m r := rfl

theorem Ops.block_lane {V : Type} (o : Ops V) (L : V → Word) (hL : LaneHom o L) (iv0 iv1 iv2 iv3 : V)
    (h : Vector V 8) (lo hi len fl : V) (m : Vector V 16) (h0 : L iv0 = IV[0]) (h1 : L iv1 = IV[1])
    (h2 : L iv2 = IV[2]) (h3 : L iv3 = IV[3]) :
    (o.block iv0 iv1 iv2 iv3 h lo hi len fl m).map L =
      compressW (h.map L) (m.map L) (L lo) (L hi) (L len) (L fl) := by
  unfold Ops.block compressW
  have e : (#v[h[0], h[1], h[2], h[3], h[4], h[5], h[6], h[7], iv0, iv1, iv2, iv3,
      lo, hi, len, fl]).map L = #v[(h.map L)[0], (h.map L)[1], (h.map L)[2], (h.map L)[3], (h.map L)[4],
      (h.map L)[5], (h.map L)[6], (h.map L)[7], IV[0], IV[1], IV[2], IV[3], L lo, L hi, L len, L fl] := by
    rw [map16]; simp only [Vector.getElem_map, h0, h1, h2, h3]
  simp only [← e, ← roundP_schedule, ← o.round_lane L hL, o.out_lane L hL]

/-! ## the loop over blocks -/

/-- the common shape of `hash4`, `hash8`, ... loops -/
def loopG {V : Type} (ld : Nat → R (Vector V 16)) (step : Vector V 8 → Byte → Vector V 16 → Vector V 8)
    (blocks : Nat) (flags fe : Byte) : (n block : Nat) → Vector V 8 → Byte → R (Vector V 8)
  | 0, _, h, _ => .ok h
  | n + 1, block, h, bf => do
    let bf := if block + 1 = blocks then bf ||| fe else bf
    let m ← ld block
    loopG ld step blocks flags fe n (block + 1) (step h bf m) flags

theorem loopG_lane {V : Type} {I : Type} (L : I → V → Word) (inp : I → Bytes) (off : I → U64)
    (ld : Nat → R (Vector V 16)) (step : Vector V 8 → Byte → Vector V 16 → Vector V 8)
    (blocks : Nat) (flags fe : Byte)
    (hlen : ∀ i, (inp i).length = 64 * blocks)
    (hld : ∀ b < blocks, ∃ m, ld b = .ok m ∧
      ∀ i, m.map (L i) = Portable.words_from_block (Spec.pad ((inp i).drop (64 * b))))
    (hstep : ∀ i h bf m, (step h bf m).map (L i) =
      compressW (h.map (L i)) (m.map (L i)) (offset_low (off i)) (offset_high (off i))
        (BitVec.setWidth 32 (64 : Byte)) (BitVec.setWidth 32 bf))
    (n block : Nat) (hb : block + n = blocks) (h : Vector V 8) (bf : Byte) :
    ∃ h', loopG ld step blocks flags fe n block h bf = .ok h' ∧
      ∀ i, h'.map (L i) = cvLoop flags fe (off i) (h.map (L i)) bf ((inp i).drop (64 * block)) := by
  induction n generalizing block h bf with
  | zero =>
    refine ⟨h, rfl, fun i => ?_⟩
    rw [cvLoop, dif_neg]
    simp [hlen]; omega
  | succ n ih =>
    obtain ⟨m, hm, hw⟩ := hld block (by omega)
    obtain ⟨h', e, hh⟩ := ih (block + 1) (by omega)
      (step h (if block + 1 = blocks then bf ||| fe else bf) m) flags
    refine ⟨h', ?_, fun i => ?_⟩
    · simp only [loopG, hm, bind_ok]; exact e
    · rw [hh i, hstep, hw, compressW_eq]
      conv => rhs; rw [cvLoop]
      rw [dif_pos (by simp [hlen]; omega), List.drop_drop]
      have : ((inp i).drop (64 * block)).length = 64 ↔ block + 1 = blocks := by simp [hlen]; omega
      simp only [this, Nat.mul_succ]

end Baokeshed.Proofs
