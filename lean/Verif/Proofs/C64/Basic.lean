import Verif.Model.C64.Portable
import Verif.Proofs.C64.HashMany
import Verif.Proofs.C.Kernel

/-! # C, 64-bit variant: words, portable compression, generic loops of `hash_one` and `hash_many` -/

set_option linter.unusedVariables false
set_option linter.unusedSimpArgs false

namespace Baokeshed.Proofs.W64
open Baokeshed.Model
open Baokeshed.Model.Portable64 (leWord64 leBytes64)
open Baokeshed.Model.C (cIndex cAdvance cStore)
open Baokeshed.Proofs.C (cIndex_ok cIndex_getD cIndex_some cAdvance_ok cStore_append cStore_zero)
open Baokeshed.Model.C64 (load64 store64 rotr64 load_msg_words write_state_bytes)
attribute [local irreducible] Spec64.compress Spec64.cvBytes

theorem msg_schedule_eq : Model.C64.MSG_SCHEDULE = Portable64.MSG_SCHEDULE := rfl
theorem iv_eq : Model.C64.IV = Portable64.IV := rfl

/-! ## words -/

theorem lane_append_zero {w : Nat} (x : BitVec w) (y : Byte) : lane 8 (x ++ y) 0 = y := by
  apply BitVec.eq_of_getLsbD_eq; intro j hj
  rw [getLsbD_lane, BitVec.getLsbD_append]
  simp [hj]

theorem lane_append_succ {w : Nat} (x : BitVec w) (y : Byte) (k : Nat) :
    lane 8 (x ++ y) (k + 1) = lane 8 x k := by
  apply BitVec.eq_of_getLsbD_eq; intro j hj
  rw [getLsbD_lane, getLsbD_lane, BitVec.getLsbD_append, if_neg (by omega)]
  congr 2
  omega

theorem lane_self (y : Byte) : lane 8 y 0 = y := by
  apply BitVec.eq_of_getLsbD_eq; intro j hj
  rw [getLsbD_lane]; simp [hj]

theorem lane_leWord64 (b : Vector Byte 8) (k : Nat) (hk : k < 8) :
    lane 8 (leWord64 b[0] b[1] b[2] b[3] b[4] b[5] b[6] b[7]) k = b[k] := by
  unfold leWord64
  rcases k with _|_|_|_|_|_|_|_|k
  all_goals first | omega | simp only [lane_append_zero, lane_append_succ, lane_self]

theorem lane_shiftBytes (b : Byte) (m k : Nat) (hk : k < 8) :
    lane 8 (b.setWidth 64 <<< (8 * m)) k = if k = m then b else 0 := by
  apply BitVec.eq_of_getLsbD_eq; intro j hj
  rw [getLsbD_lane, BitVec.getLsbD_shiftLeft, BitVec.getLsbD_setWidth]
  split
  next h =>
    subst h
    simp only [hj, show 8 * k + j < 64 by omega, show ¬ (8 * k + j < 8 * k) by omega,
      show 8 * k + j - 8 * k = j by omega, show j < 64 by omega, decide_true, decide_false, Bool.not_false, Bool.true_and]
  next h =>
    rcases Nat.lt_or_gt_of_ne h with h | h
    · simp [show 8 * k + j < 8 * m by omega]
    · rw [BitVec.getLsbD_of_ge b _ (by omega)]; simp

theorem or_bytes (b : Vector Byte 8) :
    (b[0].setWidth 64 <<< 0) ||| (b[1].setWidth 64 <<< 8) ||| (b[2].setWidth 64 <<< 16) |||
      (b[3].setWidth 64 <<< 24) ||| (b[4].setWidth 64 <<< 32) ||| (b[5].setWidth 64 <<< 40) |||
      (b[6].setWidth 64 <<< 48) ||| (b[7].setWidth 64 <<< 56) =
      leWord64 b[0] b[1] b[2] b[3] b[4] b[5] b[6] b[7] := by
  apply lanes_ext 8 8
  intro k hk
  rw [lane_leWord64 b k hk]
  simp only [lane_or]
  have h0 := lane_shiftBytes b[0] 0 k hk
  have h1 := lane_shiftBytes b[1] 1 k hk
  have h2 := lane_shiftBytes b[2] 2 k hk
  have h3 := lane_shiftBytes b[3] 3 k hk
  have h4 := lane_shiftBytes b[4] 4 k hk
  have h5 := lane_shiftBytes b[5] 5 k hk
  have h6 := lane_shiftBytes b[6] 6 k hk
  have h7 := lane_shiftBytes b[7] 7 k hk
  simp only [Nat.reduceMul] at h0 h1 h2 h3 h4 h5 h6 h7
  rw [h0, h1, h2, h3, h4, h5, h6, h7]
  rcases k with _|_|_|_|_|_|_|_|k
  all_goals first | omega | simp

/-- the word at byte `8 j` of the block starting at `off` -/
def wordAt (p : Bytes) (off j : Nat) : U64 :=
  leWord64 (p.getD (off + 8 * j) 0) (p.getD (off + (8 * j + 1)) 0) (p.getD (off + (8 * j + 2)) 0)
    (p.getD (off + (8 * j + 3)) 0) (p.getD (off + (8 * j + 4)) 0) (p.getD (off + (8 * j + 5)) 0)
    (p.getD (off + (8 * j + 6)) 0) (p.getD (off + (8 * j + 7)) 0)

theorem words_pad (p : Bytes) (off : Nat) : Portable64.words_from_block (Spec64.pad (p.drop off)) =
    Vector.ofFn fun j : Fin 16 => wordAt p off j := by
  apply Vector.ext; intro j hj
  have e : ∀ i (hi : i < 128), (Spec64.pad (p.drop off))[i] = p.getD (off + i) 0 := by
    intro i hi
    rw [pad_getElem]
    simp [List.getD_eq_getElem?_getD, List.getElem?_drop]
  rw [Vector.getElem_ofFn]
  simp only [Portable64.words_from_block, e]
  rcases j with _|_|_|_|_|_|_|_|_|_|_|_|_|_|_|_|j
  all_goals first | rfl | omega

theorem load64_eq (src : Bytes) (off : Nat) (h : off + 8 ≤ src.length) :
    load64 src off = .ok (leWord64 (src.getD off 0) (src.getD (off + 1) 0) (src.getD (off + 2) 0)
      (src.getD (off + 3) 0) (src.getD (off + 4) 0) (src.getD (off + 5) 0) (src.getD (off + 6) 0)
      (src.getD (off + 7) 0)) := by
  have e := or_bytes #v[src.getD off 0, src.getD (off + 1) 0, src.getD (off + 2) 0, src.getD (off + 3) 0,
    src.getD (off + 4) 0, src.getD (off + 5) 0, src.getD (off + 6) 0, src.getD (off + 7) 0]
  rw [load64, cIndex_getD _ (off + 0) 0 (by omega), cIndex_getD _ (off + 1) 0 (by omega),
    cIndex_getD _ (off + 2) 0 (by omega), cIndex_getD _ (off + 3) 0 (by omega),
    cIndex_getD _ (off + 4) 0 (by omega), cIndex_getD _ (off + 5) 0 (by omega),
    cIndex_getD _ (off + 6) 0 (by omega), cIndex_getD _ (off + 7) 0 (by omega)]
  exact congrArg Except.ok e

theorem load_msg_words_eq (block : Bytes) (h : 128 ≤ block.length) :
    load_msg_words block = .ok (Portable64.words_from_block (Spec64.pad block)) := by
  have e := words_pad block 0
  rw [List.drop_zero, ofFn16] at e
  rw [e]
  unfold load_msg_words
  simp only [load64_eq block _ (show 8 * 0 + 8 ≤ _ by omega), load64_eq block _ (show 8 * 1 + 8 ≤ _ by omega),
    load64_eq block _ (show 8 * 2 + 8 ≤ _ by omega), load64_eq block _ (show 8 * 3 + 8 ≤ _ by omega),
    load64_eq block _ (show 8 * 4 + 8 ≤ _ by omega), load64_eq block _ (show 8 * 5 + 8 ≤ _ by omega),
    load64_eq block _ (show 8 * 6 + 8 ≤ _ by omega), load64_eq block _ (show 8 * 7 + 8 ≤ _ by omega),
    load64_eq block _ (show 8 * 8 + 8 ≤ _ by omega), load64_eq block _ (show 8 * 9 + 8 ≤ _ by omega),
    load64_eq block _ (show 8 * 10 + 8 ≤ _ by omega), load64_eq block _ (show 8 * 11 + 8 ≤ _ by omega),
    load64_eq block _ (show 8 * 12 + 8 ≤ _ by omega), load64_eq block _ (show 8 * 13 + 8 ≤ _ by omega),
    load64_eq block _ (show 8 * 14 + 8 ≤ _ by omega), load64_eq block _ (show 8 * 15 + 8 ≤ _ by omega),
    bind_ok, pure_eq, wordAt, Nat.zero_add]
  rfl

theorem cvBytes_byte (w : U64) : [(w >>> 0).setWidth 8, (w >>> 8).setWidth 8, (w >>> 16).setWidth 8,
    (w >>> 24).setWidth 8, (w >>> 32).setWidth 8, (w >>> 40).setWidth 8, (w >>> 48).setWidth 8,
    (w >>> 56).setWidth 8] = leBytes64 w := by
  have e : ∀ k, (w >>> k).setWidth 8 = w.extractLsb' k 8 := fun k => by
    apply BitVec.eq_of_getLsbD_eq; intro i hi
    simp [hi]
  rw [leBytes64, e, e, e, e, e, e, e, e]

theorem cvBytes_toList (cv : Vector U64 4) : Spec64.cvBytes cv =
    leBytes64 cv[0] ++ (leBytes64 cv[1] ++ (leBytes64 cv[2] ++ leBytes64 cv[3])) := by
  rw [← bytes_from_state_words_eq]
  simp [Portable64.bytes_from_state_words]

theorem length_leBytes64 (w : U64) : (leBytes64 w).length = 8 := rfl

theorem length_cvBytes (cv : Vector U64 4) : (Spec64.cvBytes cv).length = 32 := by
  rw [cvBytes_toList]; simp [length_leBytes64]

theorem write_state_bytes_eq (state : Vector U64 4) (out : Bytes) (h : 32 ≤ out.length) :
    write_state_bytes state out = .ok (Spec64.cvBytes state ++ out.drop 32) := by
  have l := length_leBytes64
  unfold write_state_bytes store64
  simp only [cvBytes_byte]
  rw [cStore_zero _ _ (by rw [l]; omega), bind_ok,
    cStore_append _ _ _ (8 * 1) (by simp [l]) (by simp [l]; omega), bind_ok,
    cStore_append _ _ _ (8 * 2) (by simp [l]) (by simp [l]; omega), bind_ok,
    cStore_append _ _ _ (8 * 3) (by simp [l]) (by simp [l]; omega)]
  rw [cvBytes_toList]
  simp only [List.drop_drop, l, List.append_assoc]

/-! ## compress_portable -/

theorem rotr64_eq (w : U64) (c : Nat) (h0 : 0 < c) (h : c < 64) : rotr64 w c = w.rotateRight c := by
  unfold rotr64
  apply BitVec.eq_of_getLsbD_eq; intro i hi
  rw [BitVec.getLsbD_rotateRight_of_lt h]
  simp only [BitVec.getLsbD_or, BitVec.getLsbD_ushiftRight, BitVec.getLsbD_shiftLeft, hi]
  by_cases h1 : i < 64 - c
  · simp [h1]
  · simp [h1]
    rw [BitVec.getLsbD_of_ge _ (c + i) (by omega)]; simp

theorem portable_g_eq : Model.C64.Portable.g = Portable64.g := by
  funext s a b c d x y
  simp only [Model.C64.Portable.g, Portable64.g, rotr64_eq _ 32 (by decide) (by decide),
    rotr64_eq _ 24 (by decide) (by decide), rotr64_eq _ 16 (by decide) (by decide),
    rotr64_eq _ 63 (by decide) (by decide)]

theorem portable_round_eq (s m : Vector U64 16) (r : Fin 8) :
    Model.C64.Portable.round_fn s m r = Portable64.round s m r := by
  unfold Model.C64.Portable.round_fn Portable64.round
  rw [portable_g_eq]
  rfl

/-- the output step of `compress_portable` -/
def out4 (s : Vector U64 16) : Vector U64 4 :=
  #v[s[0] ^^^ s[4], s[1] ^^^ s[5], s[2] ^^^ s[6], s[3] ^^^ s[7]]

theorem out4_eq (s : Vector U64 16) : out4 s =
    Vector.ofFn fun i : Fin 4 => s[i.val] ^^^ s[i.val + 4] := by
  apply Vector.ext; intro i hi
  rw [Vector.getElem_ofFn]
  rcases i with _|_|_|_|i
  all_goals first | rfl | omega

/-- eight rounds -/
def rounds8 (f : Vector U64 16 → Vector U64 16 → Fin 8 → Vector U64 16) (s m : Vector U64 16) : Vector U64 16 :=
  f (f (f (f (f (f (f (f s m 0) m 1) m 2) m 3) m 4) m 5) m 6) m 7

theorem compressW_out (cv : Vector U64 4) (m : Vector U64 16) (off len fl : U64) :
    compressW cv m off len fl = out4 (rounds8 Portable64.round (init16 cv len off fl) m) := by
  rw [out4_eq]; rfl

/-- a C compression function computes the compression function on the first 128 bytes of `block` -/
def CompressOk (comp : Vector U64 4 → Bytes → Byte → U64 → Byte → R (Vector U64 4)) : Prop :=
  ∀ cv block len off fl, 128 ≤ block.length →
    comp cv block len off fl = .ok (Spec64.compress ⟨cv, Spec64.pad block, len, off, fl⟩)

theorem compress_portable_ok : CompressOk Model.C64.Portable.compress_portable := by
  intro cv block len off fl h
  have e : Model.C64.Portable.compress_portable cv block len off fl = (load_msg_words block >>= fun m =>
      .ok (out4 (rounds8 Model.C64.Portable.round_fn (init16 cv (len.setWidth 64) off (fl.setWidth 64)) m))) := rfl
  have r : Model.C64.Portable.round_fn = Portable64.round :=
    funext fun s => funext fun m => funext fun r => portable_round_eq s m r
  rw [e, load_msg_words_eq block h, bind_ok, ← compressW_eq, compressW_out, r]

/-! ## blocks -/

theorem cvLoop_chain_aux (flags fs fe : Byte) (off : U64) (blocks : Nat) (input : Bytes)
    (h : 128 * blocks ≤ input.length) (n b : Nat) (hb : b + n = blocks) (cv : Vector U64 4) :
    cvLoop flags fe off cv (flags ||| if b = 0 then fs else 0) ((input.drop (128 * b)).take (128 * n)) =
      (List.range' b n).foldl (fun cv b => Spec64.compress
        ⟨cv, Spec64.pad (input.drop (128 * b)), 128, off,
          flags ||| (if b = 0 then fs else 0) ||| (if b + 1 = blocks then fe else 0)⟩) cv := by
  induction n generalizing b cv with
  | zero => rw [cvLoop, dif_neg (by simp)]; rfl
  | succ n ih =>
    have hl : ((input.drop (128 * b)).take (128 * (n + 1))).length = 128 * (n + 1) := by
      rw [List.length_take, List.length_drop]; omega
    have hp : Spec64.pad ((input.drop (128 * b)).take (128 * (n + 1))) = Spec64.pad (input.drop (128 * b)) := by
      rw [← pad_take, List.take_take, Nat.min_eq_left (by omega), pad_take]
    have hd : ((input.drop (128 * b)).take (128 * (n + 1))).drop 128 =
        (input.drop (128 * (b + 1))).take (128 * n) := by
      rw [List.drop_take, List.drop_drop, show 128 * (n + 1) - 128 = 128 * n by omega,
        show 128 * b + 128 = 128 * (b + 1) by omega]
    have hf : (if 128 * (n + 1) = 128 then (flags ||| if b = 0 then fs else 0) ||| fe
        else flags ||| if b = 0 then fs else 0) =
        flags ||| (if b = 0 then fs else 0) ||| (if b + 1 = blocks then fe else 0) := by
      by_cases h1 : b + 1 = blocks
      · rw [if_pos (by omega), if_pos h1]
      · rw [if_neg (by omega), if_neg h1]; simp
    rw [cvLoop, dif_pos (by omega), hl, hp, hd, hf, List.range'_succ, List.foldl_cons]
    have := ih (b + 1) (by omega) (Spec64.compress ⟨cv, Spec64.pad (input.drop (128 * b)), 128, off,
          flags ||| (if b = 0 then fs else 0) ||| (if b + 1 = blocks then fe else 0)⟩)
    rw [show (flags ||| if b + 1 = 0 then fs else 0) = flags by rw [if_neg (by omega)]; simp] at this
    exact this

theorem cvLoop_chain (key : Vector U64 4) (flags fs fe : Byte) (off : U64) (blocks : Nat) (input : Bytes)
    (h : 128 * blocks ≤ input.length) :
    cvLoop flags fe off key (flags ||| fs) (input.take (128 * blocks)) =
      Spec64.blockChain key off flags fs fe blocks input := by
  have := cvLoop_chain_aux flags fs fe off blocks input h blocks 0 (by omega) key
  rw [if_pos rfl, Nat.mul_zero, List.drop_zero] at this
  rw [this, Spec64.blockChain, List.range_eq_range']

/-- the loop of `hash_one_...` -/
def oneLoop (comp : Vector U64 4 → Bytes → Byte → U64 → Byte → R (Vector U64 4)) (flags fe : Byte) (off : U64) :
    Nat → Vector U64 4 → Bytes → Byte → R (Vector U64 4)
  | 0, state, _, _ => .ok state
  | blocks + 1, state, input, bf => do
    let bf := if blocks + 1 = 1 then bf ||| fe else bf
    let state ← comp state input (BitVec.ofNat 8 128) off bf
    let input ← cAdvance input 128
    oneLoop comp flags fe off blocks state input flags

theorem oneLoop_eq {comp} (hc : CompressOk comp) (flags fe : Byte) (off : U64) (blocks : Nat) (state : Vector U64 4)
    (input : Bytes) (bf : Byte) (h : 128 * blocks ≤ input.length) :
    oneLoop comp flags fe off blocks state input bf =
      .ok (cvLoop flags fe off state bf (input.take (128 * blocks))) := by
  induction blocks generalizing state input bf with
  | zero => rw [oneLoop, cvLoop, dif_neg (by simp)]
  | succ n ih =>
    have hl : (input.take (128 * (n + 1))).length = 128 * (n + 1) := by rw [List.length_take]; omega
    have hp : Spec64.pad (input.take (128 * (n + 1))) = Spec64.pad input := by
      rw [← pad_take, List.take_take, Nat.min_eq_left (by omega), pad_take]
    rw [oneLoop, hc _ _ _ _ _ (by omega), bind_ok, cAdvance_ok _ _ (by omega), bind_ok,
      ih _ _ _ (by rw [List.length_drop]; omega), cvLoop.eq_def flags fe off state, dif_pos (by omega), hl, hp,
      List.drop_take, show 128 * (n + 1) - 128 = 128 * n by omega]
    have e : (n + 1 = 1) = (128 * (n + 1) = 128) := propext (by omega)
    simp only [e, show BitVec.ofNat 8 128 = (128 : Byte) from rfl]

/-! ## hash_many -/

section many
variable (key : Vector U64 4) (d : U64) (flags fs fe : Byte) (blocks : Nat)

theorem manyOut_add (off : U64) (k n : Nat) (inputs : List Bytes) :
    Spec64.manyOut key off d flags fs fe blocks (k + n) inputs =
      Spec64.manyOut key off d flags fs fe blocks k inputs ++
        Spec64.manyOut key (off + BitVec.ofNat 64 k * d) d flags fs fe blocks n (inputs.drop k) := by
  unfold Spec64.manyOut
  rw [List.range_add, List.flatMap_append, List.flatMap_map]
  refine congrArg _ ?_
  have : ∀ i, off + BitVec.ofNat 64 k * d + BitVec.ofNat 64 i * d = off + BitVec.ofNat 64 (k + i) * d := by
    intro i
    rw [BitVec.add_assoc, ← BitVec.add_mul, BitVec.ofNat_add]
  simp only [this, List.getD_eq_getElem?_getD, List.getElem?_drop]

theorem length_manyOut (off : U64) (n : Nat) (inputs : List Bytes) :
    (Spec64.manyOut key off d flags fs fe blocks n inputs).length = 32 * n := by
  unfold Spec64.manyOut
  induction n with
  | zero => rfl
  | succ n ih => rw [List.range_succ, List.flatMap_append, List.length_append, ih]; simp [length_cvBytes]; omega

/-- `f` computes `hash_many` for fewer than `b` inputs -/
def Good (b : Option Nat) (f : Nat → List Bytes → U64 → Bytes → R Bytes) : Prop :=
  ∀ num inputs off out, (∀ b', b = some b' → num < b') → num ≤ inputs.length →
    (∀ i, i < num → 128 * blocks ≤ (inputs.getD i []).length) → 32 * num ≤ out.length →
    f num inputs off out =
      .ok (Spec64.manyOut key off d flags fs fe blocks num inputs ++ out.drop (32 * num))

/-- `ker` computes `hash_many` for `k` inputs -/
def KerOk (k : Nat) (ker : List Bytes → U64 → Bytes → R Bytes) : Prop :=
  ∀ inputs off out, k ≤ inputs.length → (∀ i, i < k → 128 * blocks ≤ (inputs.getD i []).length) →
    32 * k ≤ out.length →
    ker inputs off out = .ok (Spec64.manyOut key off d flags fs fe blocks k inputs ++ out.drop (32 * k))

/-- one iteration of a loop of `hash_many_...` -/
def batch (k : Nat) (ker : List Bytes → U64 → Bytes → R Bytes) (deltas : List U64)
    (f : Nat → List Bytes → U64 → Bytes → R Bytes) (num : Nat) (inputs : List Bytes) (off : U64) (out : Bytes) :
    R Bytes := do
  let out ← ker inputs off out
  let inputs ← cAdvance inputs k
  let off := off + (← cIndex deltas k)
  let rest ← cAdvance out (k * 32)
  let rest ← f (num - k) inputs off rest
  return out.take (k * 32) ++ rest

theorem loop_ok (k : Nat) (hk : 0 < k) (deltas : List U64) (ker : List Bytes → U64 → Bytes → R Bytes)
    (f next : Nat → List Bytes → U64 → Bytes → R Bytes)
    (hf : ∀ num inputs off out, f num inputs off out =
      if k ≤ num then batch k ker deltas f num inputs off out else next num inputs off out)
    (hker : KerOk key d flags fs fe blocks k ker) (hnext : Good key d flags fs fe blocks (some k) next)
    (hd : deltas[k]? = some (BitVec.ofNat 64 k * d)) : Good key d flags fs fe blocks none f := by
  intro num
  induction num using Nat.strongRecOn with
  | ind num ih =>
    intro inputs off out _ hin hlen hout
    rw [hf]
    split
    next h =>
      have hadv : cAdvance (Spec64.manyOut key off d flags fs fe blocks k inputs ++ out.drop (32 * k)) (k * 32) =
          .ok (out.drop (32 * k)) := by
        rw [cAdvance_ok _ _ (by rw [List.length_append, length_manyOut]; omega),
          List.drop_left' (by rw [length_manyOut]; omega)]
      rw [batch, hker inputs off out (by omega) (fun i hi => hlen i (by omega)) (by omega), bind_ok,
        cAdvance_ok _ _ (by omega), bind_ok, cIndex_some _ _ _ hd, bind_ok, hadv, bind_ok,
        ih (num - k) (by omega) _ _ _ (by simp) (by rw [List.length_drop]; omega) (fun i hi => by
          have := hlen (k + i) (by omega)
          simpa [List.getD_eq_getElem?_getD, List.getElem?_drop] using this) (by rw [List.length_drop]; omega),
        bind_ok, pure_eq, List.take_left' (by rw [length_manyOut]; omega), List.drop_drop, ← List.append_assoc,
        ← manyOut_add]
      have e1 : k + (num - k) = num := by omega
      have e2 : 32 * k + 32 * (num - k) = 32 * num := by omega
      rw [e1, e2]
    next h =>
      exact hnext num inputs off out (fun b' e => by cases e; omega) hin hlen hout

theorem good_zero : Good key d flags fs fe blocks (some 1) (fun _ _ _ out => .ok out) := by
  intro num inputs off out h1 _ _ _
  have : num = 0 := by have := h1 1 rfl; omega
  subst this
  rfl

theorem Good.mono {f : Nat → List Bytes → U64 → Bytes → R Bytes} (h : Good key d flags fs fe blocks none f)
    (b : Option Nat) : Good key d flags fs fe blocks b f :=
  fun num inputs off out _ => h num inputs off out (by simp)

/-- `hash_one` as a kernel for one input -/
theorem one_ker (one : Bytes → U64 → Bytes → R Bytes)
    (h1 : ∀ input off out, 128 * blocks ≤ input.length → 32 ≤ out.length →
      one input off out = .ok (Spec64.cvBytes (Spec64.blockChain key off flags fs fe blocks input) ++
        out.drop 32)) :
    KerOk key d flags fs fe blocks 1 (fun inputs off out => do one (← cIndex inputs 0) off out) := by
  intro inputs off out hin hlen hout
  dsimp only
  rw [cIndex_getD _ 0 [] (by omega), bind_ok, h1 _ _ _ (hlen 0 (by omega)) (by omega)]
  simp [Spec64.manyOut]

end many

/-! ## hash_many_portable -/

section portable
open Baokeshed.Model.C64.Portable

theorem hash_one_portable_loop_eq (flags fe : Byte) (off : U64) (blocks : Nat) (state : Vector U64 4)
    (input : Bytes) (bf : Byte) :
    hash_one_portable_loop flags fe off blocks state input bf =
      oneLoop compress_portable flags fe off blocks state input bf := by
  induction blocks generalizing state input bf with
  | zero => rfl
  | succ n ih => simp only [hash_one_portable_loop, oneLoop, ih]

theorem hash_one_portable_eq (key : Vector U64 4) (flags fs fe : Byte) (blocks : Nat) (input : Bytes) (off : U64)
    (out : Bytes) (hi : 128 * blocks ≤ input.length) (ho : 32 ≤ out.length) :
    hash_one_portable input blocks key off flags fs fe out =
      .ok (Spec64.cvBytes (Spec64.blockChain key off flags fs fe blocks input) ++ out.drop 32) := by
  rw [hash_one_portable, hash_one_portable_loop_eq, oneLoop_eq compress_portable_ok _ _ _ _ _ _ _ hi, bind_ok,
    cvLoop_chain _ _ _ _ _ _ _ hi, write_state_bytes_eq _ _ ho]

theorem portable_good (key : Vector U64 4) (d : U64) (flags fs fe : Byte) (blocks : Nat) (deltas : List U64)
    (hd : deltas[1]? = some (BitVec.ofNat 64 1 * d)) :
    Good key d flags fs fe blocks none (hash_many_portable_loop blocks key deltas flags fs fe) := by
  refine loop_ok key d flags fs fe blocks 1 (by decide) deltas
    (fun inputs off out => do hash_one_portable (← cIndex inputs 0) blocks key off flags fs fe out) _
    (fun _ _ _ out => .ok out) ?_ (one_ker key d flags fs fe blocks _ (hash_one_portable_eq key flags fs fe blocks))
    (good_zero key d flags fs fe blocks) hd
  intro num inputs off out
  cases num with
  | zero => rw [if_neg (by omega)]; rfl
  | succ n =>
    rw [if_pos (by omega), hash_many_portable_loop, batch]
    simp only [Nat.add_sub_cancel, bind_assoc, Nat.one_mul]

end portable

end Baokeshed.Proofs.W64
