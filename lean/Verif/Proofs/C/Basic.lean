import Verif.Model.C.Portable
import Verif.Proofs.HashMany4
import Verif.SpecMany

/-! # C: memory, portable compression, generic loops of `hash_one` and `hash_many` -/

set_option linter.unusedVariables false
set_option linter.unusedSimpArgs false

namespace Baokeshed.Proofs.C
open Baokeshed.Model Baokeshed.Model.C
attribute [local irreducible] Spec.compress Spec.cvBytes

theorem msg_schedule_eq : Model.C.MSG_SCHEDULE = Model.MSG_SCHEDULE := rfl
theorem iv_eq : Model.C.IV = Model.IV := rfl
theorem offset_low_eq : Model.C.offset_low = Model.offset_low := rfl
theorem offset_high_eq : Model.C.offset_high = Model.offset_high := rfl

/-! ## memory -/

theorem cIndex_ok {α} (p : List α) (i : Nat) (h : i < p.length) : cIndex p i = .ok p[i] := by
  simp [cIndex, List.getElem?_eq_getElem h]

theorem cIndex_getD {α} (p : List α) (i : Nat) (d : α) (h : i < p.length) : cIndex p i = .ok (p.getD i d) := by
  rw [cIndex_ok p i h]; simp [List.getD_eq_getElem?_getD, h]

theorem cIndex_some {α} (p : List α) (i : Nat) (x : α) (h : p[i]? = some x) : cIndex p i = .ok x := by
  simp [cIndex, h]

theorem cAdvance_ok {α} (p : List α) (n : Nat) (h : n ≤ p.length) : cAdvance p n = .ok (p.drop n) := if_pos h

theorem cStore_append {α} (p rest d : List α) (off : Nat) (h : off = p.length)
    (hd : d.length ≤ rest.length) :
    cStore (p ++ rest) off d = .ok ((p ++ d) ++ rest.drop d.length) := by
  subst h
  rw [cStore, if_pos (by rw [List.length_append]; omega), List.take_left, List.drop_append,
    List.drop_of_length_le (by omega)]
  simp

theorem cStore_zero {α} (out d : List α) (h : d.length ≤ out.length) :
    cStore out 0 d = .ok (d ++ out.drop d.length) :=
  cStore_append [] out d 0 rfl h

/-- `loadArr` and `loadBytes` read the same bytes -/
theorem load_arr (block : Bytes) (h : 64 ≤ block.length) (off : Nat) (ho : off + 16 ≤ 64) :
    loadBytes 16 block off = .ok (loadArr (Spec.pad block) off ho) := by
  rw [loadBytes_ok 16 block off (by omega), loadArr]
  refine congrArg Except.ok (fromLanes_congr 8 16 fun i hi => ?_)
  have h1 : (Spec.pad block).toList.getD (off + i) 0 = (Spec.pad block)[off + i] := by
    rw [List.getD_eq_getElem?_getD, List.getElem?_eq_getElem (by simp; omega)]; simp
  rw [h1, pad_getElem _ _ (by omega)]

/-! ## words -/

theorem or_bytes (b0 b1 b2 b3 : Byte) :
    (b0.setWidth 32 <<< 0) ||| (b1.setWidth 32 <<< 8) ||| (b2.setWidth 32 <<< 16) ||| (b3.setWidth 32 <<< 24) =
      leWord b0 b1 b2 b3 := by
  apply BitVec.eq_of_getLsbD_eq
  intro i hi
  rw [leWord]
  simp only [BitVec.getLsbD_or, BitVec.getLsbD_shiftLeft, BitVec.getLsbD_setWidth, BitVec.getLsbD_append]
  by_cases h8 : i < 8
  · have a1 : i < 16 := by omega
    have a2 : i < 24 := by omega
    simp [h8, hi, a1, a2]
  by_cases h16 : i < 16
  · have a1 : i - 8 < 8 := by omega
    have a2 : i < 24 := by omega
    have a3 : b0.getLsbD i = false := BitVec.getLsbD_of_ge _ _ (by omega)
    simp [h8, hi, h16, a1, a2, a3, show i - 8 < 32 by omega]
  by_cases h24 : i < 24
  · have a1 : i - 8 - 8 < 8 := by omega
    have a3 : b0.getLsbD i = false := BitVec.getLsbD_of_ge _ _ (by omega)
    have a4 : b1.getLsbD (i - 8) = false := BitVec.getLsbD_of_ge _ _ (by omega)
    simp [h8, hi, h16, h24, a1, a3, a4, show i - 16 < 32 by omega, show ¬ (i - 8 < 8) by omega,
      show i - 8 - 8 = i - 16 by omega, show i - 16 < 8 by omega]
  · have a3 : b0.getLsbD i = false := BitVec.getLsbD_of_ge _ _ (by omega)
    have a4 : b1.getLsbD (i - 8) = false := BitVec.getLsbD_of_ge _ _ (by omega)
    have a5 : b2.getLsbD (i - 16) = false := BitVec.getLsbD_of_ge _ _ (by omega)
    simp [h8, hi, h16, h24, a3, a4, a5, show i - 24 < 32 by omega, show ¬ (i - 8 < 8) by omega,
      show i - 8 - 8 = i - 16 by omega, show ¬ (i - 16 < 8) by omega, show i - 16 - 8 = i - 24 by omega,
      show i - 24 < 8 by omega]

theorem load32_eq (src : Bytes) (off : Nat) (h : off + 4 ≤ src.length) :
    load32 src off = .ok (leWord (src.getD off 0) (src.getD (off + 1) 0) (src.getD (off + 2) 0)
      (src.getD (off + 3) 0)) := by
  rw [load32, cIndex_getD _ off 0 (by omega), cIndex_getD _ (off + 1) 0 (by omega),
    cIndex_getD _ (off + 2) 0 (by omega), cIndex_getD _ (off + 3) 0 (by omega)]
  simp only [bind_ok, pure_eq, or_bytes]

theorem load_msg_words_eq (block : Bytes) (h : 64 ≤ block.length) :
    load_msg_words block = .ok (Portable.words_from_block (Spec.pad block)) := by
  have e := words_pad block 0
  rw [List.drop_zero, ofFn16] at e
  rw [e]
  unfold load_msg_words
  simp only [load32_eq block _ (show 4 * 0 + 4 ≤ _ by omega), load32_eq block _ (show 4 * 1 + 4 ≤ _ by omega),
    load32_eq block _ (show 4 * 2 + 4 ≤ _ by omega), load32_eq block _ (show 4 * 3 + 4 ≤ _ by omega),
    load32_eq block _ (show 4 * 4 + 4 ≤ _ by omega), load32_eq block _ (show 4 * 5 + 4 ≤ _ by omega),
    load32_eq block _ (show 4 * 6 + 4 ≤ _ by omega), load32_eq block _ (show 4 * 7 + 4 ≤ _ by omega),
    load32_eq block _ (show 4 * 8 + 4 ≤ _ by omega), load32_eq block _ (show 4 * 9 + 4 ≤ _ by omega),
    load32_eq block _ (show 4 * 10 + 4 ≤ _ by omega), load32_eq block _ (show 4 * 11 + 4 ≤ _ by omega),
    load32_eq block _ (show 4 * 12 + 4 ≤ _ by omega), load32_eq block _ (show 4 * 13 + 4 ≤ _ by omega),
    load32_eq block _ (show 4 * 14 + 4 ≤ _ by omega), load32_eq block _ (show 4 * 15 + 4 ≤ _ by omega),
    bind_ok, pure_eq, wordAt, Nat.zero_add]
  rfl

theorem cvBytes_byte (w : Word) : [(w >>> 0).setWidth 8, (w >>> 8).setWidth 8, (w >>> 16).setWidth 8,
    (w >>> 24).setWidth 8] = leBytes w := by
  have e : ∀ k, (w >>> k).setWidth 8 = w.extractLsb' k 8 := fun k => by
    apply BitVec.eq_of_getLsbD_eq; intro i hi
    simp [hi]
  rw [leBytes, e, e, e, e]

theorem write_state_bytes_eq (state : Vector Word 8) (out : Bytes) (h : 32 ≤ out.length) :
    write_state_bytes state out = .ok ((Spec.cvBytes state).toList ++ out.drop 32) := by
  have l : ∀ w : Word, (leBytes w).length = 4 := fun w => by simp [leBytes]
  unfold write_state_bytes store32
  simp only [cvBytes_byte]
  rw [cStore_zero _ _ (by rw [l]; omega), bind_ok,
    cStore_append _ _ _ (4 * 1) (by simp [l]) (by simp [l]; omega), bind_ok,
    cStore_append _ _ _ (4 * 2) (by simp [l]) (by simp [l]; omega), bind_ok,
    cStore_append _ _ _ (4 * 3) (by simp [l]) (by simp [l]; omega), bind_ok,
    cStore_append _ _ _ (4 * 4) (by simp [l]) (by simp [l]; omega), bind_ok,
    cStore_append _ _ _ (4 * 5) (by simp [l]) (by simp [l]; omega), bind_ok,
    cStore_append _ _ _ (4 * 6) (by simp [l]) (by simp [l]; omega), bind_ok,
    cStore_append _ _ _ (4 * 7) (by simp [l]) (by simp [l]; omega)]
  rw [cvBytes_toList]
  simp only [List.drop_drop, l, List.append_assoc]

theorem mem_store_eq (state : Vector Word 8) (out : Bytes) (h : 32 ≤ out.length) :
    cStore out 0 (memOfWords state).toList = .ok ((Spec.cvBytes state).toList ++ out.drop 32) := by
  rw [memOfWords_eq, bytes_from_state_words_eq, cStore_zero _ _ (by simp; omega)]
  simp

/-! ## compress_portable -/

theorem portable_g_eq : Model.C.Portable.g = Model.Portable.g := rfl

theorem portable_round_eq (s m : Vector Word 16) (r : Fin 7) :
    Model.C.Portable.round_fn s m r = Model.Portable.round s m r := by
  unfold Model.C.Portable.round_fn Model.Portable.round
  rw [portable_g_eq]
  rfl

/-- the output step of `compress_portable` -/
def out8 (s : Vector Word 16) : Vector Word 8 :=
  #v[s[0] ^^^ s[8], s[1] ^^^ s[9], s[2] ^^^ s[10], s[3] ^^^ s[11],
    s[4] ^^^ s[12], s[5] ^^^ s[13], s[6] ^^^ s[14], s[7] ^^^ s[15]]

theorem out8_eq (s : Vector Word 16) : out8 s =
    Vector.ofFn fun i : Fin 8 => s[i.val] ^^^ s[i.val + 8] := by
  apply Vector.ext; intro i hi
  rw [Vector.getElem_ofFn]
  rcases i with _|_|_|_|_|_|_|_|i
  all_goals first | rfl | omega

/-- seven rounds -/
def rounds7 (f : Vector Word 16 → Vector Word 16 → Fin 7 → Vector Word 16) (s m : Vector Word 16) : Vector Word 16 :=
  f (f (f (f (f (f (f s m 0) m 1) m 2) m 3) m 4) m 5) m 6

theorem compressW_out (cv : Vector Word 8) (m : Vector Word 16) (lo hi len fl : Word) :
    compressW cv m lo hi len fl = out8 (rounds7 Model.Portable.round #v[cv[0], cv[1], cv[2], cv[3], cv[4], cv[5],
      cv[6], cv[7], Model.IV[0], Model.IV[1], Model.IV[2], Model.IV[3], lo, hi, len, fl] m) := by
  rw [out8_eq]; rfl

/-- a C compression function computes the compression function on the first 64 bytes of `block` -/
def CompressOk (comp : Vector Word 8 → Bytes → Byte → U64 → Byte → R (Vector Word 8)) : Prop :=
  ∀ cv block len off fl, 64 ≤ block.length →
    comp cv block len off fl = .ok (Spec.compress ⟨cv, Spec.pad block, len, off, fl⟩)

theorem compress_portable_ok : CompressOk Model.C.Portable.compress_portable := by
  intro cv block len off fl h
  have e : Model.C.Portable.compress_portable cv block len off fl = (load_msg_words block >>= fun m =>
      .ok (out8 (rounds7 Model.C.Portable.round_fn #v[cv[0], cv[1], cv[2], cv[3], cv[4], cv[5],
      cv[6], cv[7], Model.C.IV[0], Model.C.IV[1], Model.C.IV[2], Model.C.IV[3], Model.C.offset_low off,
      Model.C.offset_high off, len.setWidth 32, fl.setWidth 32] m))) := rfl
  have r : Model.C.Portable.round_fn = Model.Portable.round :=
    funext fun s => funext fun m => funext fun r => portable_round_eq s m r
  rw [e, load_msg_words_eq block h, bind_ok, ← compressW_eq, compressW_out, r]
  rfl

/-! ## blocks -/

theorem cvLoop_chain_aux (flags fs fe : Byte) (off : U64) (blocks : Nat) (input : Bytes)
    (h : 64 * blocks ≤ input.length) (n b : Nat) (hb : b + n = blocks) (cv : Vector Word 8) :
    cvLoop flags fe off cv (flags ||| if b = 0 then fs else 0) ((input.drop (64 * b)).take (64 * n)) =
      (List.range' b n).foldl (fun cv b => Spec.compress
        ⟨cv, Spec.pad (input.drop (64 * b)), 64, off,
          flags ||| (if b = 0 then fs else 0) ||| (if b + 1 = blocks then fe else 0)⟩) cv := by
  induction n generalizing b cv with
  | zero => rw [cvLoop, dif_neg (by simp)]; rfl
  | succ n ih =>
    have hl : ((input.drop (64 * b)).take (64 * (n + 1))).length = 64 * (n + 1) := by
      rw [List.length_take, List.length_drop]; omega
    have hp : Spec.pad ((input.drop (64 * b)).take (64 * (n + 1))) = Spec.pad (input.drop (64 * b)) := by
      rw [← pad_take, List.take_take, Nat.min_eq_left (by omega), pad_take]
    have hd : ((input.drop (64 * b)).take (64 * (n + 1))).drop 64 =
        (input.drop (64 * (b + 1))).take (64 * n) := by
      rw [List.drop_take, List.drop_drop]
      rfl
    have hf : (if 64 * (n + 1) = 64 then (flags ||| if b = 0 then fs else 0) ||| fe
        else flags ||| if b = 0 then fs else 0) =
        flags ||| (if b = 0 then fs else 0) ||| (if b + 1 = blocks then fe else 0) := by
      by_cases h1 : b + 1 = blocks
      · rw [if_pos (by omega), if_pos h1]
      · rw [if_neg (by omega), if_neg h1]; simp
    rw [cvLoop, dif_pos (by omega), hl, hp, hd, hf, List.range'_succ, List.foldl_cons]
    have := ih (b + 1) (by omega) (Spec.compress ⟨cv, Spec.pad (input.drop (64 * b)), 64, off,
          flags ||| (if b = 0 then fs else 0) ||| (if b + 1 = blocks then fe else 0)⟩)
    rw [show (flags ||| if b + 1 = 0 then fs else 0) = flags by rw [if_neg (by omega)]; simp] at this
    exact this

theorem cvLoop_chain (key : Vector Word 8) (flags fs fe : Byte) (off : U64) (blocks : Nat) (input : Bytes)
    (h : 64 * blocks ≤ input.length) :
    cvLoop flags fe off key (flags ||| fs) (input.take (64 * blocks)) =
      Spec.blockChain key off flags fs fe blocks input := by
  have := cvLoop_chain_aux flags fs fe off blocks input h blocks 0 (by omega) key
  rw [if_pos rfl, Nat.mul_zero, List.drop_zero] at this
  rw [this, Spec.blockChain, List.range_eq_range']

/-- the loop of `hash_one_...` -/
def oneLoop (comp : Vector Word 8 → Bytes → Byte → U64 → Byte → R (Vector Word 8)) (flags fe : Byte) (off : U64) :
    Nat → Vector Word 8 → Bytes → Byte → R (Vector Word 8)
  | 0, state, _, _ => .ok state
  | blocks + 1, state, input, bf => do
    let bf := if blocks + 1 = 1 then bf ||| fe else bf
    let state ← comp state input (BitVec.ofNat 8 64) off bf
    let input ← cAdvance input 64
    oneLoop comp flags fe off blocks state input flags

theorem oneLoop_eq {comp} (hc : CompressOk comp) (flags fe : Byte) (off : U64) (blocks : Nat) (state : Vector Word 8)
    (input : Bytes) (bf : Byte) (h : 64 * blocks ≤ input.length) :
    oneLoop comp flags fe off blocks state input bf =
      .ok (cvLoop flags fe off state bf (input.take (64 * blocks))) := by
  induction blocks generalizing state input bf with
  | zero => rw [oneLoop, cvLoop, dif_neg (by simp)]
  | succ n ih =>
    have hl : (input.take (64 * (n + 1))).length = 64 * (n + 1) := by rw [List.length_take]; omega
    have hp : Spec.pad (input.take (64 * (n + 1))) = Spec.pad input := by
      rw [← pad_take, List.take_take, Nat.min_eq_left (by omega), pad_take]
    rw [oneLoop, hc _ _ _ _ _ (by omega), bind_ok, cAdvance_ok _ _ (by omega), bind_ok,
      ih _ _ _ (by rw [List.length_drop]; omega), cvLoop.eq_def flags fe off state, dif_pos (by omega), hl, hp,
      List.drop_take]
    have e : (n + 1 = 1) = (64 * (n + 1) = 64) := propext (by omega)
    simp only [e]
    rfl

/-! ## hash_many -/

section many
variable (key : Vector Word 8) (d : U64) (flags fs fe : Byte) (blocks : Nat)

theorem manyOut_add (off : U64) (k n : Nat) (inputs : List Bytes) :
    Spec.manyOut key off d flags fs fe blocks (k + n) inputs =
      Spec.manyOut key off d flags fs fe blocks k inputs ++
        Spec.manyOut key (off + BitVec.ofNat 64 k * d) d flags fs fe blocks n (inputs.drop k) := by
  unfold Spec.manyOut
  rw [List.range_add, List.flatMap_append, List.flatMap_map]
  refine congrArg _ ?_
  have : ∀ i, off + BitVec.ofNat 64 k * d + BitVec.ofNat 64 i * d = off + BitVec.ofNat 64 (k + i) * d := by
    intro i
    rw [BitVec.add_assoc, ← BitVec.add_mul, BitVec.ofNat_add]
  simp only [this, List.getD_eq_getElem?_getD, List.getElem?_drop]

theorem length_manyOut (off : U64) (n : Nat) (inputs : List Bytes) :
    (Spec.manyOut key off d flags fs fe blocks n inputs).length = 32 * n := by
  unfold Spec.manyOut
  induction n with
  | zero => rfl
  | succ n ih => rw [List.range_succ, List.flatMap_append, List.length_append, ih]; simp; omega

/-- `f` computes `hash_many` for fewer than `b` inputs -/
def Good (b : Option Nat) (f : Nat → List Bytes → U64 → Bytes → R Bytes) : Prop :=
  ∀ num inputs off out, (∀ b', b = some b' → num < b') → num ≤ inputs.length →
    (∀ i, i < num → 64 * blocks ≤ (inputs.getD i []).length) → 32 * num ≤ out.length →
    f num inputs off out =
      .ok (Spec.manyOut key off d flags fs fe blocks num inputs ++ out.drop (32 * num))

/-- `ker` computes `hash_many` for `k` inputs -/
def KerOk (k : Nat) (ker : List Bytes → U64 → Bytes → R Bytes) : Prop :=
  ∀ inputs off out, k ≤ inputs.length → (∀ i, i < k → 64 * blocks ≤ (inputs.getD i []).length) →
    32 * k ≤ out.length →
    ker inputs off out = .ok (Spec.manyOut key off d flags fs fe blocks k inputs ++ out.drop (32 * k))

/-- one iteration of a loop of `hash_many_...` -/
def batch (k : Nat) (ker : List Bytes → U64 → Bytes → R Bytes) (deltas : List U64)
    (f : Nat → List Bytes → U64 → Bytes → R Bytes) (num : Nat) (inputs : List Bytes) (off : U64) (out : Bytes) :
    R Bytes := do
  let out ← ker inputs off out
  let inputs ← cAdvance inputs k
  let off := off + (← cIndex deltas k)
  let rest ← cAdvance out (k * 32)
  let rest ← f (num - k) inputs off rest
  return out.take (k * 32) ++ rest

theorem loop_ok (k : Nat) (hk : 0 < k) (deltas : List U64) (ker : List Bytes → U64 → Bytes → R Bytes)
    (f next : Nat → List Bytes → U64 → Bytes → R Bytes)
    (hf : ∀ num inputs off out, f num inputs off out =
      if k ≤ num then batch k ker deltas f num inputs off out else next num inputs off out)
    (hker : KerOk key d flags fs fe blocks k ker) (hnext : Good key d flags fs fe blocks (some k) next)
    (hd : deltas[k]? = some (BitVec.ofNat 64 k * d)) : Good key d flags fs fe blocks none f := by
  intro num
  induction num using Nat.strongRecOn with
  | ind num ih =>
    intro inputs off out _ hin hlen hout
    rw [hf]
    split
    next h =>
      have hadv : cAdvance (Spec.manyOut key off d flags fs fe blocks k inputs ++ out.drop (32 * k)) (k * 32) =
          .ok (out.drop (32 * k)) := by
        rw [cAdvance_ok _ _ (by rw [List.length_append, length_manyOut]; omega),
          List.drop_left' (by rw [length_manyOut]; omega)]
      rw [batch, hker inputs off out (by omega) (fun i hi => hlen i (by omega)) (by omega), bind_ok,
        cAdvance_ok _ _ (by omega), bind_ok, cIndex_some _ _ _ hd, bind_ok, hadv, bind_ok,
        ih (num - k) (by omega) _ _ _ (by simp) (by rw [List.length_drop]; omega) (fun i hi => by
          have := hlen (k + i) (by omega)
          simpa [List.getD_eq_getElem?_getD, List.getElem?_drop] using this) (by rw [List.length_drop]; omega),
        bind_ok, pure_eq, List.take_left' (by rw [length_manyOut]; omega), List.drop_drop, ← List.append_assoc,
        ← manyOut_add]
      have e1 : k + (num - k) = num := by omega
      have e2 : 32 * k + 32 * (num - k) = 32 * num := by omega
      rw [e1, e2]
    next h =>
      exact hnext num inputs off out (fun b' e => by cases e; omega) hin hlen hout

theorem good_zero : Good key d flags fs fe blocks (some 1) (fun _ _ _ out => .ok out) := by
  intro num inputs off out h1 _ _ _
  have : num = 0 := by have := h1 1 rfl; omega
  subst this
  rfl

theorem Good.mono {f : Nat → List Bytes → U64 → Bytes → R Bytes} (h : Good key d flags fs fe blocks none f)
    (b : Option Nat) : Good key d flags fs fe blocks b f :=
  fun num inputs off out _ => h num inputs off out (by simp)

/-- `hash_one` as a kernel for one input -/
theorem one_ker (one : Bytes → U64 → Bytes → R Bytes)
    (h1 : ∀ input off out, 64 * blocks ≤ input.length → 32 ≤ out.length →
      one input off out = .ok ((Spec.cvBytes (Spec.blockChain key off flags fs fe blocks input)).toList ++
        out.drop 32)) :
    KerOk key d flags fs fe blocks 1 (fun inputs off out => do one (← cIndex inputs 0) off out) := by
  intro inputs off out hin hlen hout
  dsimp only
  rw [cIndex_getD _ 0 [] (by omega), bind_ok, h1 _ _ _ (hlen 0 (by omega)) (by omega)]
  simp [Spec.manyOut]

end many

/-! ## hash_many_portable -/

section portable
open Model.C.Portable

theorem hash_one_portable_loop_eq (flags fe : Byte) (off : U64) (blocks : Nat) (state : Vector Word 8)
    (input : Bytes) (bf : Byte) :
    hash_one_portable_loop flags fe off blocks state input bf =
      oneLoop compress_portable flags fe off blocks state input bf := by
  induction blocks generalizing state input bf with
  | zero => rfl
  | succ n ih => simp only [hash_one_portable_loop, oneLoop, ih]

theorem hash_one_portable_eq (key : Vector Word 8) (flags fs fe : Byte) (blocks : Nat) (input : Bytes) (off : U64)
    (out : Bytes) (hi : 64 * blocks ≤ input.length) (ho : 32 ≤ out.length) :
    hash_one_portable input blocks key off flags fs fe out =
      .ok ((Spec.cvBytes (Spec.blockChain key off flags fs fe blocks input)).toList ++ out.drop 32) := by
  rw [hash_one_portable, hash_one_portable_loop_eq, oneLoop_eq compress_portable_ok _ _ _ _ _ _ _ hi, bind_ok,
    cvLoop_chain _ _ _ _ _ _ _ hi, write_state_bytes_eq _ _ ho]

theorem portable_good (key : Vector Word 8) (d : U64) (flags fs fe : Byte) (blocks : Nat) (deltas : List U64)
    (hd : deltas[1]? = some (BitVec.ofNat 64 1 * d)) :
    Good key d flags fs fe blocks none (hash_many_portable_loop blocks key deltas flags fs fe) := by
  refine loop_ok key d flags fs fe blocks 1 (by decide) deltas
    (fun inputs off out => do hash_one_portable (← cIndex inputs 0) blocks key off flags fs fe out) _
    (fun _ _ _ out => .ok out) ?_ (one_ker key d flags fs fe blocks _ (hash_one_portable_eq key flags fs fe blocks))
    (good_zero key d flags fs fe blocks) hd
  intro num inputs off out
  cases num with
  | zero => rw [if_neg (by omega)]; rfl
  | succ n =>
    rw [if_pos (by omega), hash_many_portable_loop, batch]
    simp only [Nat.add_sub_cancel, bind_assoc, Nat.one_mul]

end portable

end Baokeshed.Proofs.C
