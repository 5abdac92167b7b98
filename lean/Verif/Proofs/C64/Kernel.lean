import Verif.Proofs.C64.Basic

/-! # C, 64-bit variant: generic N-lane kernels -/

set_option linter.unusedVariables false
set_option linter.unusedSimpArgs false

namespace Baokeshed.Proofs.W64
open Baokeshed.Model
open Baokeshed.Model.Portable64 (leWord64 leBytes64)
open Baokeshed.Model.C (cIndex cAdvance cStore)
open Baokeshed.Proofs.C (cIndex_ok cIndex_getD cIndex_some cAdvance_ok cStore_append cStore_zero getElem_vec4
  getElem_vec8 getElem_vec16 cStore_bind0 cStore_bind cStore_step len_step)
attribute [local irreducible] Spec64.compress Spec64.cvBytes

/-- `tr` transposes an `N` by `N` matrix of words -/
def TrOk {V : Type} (N : Nat) (L : Nat → V → U64) (tr : Vector V N → Vector V N) : Prop :=
  ∀ vs r p, (hr : r < N) → (hp : p < N) → L p (tr vs)[r] = L r vs[p]

/-- `load` reads `N` words -/
def LoadOk {V : Type} (N : Nat) (L : Nat → V → U64) (load : Bytes → Nat → R V) : Prop :=
  ∀ p off, off + 8 * N ≤ p.length → ∃ x, load p off = .ok x ∧ ∀ j, j < N → L j x = wordAt p off j

/-- the message vectors hold, in lane `i`, the words of the block of input `i` -/
def MsgOk {V : Type} (N : Nat) (L : Nat → V → U64) (trm : List Bytes → Nat → R (Vector V 16)) : Prop :=
  ∀ inputs off, N ≤ inputs.length → (∀ i, i < N → off + 128 ≤ (inputs.getD i []).length) →
    ∃ m, trm inputs off = .ok m ∧ ∀ i, i < N →
      m.map (L i) = Portable64.words_from_block (Spec64.pad ((inputs.getD i []).drop off))

/-- lane `i` is stored as output `i` -/
def StoreOk {V : Type} (N : Nat) (L : Nat → V → U64) (store : Vector V 4 → Bytes → R Bytes) : Prop :=
  ∀ h out, 32 * N ≤ out.length → store h out =
    .ok (((List.range N).flatMap fun i => Spec64.cvBytes (h.map (L i))) ++ out.drop (32 * N))

/-- lane `i` is the offset of input `i` -/
def OffsOk {V : Type} (N : Nat) (L : Nat → V → U64) (δ : Nat → U64) (deltas : List U64)
    (ldo : U64 → List U64 → R V) : Prop :=
  ∀ off, ∃ x, ldo off deltas = .ok x ∧ ∀ i, i < N → L i x = off + δ i

theorem wordAt_shift (p : Bytes) (off k r : Nat) : wordAt p (off + 8 * k) r = wordAt p off (k + r) := by
  simp only [wordAt, Nat.mul_add, Nat.add_assoc]

theorem getElem_vec2 {α} (v : Vector α 2) : v = #v[v[0], v[1]] := by
  ext i hi
  rcases i with _|_|i
  all_goals first | rfl | omega

theorem append2_8 {α} (a0 a1 a2 a3 a4 a5 a6 a7 a8 a9 a10 a11 a12 a13 a14 a15 : α) :
    (#v[a0, a1] ++ #v[a2, a3] ++ #v[a4, a5] ++ #v[a6, a7] ++ #v[a8, a9] ++ #v[a10, a11] ++ #v[a12, a13] ++
      #v[a14, a15] : Vector α 16) =
    #v[a0, a1, a2, a3, a4, a5, a6, a7, a8, a9, a10, a11, a12, a13, a14, a15] := by
  have e1 : (#v[a0, a1] ++ #v[a2, a3] ++ #v[a4, a5] ++ #v[a6, a7] : Vector α 8) = #v[a0, a1, a2, a3, a4, a5, a6, a7] := rfl
  have e2 : (#v[a0, a1, a2, a3, a4, a5, a6, a7] ++ #v[a8, a9] ++ #v[a10, a11] : Vector α 12) = #v[a0, a1, a2, a3, a4, a5, a6, a7, a8, a9, a10, a11] := rfl
  have e3 : (#v[a0, a1, a2, a3, a4, a5, a6, a7, a8, a9, a10, a11] ++ #v[a12, a13] ++ #v[a14, a15] : Vector α 16) = #v[a0, a1, a2, a3, a4, a5, a6, a7, a8, a9, a10, a11, a12, a13, a14, a15] := rfl
  refine (congrArg (fun v : Vector α 8 => (v ++ #v[a8, a9] ++ #v[a10, a11] ++ #v[a12, a13] ++ #v[a14, a15] : Vector α 16)) e1).trans ?_
  exact (congrArg (fun v : Vector α 12 => (v ++ #v[a12, a13] ++ #v[a14, a15] : Vector α 16)) e2).trans e3
theorem append4_4 {α} (a0 a1 a2 a3 a4 a5 a6 a7 a8 a9 a10 a11 a12 a13 a14 a15 : α) :
    (#v[a0, a1, a2, a3] ++ #v[a4, a5, a6, a7] ++ #v[a8, a9, a10, a11] ++ #v[a12, a13, a14, a15] : Vector α 16) =
    #v[a0, a1, a2, a3, a4, a5, a6, a7, a8, a9, a10, a11, a12, a13, a14, a15] := rfl
theorem append8_2 {α} (a0 a1 a2 a3 a4 a5 a6 a7 a8 a9 a10 a11 a12 a13 a14 a15 : α) :
    (#v[a0, a1, a2, a3, a4, a5, a6, a7] ++ #v[a8, a9, a10, a11, a12, a13, a14, a15] : Vector α 16) =
    #v[a0, a1, a2, a3, a4, a5, a6, a7, a8, a9, a10, a11, a12, a13, a14, a15] := rfl

/-- `transpose_msg_vecs` for 2 lanes -/
def msg2 {V : Type} (load : Bytes → Nat → R V) (tr : Vector V 2 → Vector V 2) (inputs : List Bytes)
    (block_offset : Nat) : R (Vector V 16) := do
  let out0 ← load (← cIndex inputs 0) (block_offset + 0 * 16)
  let out1 ← load (← cIndex inputs 1) (block_offset + 0 * 16)
  let out2 ← load (← cIndex inputs 0) (block_offset + 1 * 16)
  let out3 ← load (← cIndex inputs 1) (block_offset + 1 * 16)
  let out4 ← load (← cIndex inputs 0) (block_offset + 2 * 16)
  let out5 ← load (← cIndex inputs 1) (block_offset + 2 * 16)
  let out6 ← load (← cIndex inputs 0) (block_offset + 3 * 16)
  let out7 ← load (← cIndex inputs 1) (block_offset + 3 * 16)
  let out8 ← load (← cIndex inputs 0) (block_offset + 4 * 16)
  let out9 ← load (← cIndex inputs 1) (block_offset + 4 * 16)
  let out10 ← load (← cIndex inputs 0) (block_offset + 5 * 16)
  let out11 ← load (← cIndex inputs 1) (block_offset + 5 * 16)
  let out12 ← load (← cIndex inputs 0) (block_offset + 6 * 16)
  let out13 ← load (← cIndex inputs 1) (block_offset + 6 * 16)
  let out14 ← load (← cIndex inputs 0) (block_offset + 7 * 16)
  let out15 ← load (← cIndex inputs 1) (block_offset + 7 * 16)
  let sq0 := tr #v[out0, out1]
  let sq1 := tr #v[out2, out3]
  let sq2 := tr #v[out4, out5]
  let sq3 := tr #v[out6, out7]
  let sq4 := tr #v[out8, out9]
  let sq5 := tr #v[out10, out11]
  let sq6 := tr #v[out12, out13]
  let sq7 := tr #v[out14, out15]
  return sq0 ++ sq1 ++ sq2 ++ sq3 ++ sq4 ++ sq5 ++ sq6 ++ sq7

theorem msg2_ok {V : Type} (L : Nat → V → U64) (load : Bytes → Nat → R V) (tr : Vector V 2 → Vector V 2)
    (hload : LoadOk 2 L load) (htr : TrOk 2 L tr) : MsgOk 2 L (msg2 load tr) := by
  intro inputs off hN hlen
  have hi : ∀ i, i < 2 → cIndex inputs i = .ok (inputs.getD i []) := fun i h => cIndex_getD _ _ _ (by omega)
  have H : ∀ i, i < 2 → ∀ k, k < 8 → ∃ x, load (inputs.getD i []) (off + 8 * (2 * k)) = .ok x ∧
      ∀ j, j < 2 → L j x = wordAt (inputs.getD i []) off (2 * k + j) := by
    intro i hi k hk
    obtain ⟨x, e, l⟩ := hload (inputs.getD i []) (off + 8 * (2 * k)) (by have := hlen i hi; omega)
    exact ⟨x, e, fun j hj => by rw [l j hj, wordAt_shift]⟩
  obtain ⟨x0, e0, l0⟩ := H 0 (by decide) 0 (by decide)
  obtain ⟨x1, e1, l1⟩ := H 1 (by decide) 0 (by decide)
  obtain ⟨x2, e2, l2⟩ := H 0 (by decide) 1 (by decide)
  obtain ⟨x3, e3, l3⟩ := H 1 (by decide) 1 (by decide)
  obtain ⟨x4, e4, l4⟩ := H 0 (by decide) 2 (by decide)
  obtain ⟨x5, e5, l5⟩ := H 1 (by decide) 2 (by decide)
  obtain ⟨x6, e6, l6⟩ := H 0 (by decide) 3 (by decide)
  obtain ⟨x7, e7, l7⟩ := H 1 (by decide) 3 (by decide)
  obtain ⟨x8, e8, l8⟩ := H 0 (by decide) 4 (by decide)
  obtain ⟨x9, e9, l9⟩ := H 1 (by decide) 4 (by decide)
  obtain ⟨x10, e10, l10⟩ := H 0 (by decide) 5 (by decide)
  obtain ⟨x11, e11, l11⟩ := H 1 (by decide) 5 (by decide)
  obtain ⟨x12, e12, l12⟩ := H 0 (by decide) 6 (by decide)
  obtain ⟨x13, e13, l13⟩ := H 1 (by decide) 6 (by decide)
  obtain ⟨x14, e14, l14⟩ := H 0 (by decide) 7 (by decide)
  obtain ⟨x15, e15, l15⟩ := H 1 (by decide) 7 (by decide)
  simp only [Nat.reduceMul, Nat.add_zero] at e0 e1 e2 e3 e4 e5 e6 e7 e8 e9 e10 e11 e12 e13 e14 e15
  refine ⟨tr #v[x0, x1] ++ tr #v[x2, x3] ++ tr #v[x4, x5] ++ tr #v[x6, x7] ++ tr #v[x8, x9] ++ tr #v[x10, x11] ++ tr #v[x12, x13] ++ tr #v[x14, x15], by
    simp only [msg2, Nat.reduceMul, Nat.add_zero, hi _ (show 0 < 2 by decide), hi 1 (by decide),
      bind_ok, pure_eq, e0, e1, e2, e3, e4, e5, e6, e7, e8, e9, e10, e11, e12, e13, e14, e15], ?_⟩
  intro p hp
  rw [words_pad, ofFn16]
  rw [getElem_vec2 (tr #v[x0, x1])]
  rw [getElem_vec2 (tr #v[x2, x3])]
  rw [getElem_vec2 (tr #v[x4, x5])]
  rw [getElem_vec2 (tr #v[x6, x7])]
  rw [getElem_vec2 (tr #v[x8, x9])]
  rw [getElem_vec2 (tr #v[x10, x11])]
  rw [getElem_vec2 (tr #v[x12, x13])]
  rw [getElem_vec2 (tr #v[x14, x15])]
  rw [append2_8, map16]
  simp only [htr _ 0 p (by decide) hp, htr _ 1 p (by decide) hp]
  rcases p with _|_|p
  · have g : ∀ a0 a1 : V, #v[a0, a1][0] = a0 := fun _ _ => rfl
    simp only [Nat.reduceAdd, Nat.zero_add, g, l0 0 (by decide), l0 1 (by decide), l2 0 (by decide), l2 1 (by decide), l4 0 (by decide), l4 1 (by decide), l6 0 (by decide), l6 1 (by decide), l8 0 (by decide), l8 1 (by decide), l10 0 (by decide), l10 1 (by decide), l12 0 (by decide), l12 1 (by decide), l14 0 (by decide), l14 1 (by decide)]; rfl
  · have g : ∀ a0 a1 : V, #v[a0, a1][1] = a1 := fun _ _ => rfl
    simp only [Nat.reduceAdd, Nat.zero_add, g, l1 0 (by decide), l1 1 (by decide), l3 0 (by decide), l3 1 (by decide), l5 0 (by decide), l5 1 (by decide), l7 0 (by decide), l7 1 (by decide), l9 0 (by decide), l9 1 (by decide), l11 0 (by decide), l11 1 (by decide), l13 0 (by decide), l13 1 (by decide), l15 0 (by decide), l15 1 (by decide)]; rfl
  · omega

/-- `transpose_msg_vecs` for 4 lanes -/
def msg4 {V : Type} (load : Bytes → Nat → R V) (tr : Vector V 4 → Vector V 4) (inputs : List Bytes)
    (block_offset : Nat) : R (Vector V 16) := do
  let out0 ← load (← cIndex inputs 0) (block_offset + 0 * 32)
  let out1 ← load (← cIndex inputs 1) (block_offset + 0 * 32)
  let out2 ← load (← cIndex inputs 2) (block_offset + 0 * 32)
  let out3 ← load (← cIndex inputs 3) (block_offset + 0 * 32)
  let out4 ← load (← cIndex inputs 0) (block_offset + 1 * 32)
  let out5 ← load (← cIndex inputs 1) (block_offset + 1 * 32)
  let out6 ← load (← cIndex inputs 2) (block_offset + 1 * 32)
  let out7 ← load (← cIndex inputs 3) (block_offset + 1 * 32)
  let out8 ← load (← cIndex inputs 0) (block_offset + 2 * 32)
  let out9 ← load (← cIndex inputs 1) (block_offset + 2 * 32)
  let out10 ← load (← cIndex inputs 2) (block_offset + 2 * 32)
  let out11 ← load (← cIndex inputs 3) (block_offset + 2 * 32)
  let out12 ← load (← cIndex inputs 0) (block_offset + 3 * 32)
  let out13 ← load (← cIndex inputs 1) (block_offset + 3 * 32)
  let out14 ← load (← cIndex inputs 2) (block_offset + 3 * 32)
  let out15 ← load (← cIndex inputs 3) (block_offset + 3 * 32)
  let sq0 := tr #v[out0, out1, out2, out3]
  let sq1 := tr #v[out4, out5, out6, out7]
  let sq2 := tr #v[out8, out9, out10, out11]
  let sq3 := tr #v[out12, out13, out14, out15]
  return sq0 ++ sq1 ++ sq2 ++ sq3

theorem msg4_ok {V : Type} (L : Nat → V → U64) (load : Bytes → Nat → R V) (tr : Vector V 4 → Vector V 4)
    (hload : LoadOk 4 L load) (htr : TrOk 4 L tr) : MsgOk 4 L (msg4 load tr) := by
  intro inputs off hN hlen
  have hi : ∀ i, i < 4 → cIndex inputs i = .ok (inputs.getD i []) := fun i h => cIndex_getD _ _ _ (by omega)
  have H : ∀ i, i < 4 → ∀ k, k < 4 → ∃ x, load (inputs.getD i []) (off + 8 * (4 * k)) = .ok x ∧
      ∀ j, j < 4 → L j x = wordAt (inputs.getD i []) off (4 * k + j) := by
    intro i hi k hk
    obtain ⟨x, e, l⟩ := hload (inputs.getD i []) (off + 8 * (4 * k)) (by have := hlen i hi; omega)
    exact ⟨x, e, fun j hj => by rw [l j hj, wordAt_shift]⟩
  obtain ⟨x0, e0, l0⟩ := H 0 (by decide) 0 (by decide)
  obtain ⟨x1, e1, l1⟩ := H 1 (by decide) 0 (by decide)
  obtain ⟨x2, e2, l2⟩ := H 2 (by decide) 0 (by decide)
  obtain ⟨x3, e3, l3⟩ := H 3 (by decide) 0 (by decide)
  obtain ⟨x4, e4, l4⟩ := H 0 (by decide) 1 (by decide)
  obtain ⟨x5, e5, l5⟩ := H 1 (by decide) 1 (by decide)
  obtain ⟨x6, e6, l6⟩ := H 2 (by decide) 1 (by decide)
  obtain ⟨x7, e7, l7⟩ := H 3 (by decide) 1 (by decide)
  obtain ⟨x8, e8, l8⟩ := H 0 (by decide) 2 (by decide)
  obtain ⟨x9, e9, l9⟩ := H 1 (by decide) 2 (by decide)
  obtain ⟨x10, e10, l10⟩ := H 2 (by decide) 2 (by decide)
  obtain ⟨x11, e11, l11⟩ := H 3 (by decide) 2 (by decide)
  obtain ⟨x12, e12, l12⟩ := H 0 (by decide) 3 (by decide)
  obtain ⟨x13, e13, l13⟩ := H 1 (by decide) 3 (by decide)
  obtain ⟨x14, e14, l14⟩ := H 2 (by decide) 3 (by decide)
  obtain ⟨x15, e15, l15⟩ := H 3 (by decide) 3 (by decide)
  simp only [Nat.reduceMul, Nat.add_zero] at e0 e1 e2 e3 e4 e5 e6 e7 e8 e9 e10 e11 e12 e13 e14 e15
  refine ⟨tr #v[x0, x1, x2, x3] ++ tr #v[x4, x5, x6, x7] ++ tr #v[x8, x9, x10, x11] ++ tr #v[x12, x13, x14, x15], by
    simp only [msg4, Nat.reduceMul, Nat.add_zero, hi _ (show 0 < 4 by decide), hi 1 (by decide), hi 2 (by decide), hi 3 (by decide),
      bind_ok, pure_eq, e0, e1, e2, e3, e4, e5, e6, e7, e8, e9, e10, e11, e12, e13, e14, e15], ?_⟩
  intro p hp
  rw [words_pad, ofFn16]
  rw [getElem_vec4 (tr #v[x0, x1, x2, x3])]
  rw [getElem_vec4 (tr #v[x4, x5, x6, x7])]
  rw [getElem_vec4 (tr #v[x8, x9, x10, x11])]
  rw [getElem_vec4 (tr #v[x12, x13, x14, x15])]
  rw [append4_4, map16]
  simp only [htr _ 0 p (by decide) hp, htr _ 1 p (by decide) hp, htr _ 2 p (by decide) hp, htr _ 3 p (by decide) hp]
  rcases p with _|_|_|_|p
  · have g : ∀ a0 a1 a2 a3 : V, #v[a0, a1, a2, a3][0] = a0 := fun _ _ _ _ => rfl
    simp only [Nat.reduceAdd, Nat.zero_add, g, l0 0 (by decide), l0 1 (by decide), l0 2 (by decide), l0 3 (by decide), l4 0 (by decide), l4 1 (by decide), l4 2 (by decide), l4 3 (by decide), l8 0 (by decide), l8 1 (by decide), l8 2 (by decide), l8 3 (by decide), l12 0 (by decide), l12 1 (by decide), l12 2 (by decide), l12 3 (by decide)]; rfl
  · have g : ∀ a0 a1 a2 a3 : V, #v[a0, a1, a2, a3][1] = a1 := fun _ _ _ _ => rfl
    simp only [Nat.reduceAdd, Nat.zero_add, g, l1 0 (by decide), l1 1 (by decide), l1 2 (by decide), l1 3 (by decide), l5 0 (by decide), l5 1 (by decide), l5 2 (by decide), l5 3 (by decide), l9 0 (by decide), l9 1 (by decide), l9 2 (by decide), l9 3 (by decide), l13 0 (by decide), l13 1 (by decide), l13 2 (by decide), l13 3 (by decide)]; rfl
  · have g : ∀ a0 a1 a2 a3 : V, #v[a0, a1, a2, a3][2] = a2 := fun _ _ _ _ => rfl
    simp only [Nat.reduceAdd, Nat.zero_add, g, l2 0 (by decide), l2 1 (by decide), l2 2 (by decide), l2 3 (by decide), l6 0 (by decide), l6 1 (by decide), l6 2 (by decide), l6 3 (by decide), l10 0 (by decide), l10 1 (by decide), l10 2 (by decide), l10 3 (by decide), l14 0 (by decide), l14 1 (by decide), l14 2 (by decide), l14 3 (by decide)]; rfl
  · have g : ∀ a0 a1 a2 a3 : V, #v[a0, a1, a2, a3][3] = a3 := fun _ _ _ _ => rfl
    simp only [Nat.reduceAdd, Nat.zero_add, g, l3 0 (by decide), l3 1 (by decide), l3 2 (by decide), l3 3 (by decide), l7 0 (by decide), l7 1 (by decide), l7 2 (by decide), l7 3 (by decide), l11 0 (by decide), l11 1 (by decide), l11 2 (by decide), l11 3 (by decide), l15 0 (by decide), l15 1 (by decide), l15 2 (by decide), l15 3 (by decide)]; rfl
  · omega

/-- `transpose_msg_vecs` for 8 lanes -/
def msg8 {V : Type} (load : Bytes → Nat → R V) (tr : Vector V 8 → Vector V 8) (inputs : List Bytes)
    (block_offset : Nat) : R (Vector V 16) := do
  let out0 ← load (← cIndex inputs 0) (block_offset + 0 * 64)
  let out1 ← load (← cIndex inputs 1) (block_offset + 0 * 64)
  let out2 ← load (← cIndex inputs 2) (block_offset + 0 * 64)
  let out3 ← load (← cIndex inputs 3) (block_offset + 0 * 64)
  let out4 ← load (← cIndex inputs 4) (block_offset + 0 * 64)
  let out5 ← load (← cIndex inputs 5) (block_offset + 0 * 64)
  let out6 ← load (← cIndex inputs 6) (block_offset + 0 * 64)
  let out7 ← load (← cIndex inputs 7) (block_offset + 0 * 64)
  let out8 ← load (← cIndex inputs 0) (block_offset + 1 * 64)
  let out9 ← load (← cIndex inputs 1) (block_offset + 1 * 64)
  let out10 ← load (← cIndex inputs 2) (block_offset + 1 * 64)
  let out11 ← load (← cIndex inputs 3) (block_offset + 1 * 64)
  let out12 ← load (← cIndex inputs 4) (block_offset + 1 * 64)
  let out13 ← load (← cIndex inputs 5) (block_offset + 1 * 64)
  let out14 ← load (← cIndex inputs 6) (block_offset + 1 * 64)
  let out15 ← load (← cIndex inputs 7) (block_offset + 1 * 64)
  let sq0 := tr #v[out0, out1, out2, out3, out4, out5, out6, out7]
  let sq1 := tr #v[out8, out9, out10, out11, out12, out13, out14, out15]
  return sq0 ++ sq1

theorem msg8_ok {V : Type} (L : Nat → V → U64) (load : Bytes → Nat → R V) (tr : Vector V 8 → Vector V 8)
    (hload : LoadOk 8 L load) (htr : TrOk 8 L tr) : MsgOk 8 L (msg8 load tr) := by
  intro inputs off hN hlen
  have hi : ∀ i, i < 8 → cIndex inputs i = .ok (inputs.getD i []) := fun i h => cIndex_getD _ _ _ (by omega)
  have H : ∀ i, i < 8 → ∀ k, k < 2 → ∃ x, load (inputs.getD i []) (off + 8 * (8 * k)) = .ok x ∧
      ∀ j, j < 8 → L j x = wordAt (inputs.getD i []) off (8 * k + j) := by
    intro i hi k hk
    obtain ⟨x, e, l⟩ := hload (inputs.getD i []) (off + 8 * (8 * k)) (by have := hlen i hi; omega)
    exact ⟨x, e, fun j hj => by rw [l j hj, wordAt_shift]⟩
  obtain ⟨x0, e0, l0⟩ := H 0 (by decide) 0 (by decide)
  obtain ⟨x1, e1, l1⟩ := H 1 (by decide) 0 (by decide)
  obtain ⟨x2, e2, l2⟩ := H 2 (by decide) 0 (by decide)
  obtain ⟨x3, e3, l3⟩ := H 3 (by decide) 0 (by decide)
  obtain ⟨x4, e4, l4⟩ := H 4 (by decide) 0 (by decide)
  obtain ⟨x5, e5, l5⟩ := H 5 (by decide) 0 (by decide)
  obtain ⟨x6, e6, l6⟩ := H 6 (by decide) 0 (by decide)
  obtain ⟨x7, e7, l7⟩ := H 7 (by decide) 0 (by decide)
  obtain ⟨x8, e8, l8⟩ := H 0 (by decide) 1 (by decide)
  obtain ⟨x9, e9, l9⟩ := H 1 (by decide) 1 (by decide)
  obtain ⟨x10, e10, l10⟩ := H 2 (by decide) 1 (by decide)
  obtain ⟨x11, e11, l11⟩ := H 3 (by decide) 1 (by decide)
  obtain ⟨x12, e12, l12⟩ := H 4 (by decide) 1 (by decide)
  obtain ⟨x13, e13, l13⟩ := H 5 (by decide) 1 (by decide)
  obtain ⟨x14, e14, l14⟩ := H 6 (by decide) 1 (by decide)
  obtain ⟨x15, e15, l15⟩ := H 7 (by decide) 1 (by decide)
  simp only [Nat.reduceMul, Nat.add_zero] at e0 e1 e2 e3 e4 e5 e6 e7 e8 e9 e10 e11 e12 e13 e14 e15
  refine ⟨tr #v[x0, x1, x2, x3, x4, x5, x6, x7] ++ tr #v[x8, x9, x10, x11, x12, x13, x14, x15], by
    simp only [msg8, Nat.reduceMul, Nat.add_zero, hi _ (show 0 < 8 by decide), hi 1 (by decide), hi 2 (by decide), hi 3 (by decide), hi 4 (by decide), hi 5 (by decide), hi 6 (by decide), hi 7 (by decide),
      bind_ok, pure_eq, e0, e1, e2, e3, e4, e5, e6, e7, e8, e9, e10, e11, e12, e13, e14, e15], ?_⟩
  intro p hp
  rw [words_pad, ofFn16]
  rw [getElem_vec8 (tr #v[x0, x1, x2, x3, x4, x5, x6, x7])]
  rw [getElem_vec8 (tr #v[x8, x9, x10, x11, x12, x13, x14, x15])]
  rw [append8_2, map16]
  simp only [htr _ 0 p (by decide) hp, htr _ 1 p (by decide) hp, htr _ 2 p (by decide) hp, htr _ 3 p (by decide) hp, htr _ 4 p (by decide) hp, htr _ 5 p (by decide) hp, htr _ 6 p (by decide) hp, htr _ 7 p (by decide) hp]
  rcases p with _|_|_|_|_|_|_|_|p
  · have g : ∀ a0 a1 a2 a3 a4 a5 a6 a7 : V, #v[a0, a1, a2, a3, a4, a5, a6, a7][0] = a0 := fun _ _ _ _ _ _ _ _ => rfl
    simp only [Nat.reduceAdd, Nat.zero_add, g, l0 0 (by decide), l0 1 (by decide), l0 2 (by decide), l0 3 (by decide), l0 4 (by decide), l0 5 (by decide), l0 6 (by decide), l0 7 (by decide), l8 0 (by decide), l8 1 (by decide), l8 2 (by decide), l8 3 (by decide), l8 4 (by decide), l8 5 (by decide), l8 6 (by decide), l8 7 (by decide)]; rfl
  · have g : ∀ a0 a1 a2 a3 a4 a5 a6 a7 : V, #v[a0, a1, a2, a3, a4, a5, a6, a7][1] = a1 := fun _ _ _ _ _ _ _ _ => rfl
    simp only [Nat.reduceAdd, Nat.zero_add, g, l1 0 (by decide), l1 1 (by decide), l1 2 (by decide), l1 3 (by decide), l1 4 (by decide), l1 5 (by decide), l1 6 (by decide), l1 7 (by decide), l9 0 (by decide), l9 1 (by decide), l9 2 (by decide), l9 3 (by decide), l9 4 (by decide), l9 5 (by decide), l9 6 (by decide), l9 7 (by decide)]; rfl
  · have g : ∀ a0 a1 a2 a3 a4 a5 a6 a7 : V, #v[a0, a1, a2, a3, a4, a5, a6, a7][2] = a2 := fun _ _ _ _ _ _ _ _ => rfl
    simp only [Nat.reduceAdd, Nat.zero_add, g, l2 0 (by decide), l2 1 (by decide), l2 2 (by decide), l2 3 (by decide), l2 4 (by decide), l2 5 (by decide), l2 6 (by decide), l2 7 (by decide), l10 0 (by decide), l10 1 (by decide), l10 2 (by decide), l10 3 (by decide), l10 4 (by decide), l10 5 (by decide), l10 6 (by decide), l10 7 (by decide)]; rfl
  · have g : ∀ a0 a1 a2 a3 a4 a5 a6 a7 : V, #v[a0, a1, a2, a3, a4, a5, a6, a7][3] = a3 := fun _ _ _ _ _ _ _ _ => rfl
    simp only [Nat.reduceAdd, Nat.zero_add, g, l3 0 (by decide), l3 1 (by decide), l3 2 (by decide), l3 3 (by decide), l3 4 (by decide), l3 5 (by decide), l3 6 (by decide), l3 7 (by decide), l11 0 (by decide), l11 1 (by decide), l11 2 (by decide), l11 3 (by decide), l11 4 (by decide), l11 5 (by decide), l11 6 (by decide), l11 7 (by decide)]; rfl
  · have g : ∀ a0 a1 a2 a3 a4 a5 a6 a7 : V, #v[a0, a1, a2, a3, a4, a5, a6, a7][4] = a4 := fun _ _ _ _ _ _ _ _ => rfl
    simp only [Nat.reduceAdd, Nat.zero_add, g, l4 0 (by decide), l4 1 (by decide), l4 2 (by decide), l4 3 (by decide), l4 4 (by decide), l4 5 (by decide), l4 6 (by decide), l4 7 (by decide), l12 0 (by decide), l12 1 (by decide), l12 2 (by decide), l12 3 (by decide), l12 4 (by decide), l12 5 (by decide), l12 6 (by decide), l12 7 (by decide)]; rfl
  · have g : ∀ a0 a1 a2 a3 a4 a5 a6 a7 : V, #v[a0, a1, a2, a3, a4, a5, a6, a7][5] = a5 := fun _ _ _ _ _ _ _ _ => rfl
    simp only [Nat.reduceAdd, Nat.zero_add, g, l5 0 (by decide), l5 1 (by decide), l5 2 (by decide), l5 3 (by decide), l5 4 (by decide), l5 5 (by decide), l5 6 (by decide), l5 7 (by decide), l13 0 (by decide), l13 1 (by decide), l13 2 (by decide), l13 3 (by decide), l13 4 (by decide), l13 5 (by decide), l13 6 (by decide), l13 7 (by decide)]; rfl
  · have g : ∀ a0 a1 a2 a3 a4 a5 a6 a7 : V, #v[a0, a1, a2, a3, a4, a5, a6, a7][6] = a6 := fun _ _ _ _ _ _ _ _ => rfl
    simp only [Nat.reduceAdd, Nat.zero_add, g, l6 0 (by decide), l6 1 (by decide), l6 2 (by decide), l6 3 (by decide), l6 4 (by decide), l6 5 (by decide), l6 6 (by decide), l6 7 (by decide), l14 0 (by decide), l14 1 (by decide), l14 2 (by decide), l14 3 (by decide), l14 4 (by decide), l14 5 (by decide), l14 6 (by decide), l14 7 (by decide)]; rfl
  · have g : ∀ a0 a1 a2 a3 a4 a5 a6 a7 : V, #v[a0, a1, a2, a3, a4, a5, a6, a7][7] = a7 := fun _ _ _ _ _ _ _ _ => rfl
    simp only [Nat.reduceAdd, Nat.zero_add, g, l7 0 (by decide), l7 1 (by decide), l7 2 (by decide), l7 3 (by decide), l7 4 (by decide), l7 5 (by decide), l7 6 (by decide), l7 7 (by decide), l15 0 (by decide), l15 1 (by decide), l15 2 (by decide), l15 3 (by decide), l15 4 (by decide), l15 5 (by decide), l15 6 (by decide), l15 7 (by decide)]; rfl
  · omega

theorem store4 (out d0 d1 d2 d3 : Bytes) (k : Nat) (h0 : d0.length = k) (h1 : d1.length = k) (h2 : d2.length = k) (h3 : d3.length = k)
    (h : 4 * k ≤ out.length) :
    (do
      let out ← cStore out (0 * k) d0
      let out ← cStore out (1 * k) d1
      let out ← cStore out (2 * k) d2
      let out ← cStore out (3 * k) d3
      return out : R Bytes) =
    .ok (d0 ++ (d1 ++ (d2 ++ (d3 ++ out.drop (4 * k))))) := by
  have l : ∀ j, j ≤ 4 → j * k ≤ out.length := fun j hj => Nat.le_trans (Nat.mul_le_mul_right k hj) h
  refine (cStore_bind0 out d0 k h0 (by rw [← Nat.one_mul k]; exact l 1 (by decide)) _).trans ?_
  have p0 : d0.length = 1 * k := by rw [Nat.one_mul]; exact h0
  refine (cStore_bind _ out d1 k 1 p0 h1 (l 2 (by decide)) _).trans ?_
  have p1 := len_step p0 h1
  refine (cStore_bind _ out d2 k 2 p1 h2 (l 3 (by decide)) _).trans ?_
  have p2 := len_step p1 h2
  refine (cStore_step _ out d3 k 3 p2 h3 (l 4 (by decide))).trans ?_
  simp only [List.append_assoc, pure_eq, Nat.reduceAdd]

theorem store8 (out d0 d1 d2 d3 d4 d5 d6 d7 : Bytes) (k : Nat) (h0 : d0.length = k) (h1 : d1.length = k) (h2 : d2.length = k) (h3 : d3.length = k) (h4 : d4.length = k) (h5 : d5.length = k) (h6 : d6.length = k) (h7 : d7.length = k)
    (h : 8 * k ≤ out.length) :
    (do
      let out ← cStore out (0 * k) d0
      let out ← cStore out (1 * k) d1
      let out ← cStore out (2 * k) d2
      let out ← cStore out (3 * k) d3
      let out ← cStore out (4 * k) d4
      let out ← cStore out (5 * k) d5
      let out ← cStore out (6 * k) d6
      let out ← cStore out (7 * k) d7
      return out : R Bytes) =
    .ok (d0 ++ (d1 ++ (d2 ++ (d3 ++ (d4 ++ (d5 ++ (d6 ++ (d7 ++ out.drop (8 * k))))))))) := by
  have l : ∀ j, j ≤ 8 → j * k ≤ out.length := fun j hj => Nat.le_trans (Nat.mul_le_mul_right k hj) h
  refine (cStore_bind0 out d0 k h0 (by rw [← Nat.one_mul k]; exact l 1 (by decide)) _).trans ?_
  have p0 : d0.length = 1 * k := by rw [Nat.one_mul]; exact h0
  refine (cStore_bind _ out d1 k 1 p0 h1 (l 2 (by decide)) _).trans ?_
  have p1 := len_step p0 h1
  refine (cStore_bind _ out d2 k 2 p1 h2 (l 3 (by decide)) _).trans ?_
  have p2 := len_step p1 h2
  refine (cStore_bind _ out d3 k 3 p2 h3 (l 4 (by decide)) _).trans ?_
  have p3 := len_step p2 h3
  refine (cStore_bind _ out d4 k 4 p3 h4 (l 5 (by decide)) _).trans ?_
  have p4 := len_step p3 h4
  refine (cStore_bind _ out d5 k 5 p4 h5 (l 6 (by decide)) _).trans ?_
  have p5 := len_step p4 h5
  refine (cStore_bind _ out d6 k 6 p5 h6 (l 7 (by decide)) _).trans ?_
  have p6 := len_step p5 h6
  refine (cStore_step _ out d7 k 7 p6 h7 (l 8 (by decide))).trans ?_
  simp only [List.append_assoc, pure_eq, Nat.reduceAdd]


/-! ## 64-bit lanes -/

theorem lane64_fromLanes8 (k : Nat) (f : Nat → Byte) (j : Nat) (hj : j < k) :
    lane 64 (fromLanes 8 (8 * k) f) j = leWord64 (f (8 * j)) (f (8 * j + 1)) (f (8 * j + 2)) (f (8 * j + 3))
      (f (8 * j + 4)) (f (8 * j + 5)) (f (8 * j + 6)) (f (8 * j + 7)) := by
  apply lanes_ext 8 8
  intro i hi
  have h1 : lane 8 (lane 64 (fromLanes 8 (8 * k) f) j) i = lane 8 (fromLanes 8 (8 * k) f) (8 * j + i) :=
    lane_lane 8 8 _ j i hi
  rw [h1, lane_fromLanes 8 (8 * k) f _ (by omega)]
  have e := lane_leWord64 #v[f (8 * j), f (8 * j + 1), f (8 * j + 2), f (8 * j + 3), f (8 * j + 4), f (8 * j + 5),
    f (8 * j + 6), f (8 * j + 7)] i hi
  refine Eq.trans ?_ e.symm
  rcases i with _|_|_|_|_|_|_|_|i
  all_goals first | rfl | omega

theorem length_regBytes64 (k : Nat) (x : BitVec (64 * k)) : (regBytes (8 * k) x).length = 8 * k := by
  simp [regBytes]

theorem leBytes64_lane (w : U64) : leBytes64 w = (List.range 8).map fun i => lane 8 w i := rfl

theorem regBytes_lanes (k : Nat) {n : Nat} (x : BitVec n) :
    regBytes (8 * k) x = (List.range k).flatMap fun i => leBytes64 (lane 64 x i) := by
  have h : ∀ i, leBytes64 (lane 64 x i) = (List.range 8).map fun j => lane 8 x (8 * i + j) := by
    intro i
    rw [leBytes64_lane]
    refine List.map_congr_left fun j hj => ?_
    exact lane_lane 8 8 x i j (List.mem_range.1 hj)
  simp only [h]
  unfold regBytes
  induction k with
  | zero => rfl
  | succ k ih =>
    rw [show 8 * (k + 1) = 8 * k + 8 by omega, List.range_add, List.map_append, ih, List.range_succ (n := k),
      List.flatMap_append, List.map_map]
    simp [Function.comp_def]

theorem memOf_eq (ws : Vector U64 4) : memOfU64s ws = Spec64.cvBytes ws := by
  rw [memOfU64s, cvBytes_toList]
  have h : ∀ w : U64, regBytes 8 w = leBytes64 w := fun w => rfl
  simp only [h]
  rw [getElem_vec4 ws]
  simp [List.append_assoc]

/-- `loadU64s` reads the first words of an array -/
theorem loadU64s_ok (k : Nat) (p : List U64) (off : Nat) (h : off + k ≤ p.length) :
    loadU64s k p off = .ok (fromLanes 64 k fun i => p.getD (off + i) 0) := by
  rw [loadU64s, if_pos h]

/-! ## the kernels -/

section kernel
variable {V : Type} (N : Nat) (L : Nat → V → U64) (o : Ops V) (set1 : U64 → V)
  (key : Vector U64 4) (d : U64) (flags fs fe : Byte) (blocks : Nat) (deltas : List U64)
  (trm : List Bytes → Nat → R (Vector V 16)) (store : Vector V 4 → Bytes → R Bytes)
  (ldo : U64 → List U64 → R V)

/-- the constants in all lanes -/
def ivs : Vector V 8 := #v[set1 Portable64.IV[0], set1 Portable64.IV[1], set1 Portable64.IV[2],
  set1 Portable64.IV[3], set1 Portable64.IV[4], set1 Portable64.IV[5], set1 Portable64.IV[6], set1 Portable64.IV[7]]

/-- the shape of `hashN_...` -/
def kern (inputs : List Bytes) (off : U64) (out : Bytes) : R Bytes := do
  let offs ← ldo off deltas
  let h ← loopG (fun b => trm inputs (b * 128))
    (fun h bf m => o.block (ivs set1) h offs
      (set1 (BitVec.ofNat 64 128)) (set1 (bf.setWidth 64)) m) blocks flags fe blocks 0
    #v[set1 key[0], set1 key[1], set1 key[2], set1 key[3]]
    (flags ||| fs)
  store h out

theorem map_set1_gen (key : Vector U64 4) (f : V → U64) (hf : ∀ x, f (set1 x) = x) :
    (#v[set1 key[0], set1 key[1], set1 key[2], set1 key[3]]).map f = key := by
  apply Vector.ext; intro j hj
  rw [Vector.getElem_map]
  rcases j with _|_|_|_|j
  all_goals first | omega | exact hf _

theorem map_ivs (f : V → U64) (hf : ∀ x, f (set1 x) = x) : (ivs set1).map f = Portable64.IV := by
  apply Vector.ext; intro j hj
  rw [Vector.getElem_map]
  rcases j with _|_|_|_|_|_|_|_|j
  all_goals first | omega | exact hf _

theorem kern_each (hom : ∀ i, i < N → LaneHom o (L i)) (hset : ∀ i, i < N → ∀ x, L i (set1 x) = x)
    (htrm : MsgOk N L trm) (hstore : StoreOk N L store) (δ : Nat → U64) (hldo : OffsOk N L δ deltas ldo)
    (inputs : List Bytes) (off : U64) (out : Bytes) (hN : N ≤ inputs.length)
    (hlen : ∀ i, i < N → 128 * blocks ≤ (inputs.getD i []).length) (hout : 32 * N ≤ out.length) :
    kern o set1 key flags fs fe blocks deltas trm store ldo inputs off out =
      .ok (Spec64.eachOut key (fun i => off + δ i) flags fs fe blocks N inputs ++ out.drop (32 * N)) := by
  obtain ⟨x, el, hl⟩ := hldo off
  obtain ⟨h', e, hh⟩ := loopG_lane (I := Fin N) (fun i x => L i.val x)
    (fun i => (inputs.getD i.val []).take (128 * blocks)) (fun i => off + δ i.val)
    (fun b => trm inputs (b * 128))
    (fun h bf m => o.block (ivs set1) h x
      (set1 (BitVec.ofNat 64 128)) (set1 (bf.setWidth 64)) m) blocks flags fe
    (fun i => by rw [List.length_take]; have := hlen i i.isLt; omega)
    (by
      intro b hb
      obtain ⟨m, e, hm⟩ := htrm inputs (b * 128) hN (fun i hi => by have := hlen i hi; omega)
      refine ⟨m, e, fun i => ?_⟩
      rw [hm i i.isLt, Nat.mul_comm b 128, List.drop_take, ← pad_take ((_ : List Byte).take _), List.take_take,
        Nat.min_eq_left (by omega), pad_take])
    (by
      intro i h bf m
      rw [o.block_lane (L i.val) (hom i i.isLt) _ _ _ _ _ _ (map_ivs set1 _ (hset i i.isLt)), hset i i.isLt,
        hset i i.isLt, hl i i.isLt]
      rfl)
    blocks 0 (by omega)
    #v[set1 key[0], set1 key[1], set1 key[2], set1 key[3]]
    (flags ||| fs)
  rw [kern, el, bind_ok]
  rw [e, bind_ok, hstore _ _ hout]
  refine congrArg (fun l => Except.ok (l ++ _)) ?_
  unfold Spec64.eachOut
  simp only [List.flatMap]
  refine congrArg List.flatten (List.map_congr_left fun i hi => ?_)
  have hi := List.mem_range.1 hi
  have := hh ⟨i, hi⟩
  rw [Nat.mul_zero, List.drop_zero, map_set1_gen set1 key _ (fun x => hset i hi x), cvLoop_chain _ _ _ _ _ _ _ (hlen i hi)] at this
  rw [← this]

theorem kern_ok (hom : ∀ i, i < N → LaneHom o (L i)) (hset : ∀ i, i < N → ∀ x, L i (set1 x) = x)
    (htrm : MsgOk N L trm) (hstore : StoreOk N L store)
    (hldo : OffsOk N L (fun i => BitVec.ofNat 64 i * d) deltas ldo) :
    KerOk key d flags fs fe blocks N (kern o set1 key flags fs fe blocks deltas trm store ldo) :=
  kern_each N L o set1 key flags fs fe blocks deltas trm store ldo hom hset htrm hstore _ hldo

end kernel

/-- lane `i` of the sum of the offset and the deltas -/
theorem offs_lane (N : Nat) (δ : Nat → U64) (deltas : List U64)
    (hd : ∀ i, i < N → deltas[i]? = some (δ i)) :
    ∃ x, loadU64s N deltas 0 = .ok x ∧ ∀ i, i < N → lane 64 x i = δ i := by
  have hlen : 0 + N ≤ deltas.length := by
    rcases Nat.eq_zero_or_pos N with h | h
    · omega
    · have := hd (N - 1) (by omega)
      have := (List.getElem?_eq_some_iff.1 this).1
      omega
  refine ⟨_, loadU64s_ok N deltas 0 hlen, fun i hi => ?_⟩
  rw [lane_fromLanes 64 N _ i hi, Nat.zero_add, List.getD_eq_getElem?_getD, hd i hi]
  rfl

end Baokeshed.Proofs.W64
