import Verif.Proofs.C.Basic

/-! # C: generic N-lane kernels

`L i x` is lane `i` of the register `x`.  The kernels of all SIMD back ends have the same shape. -/

set_option linter.unusedVariables false
set_option linter.unusedSimpArgs false

namespace Baokeshed.Proofs.C
open Baokeshed.Model Baokeshed.Model.C
attribute [local irreducible] Spec.compress Spec.cvBytes

/-- `tr` transposes an `N` by `N` matrix of words -/
def TrOk {V : Type} (N : Nat) (L : Nat → V → Word) (tr : Vector V N → Vector V N) : Prop :=
  ∀ vs r p, (hr : r < N) → (hp : p < N) → L p (tr vs)[r] = L r vs[p]

/-- `load` reads `N` words -/
def LoadOk {V : Type} (N : Nat) (L : Nat → V → Word) (load : Bytes → Nat → R V) : Prop :=
  ∀ p off, off + 4 * N ≤ p.length → ∃ x, load p off = .ok x ∧ ∀ j, j < N → L j x = wordAt p off j

/-- the message vectors hold, in lane `i`, the words of the block of input `i` -/
def MsgOk {V : Type} (N : Nat) (L : Nat → V → Word) (trm : List Bytes → Nat → R (Vector V 16)) : Prop :=
  ∀ inputs off, N ≤ inputs.length → (∀ i, i < N → off + 64 ≤ (inputs.getD i []).length) →
    ∃ m, trm inputs off = .ok m ∧ ∀ i, i < N →
      m.map (L i) = Portable.words_from_block (Spec.pad ((inputs.getD i []).drop off))

/-- lane `i` is stored as output `i` -/
def StoreOk {V : Type} (N : Nat) (L : Nat → V → Word) (store : Vector V 8 → Bytes → R Bytes) : Prop :=
  ∀ h out, 32 * N ≤ out.length → store h out =
    .ok (((List.range N).flatMap fun i => (Spec.cvBytes (h.map (L i))).toList) ++ out.drop (32 * N))

/-- lane `i` is the offset of input `i` -/
def OffsOk {V : Type} (N : Nat) (L : Nat → V → Word) (δ : Nat → U64) (deltas : List U64)
    (ldo : U64 → List U64 → R (V × V)) : Prop :=
  ∀ off, ∃ lo hi, ldo off deltas = .ok (lo, hi) ∧ ∀ i, i < N →
    L i lo = Model.offset_low (off + δ i) ∧ L i hi = Model.offset_high (off + δ i)

theorem wordAt_shift (p : Bytes) (off k r : Nat) : wordAt p (off + 4 * k) r = wordAt p off (k + r) := by
  simp only [wordAt, Nat.mul_add, Nat.add_assoc]

theorem getElem_vec4 {α} (v : Vector α 4) : v = #v[v[0], v[1], v[2], v[3]] := by
  ext i hi
  rcases i with _|_|_|_|i
  all_goals first | rfl | omega
theorem getElem_vec8 {α} (v : Vector α 8) : v = #v[v[0], v[1], v[2], v[3], v[4], v[5], v[6], v[7]] := by
  ext i hi
  rcases i with _|_|_|_|_|_|_|_|i
  all_goals first | rfl | omega

theorem append88' {α} (a0 a1 a2 a3 a4 a5 a6 a7 a8 a9 a10 a11 a12 a13 a14 a15 : α) :
    (#v[a0, a1, a2, a3, a4, a5, a6, a7] ++ #v[a8, a9, a10, a11, a12, a13, a14, a15] : Vector α 16) =
    #v[a0, a1, a2, a3, a4, a5, a6, a7, a8, a9, a10, a11, a12, a13, a14, a15] := rfl

theorem getElem_vec16 {α} (v : Vector α 16) : v = #v[v[0], v[1], v[2], v[3], v[4], v[5], v[6], v[7],
    v[8], v[9], v[10], v[11], v[12], v[13], v[14], v[15]] := vec16_eta v

/-- `transpose_msg_vecs` for 4 lanes -/
def msg4 {V : Type} (load : Bytes → Nat → R V) (tr : Vector V 4 → Vector V 4) (inputs : List Bytes)
    (block_offset : Nat) : R (Vector V 16) := do
  let out0 ← load (← cIndex inputs 0) (block_offset + 0 * 16)
  let out1 ← load (← cIndex inputs 1) (block_offset + 0 * 16)
  let out2 ← load (← cIndex inputs 2) (block_offset + 0 * 16)
  let out3 ← load (← cIndex inputs 3) (block_offset + 0 * 16)
  let out4 ← load (← cIndex inputs 0) (block_offset + 1 * 16)
  let out5 ← load (← cIndex inputs 1) (block_offset + 1 * 16)
  let out6 ← load (← cIndex inputs 2) (block_offset + 1 * 16)
  let out7 ← load (← cIndex inputs 3) (block_offset + 1 * 16)
  let out8 ← load (← cIndex inputs 0) (block_offset + 2 * 16)
  let out9 ← load (← cIndex inputs 1) (block_offset + 2 * 16)
  let out10 ← load (← cIndex inputs 2) (block_offset + 2 * 16)
  let out11 ← load (← cIndex inputs 3) (block_offset + 2 * 16)
  let out12 ← load (← cIndex inputs 0) (block_offset + 3 * 16)
  let out13 ← load (← cIndex inputs 1) (block_offset + 3 * 16)
  let out14 ← load (← cIndex inputs 2) (block_offset + 3 * 16)
  let out15 ← load (← cIndex inputs 3) (block_offset + 3 * 16)
  let sq0 := tr #v[out0, out1, out2, out3]
  let sq1 := tr #v[out4, out5, out6, out7]
  let sq2 := tr #v[out8, out9, out10, out11]
  let sq3 := tr #v[out12, out13, out14, out15]
  return sq0 ++ sq1 ++ sq2 ++ sq3

theorem msg4_ok {V : Type} (L : Nat → V → Word) (load : Bytes → Nat → R V) (tr : Vector V 4 → Vector V 4)
    (hload : LoadOk 4 L load) (htr : TrOk 4 L tr) : MsgOk 4 L (msg4 load tr) := by
  intro inputs off hN hlen
  have hi : ∀ i, i < 4 → cIndex inputs i = .ok (inputs.getD i []) := fun i h => cIndex_getD _ _ _ (by omega)
  have H : ∀ i, i < 4 → ∀ k, k < 4 → ∃ x, load (inputs.getD i []) (off + 4 * (4 * k)) = .ok x ∧
      ∀ j, j < 4 → L j x = wordAt (inputs.getD i []) off (4 * k + j) := by
    intro i hi k hk
    obtain ⟨x, e, l⟩ := hload (inputs.getD i []) (off + 4 * (4 * k)) (by have := hlen i hi; omega)
    exact ⟨x, e, fun j hj => by rw [l j hj, wordAt_shift]⟩
  obtain ⟨x0, e0, l0⟩ := H 0 (by decide) 0 (by decide)
  obtain ⟨x1, e1, l1⟩ := H 1 (by decide) 0 (by decide)
  obtain ⟨x2, e2, l2⟩ := H 2 (by decide) 0 (by decide)
  obtain ⟨x3, e3, l3⟩ := H 3 (by decide) 0 (by decide)
  obtain ⟨x4, e4, l4⟩ := H 0 (by decide) 1 (by decide)
  obtain ⟨x5, e5, l5⟩ := H 1 (by decide) 1 (by decide)
  obtain ⟨x6, e6, l6⟩ := H 2 (by decide) 1 (by decide)
  obtain ⟨x7, e7, l7⟩ := H 3 (by decide) 1 (by decide)
  obtain ⟨x8, e8, l8⟩ := H 0 (by decide) 2 (by decide)
  obtain ⟨x9, e9, l9⟩ := H 1 (by decide) 2 (by decide)
  obtain ⟨x10, e10, l10⟩ := H 2 (by decide) 2 (by decide)
  obtain ⟨x11, e11, l11⟩ := H 3 (by decide) 2 (by decide)
  obtain ⟨x12, e12, l12⟩ := H 0 (by decide) 3 (by decide)
  obtain ⟨x13, e13, l13⟩ := H 1 (by decide) 3 (by decide)
  obtain ⟨x14, e14, l14⟩ := H 2 (by decide) 3 (by decide)
  obtain ⟨x15, e15, l15⟩ := H 3 (by decide) 3 (by decide)
  simp only [Nat.reduceMul, Nat.add_zero] at e0 e1 e2 e3 e4 e5 e6 e7 e8 e9 e10 e11 e12 e13 e14 e15
  refine ⟨tr #v[x0, x1, x2, x3] ++ tr #v[x4, x5, x6, x7] ++ tr #v[x8, x9, x10, x11] ++ tr #v[x12, x13, x14, x15], by
    simp only [msg4, Nat.reduceMul, Nat.add_zero, hi _ (show 0 < 4 by decide), hi 1 (by decide), hi 2 (by decide), hi 3 (by decide),
      bind_ok, pure_eq, e0, e1, e2, e3, e4, e5, e6, e7, e8, e9, e10, e11, e12, e13, e14, e15], ?_⟩
  intro p hp
  rw [words_pad, ofFn16]
  rw [getElem_vec4 (tr #v[x0, x1, x2, x3])]
  rw [getElem_vec4 (tr #v[x4, x5, x6, x7])]
  rw [getElem_vec4 (tr #v[x8, x9, x10, x11])]
  rw [getElem_vec4 (tr #v[x12, x13, x14, x15])]
  rw [append4444, map16]
  simp only [htr _ 0 p (by decide) hp, htr _ 1 p (by decide) hp, htr _ 2 p (by decide) hp, htr _ 3 p (by decide) hp]
  rcases p with _|_|_|_|p
  · have g : ∀ a0 a1 a2 a3 : V, #v[a0, a1, a2, a3][0] = a0 := fun _ _ _ _ => rfl
    simp only [Nat.reduceAdd, Nat.zero_add, g, l0 0 (by decide), l0 1 (by decide), l0 2 (by decide), l0 3 (by decide), l4 0 (by decide), l4 1 (by decide), l4 2 (by decide), l4 3 (by decide), l8 0 (by decide), l8 1 (by decide), l8 2 (by decide), l8 3 (by decide), l12 0 (by decide), l12 1 (by decide), l12 2 (by decide), l12 3 (by decide)]; rfl
  · have g : ∀ a0 a1 a2 a3 : V, #v[a0, a1, a2, a3][1] = a1 := fun _ _ _ _ => rfl
    simp only [Nat.reduceAdd, Nat.zero_add, g, l1 0 (by decide), l1 1 (by decide), l1 2 (by decide), l1 3 (by decide), l5 0 (by decide), l5 1 (by decide), l5 2 (by decide), l5 3 (by decide), l9 0 (by decide), l9 1 (by decide), l9 2 (by decide), l9 3 (by decide), l13 0 (by decide), l13 1 (by decide), l13 2 (by decide), l13 3 (by decide)]; rfl
  · have g : ∀ a0 a1 a2 a3 : V, #v[a0, a1, a2, a3][2] = a2 := fun _ _ _ _ => rfl
    simp only [Nat.reduceAdd, Nat.zero_add, g, l2 0 (by decide), l2 1 (by decide), l2 2 (by decide), l2 3 (by decide), l6 0 (by decide), l6 1 (by decide), l6 2 (by decide), l6 3 (by decide), l10 0 (by decide), l10 1 (by decide), l10 2 (by decide), l10 3 (by decide), l14 0 (by decide), l14 1 (by decide), l14 2 (by decide), l14 3 (by decide)]; rfl
  · have g : ∀ a0 a1 a2 a3 : V, #v[a0, a1, a2, a3][3] = a3 := fun _ _ _ _ => rfl
    simp only [Nat.reduceAdd, Nat.zero_add, g, l3 0 (by decide), l3 1 (by decide), l3 2 (by decide), l3 3 (by decide), l7 0 (by decide), l7 1 (by decide), l7 2 (by decide), l7 3 (by decide), l11 0 (by decide), l11 1 (by decide), l11 2 (by decide), l11 3 (by decide), l15 0 (by decide), l15 1 (by decide), l15 2 (by decide), l15 3 (by decide)]; rfl
  · omega

/-- `transpose_msg_vecs` for 8 lanes -/
def msg8 {V : Type} (load : Bytes → Nat → R V) (tr : Vector V 8 → Vector V 8) (inputs : List Bytes)
    (block_offset : Nat) : R (Vector V 16) := do
  let out0 ← load (← cIndex inputs 0) (block_offset + 0 * 32)
  let out1 ← load (← cIndex inputs 1) (block_offset + 0 * 32)
  let out2 ← load (← cIndex inputs 2) (block_offset + 0 * 32)
  let out3 ← load (← cIndex inputs 3) (block_offset + 0 * 32)
  let out4 ← load (← cIndex inputs 4) (block_offset + 0 * 32)
  let out5 ← load (← cIndex inputs 5) (block_offset + 0 * 32)
  let out6 ← load (← cIndex inputs 6) (block_offset + 0 * 32)
  let out7 ← load (← cIndex inputs 7) (block_offset + 0 * 32)
  let out8 ← load (← cIndex inputs 0) (block_offset + 1 * 32)
  let out9 ← load (← cIndex inputs 1) (block_offset + 1 * 32)
  let out10 ← load (← cIndex inputs 2) (block_offset + 1 * 32)
  let out11 ← load (← cIndex inputs 3) (block_offset + 1 * 32)
  let out12 ← load (← cIndex inputs 4) (block_offset + 1 * 32)
  let out13 ← load (← cIndex inputs 5) (block_offset + 1 * 32)
  let out14 ← load (← cIndex inputs 6) (block_offset + 1 * 32)
  let out15 ← load (← cIndex inputs 7) (block_offset + 1 * 32)
  let sq0 := tr #v[out0, out1, out2, out3, out4, out5, out6, out7]
  let sq1 := tr #v[out8, out9, out10, out11, out12, out13, out14, out15]
  return sq0 ++ sq1

theorem msg8_ok {V : Type} (L : Nat → V → Word) (load : Bytes → Nat → R V) (tr : Vector V 8 → Vector V 8)
    (hload : LoadOk 8 L load) (htr : TrOk 8 L tr) : MsgOk 8 L (msg8 load tr) := by
  intro inputs off hN hlen
  have hi : ∀ i, i < 8 → cIndex inputs i = .ok (inputs.getD i []) := fun i h => cIndex_getD _ _ _ (by omega)
  have H : ∀ i, i < 8 → ∀ k, k < 2 → ∃ x, load (inputs.getD i []) (off + 4 * (8 * k)) = .ok x ∧
      ∀ j, j < 8 → L j x = wordAt (inputs.getD i []) off (8 * k + j) := by
    intro i hi k hk
    obtain ⟨x, e, l⟩ := hload (inputs.getD i []) (off + 4 * (8 * k)) (by have := hlen i hi; omega)
    exact ⟨x, e, fun j hj => by rw [l j hj, wordAt_shift]⟩
  obtain ⟨x0, e0, l0⟩ := H 0 (by decide) 0 (by decide)
  obtain ⟨x1, e1, l1⟩ := H 1 (by decide) 0 (by decide)
  obtain ⟨x2, e2, l2⟩ := H 2 (by decide) 0 (by decide)
  obtain ⟨x3, e3, l3⟩ := H 3 (by decide) 0 (by decide)
  obtain ⟨x4, e4, l4⟩ := H 4 (by decide) 0 (by decide)
  obtain ⟨x5, e5, l5⟩ := H 5 (by decide) 0 (by decide)
  obtain ⟨x6, e6, l6⟩ := H 6 (by decide) 0 (by decide)
  obtain ⟨x7, e7, l7⟩ := H 7 (by decide) 0 (by decide)
  obtain ⟨x8, e8, l8⟩ := H 0 (by decide) 1 (by decide)
  obtain ⟨x9, e9, l9⟩ := H 1 (by decide) 1 (by decide)
  obtain ⟨x10, e10, l10⟩ := H 2 (by decide) 1 (by decide)
  obtain ⟨x11, e11, l11⟩ := H 3 (by decide) 1 (by decide)
  obtain ⟨x12, e12, l12⟩ := H 4 (by decide) 1 (by decide)
  obtain ⟨x13, e13, l13⟩ := H 5 (by decide) 1 (by decide)
  obtain ⟨x14, e14, l14⟩ := H 6 (by decide) 1 (by decide)
  obtain ⟨x15, e15, l15⟩ := H 7 (by decide) 1 (by decide)
  simp only [Nat.reduceMul, Nat.add_zero] at e0 e1 e2 e3 e4 e5 e6 e7 e8 e9 e10 e11 e12 e13 e14 e15
  refine ⟨tr #v[x0, x1, x2, x3, x4, x5, x6, x7] ++ tr #v[x8, x9, x10, x11, x12, x13, x14, x15], by
    simp only [msg8, Nat.reduceMul, Nat.add_zero, hi _ (show 0 < 8 by decide), hi 1 (by decide), hi 2 (by decide), hi 3 (by decide), hi 4 (by decide), hi 5 (by decide), hi 6 (by decide), hi 7 (by decide),
      bind_ok, pure_eq, e0, e1, e2, e3, e4, e5, e6, e7, e8, e9, e10, e11, e12, e13, e14, e15], ?_⟩
  intro p hp
  rw [words_pad, ofFn16]
  rw [getElem_vec8 (tr #v[x0, x1, x2, x3, x4, x5, x6, x7])]
  rw [getElem_vec8 (tr #v[x8, x9, x10, x11, x12, x13, x14, x15])]
  rw [append88', map16]
  simp only [htr _ 0 p (by decide) hp, htr _ 1 p (by decide) hp, htr _ 2 p (by decide) hp, htr _ 3 p (by decide) hp, htr _ 4 p (by decide) hp, htr _ 5 p (by decide) hp, htr _ 6 p (by decide) hp, htr _ 7 p (by decide) hp]
  rcases p with _|_|_|_|_|_|_|_|p
  · have g : ∀ a0 a1 a2 a3 a4 a5 a6 a7 : V, #v[a0, a1, a2, a3, a4, a5, a6, a7][0] = a0 := fun _ _ _ _ _ _ _ _ => rfl
    simp only [Nat.reduceAdd, Nat.zero_add, g, l0 0 (by decide), l0 1 (by decide), l0 2 (by decide), l0 3 (by decide), l0 4 (by decide), l0 5 (by decide), l0 6 (by decide), l0 7 (by decide), l8 0 (by decide), l8 1 (by decide), l8 2 (by decide), l8 3 (by decide), l8 4 (by decide), l8 5 (by decide), l8 6 (by decide), l8 7 (by decide)]; rfl
  · have g : ∀ a0 a1 a2 a3 a4 a5 a6 a7 : V, #v[a0, a1, a2, a3, a4, a5, a6, a7][1] = a1 := fun _ _ _ _ _ _ _ _ => rfl
    simp only [Nat.reduceAdd, Nat.zero_add, g, l1 0 (by decide), l1 1 (by decide), l1 2 (by decide), l1 3 (by decide), l1 4 (by decide), l1 5 (by decide), l1 6 (by decide), l1 7 (by decide), l9 0 (by decide), l9 1 (by decide), l9 2 (by decide), l9 3 (by decide), l9 4 (by decide), l9 5 (by decide), l9 6 (by decide), l9 7 (by decide)]; rfl
  · have g : ∀ a0 a1 a2 a3 a4 a5 a6 a7 : V, #v[a0, a1, a2, a3, a4, a5, a6, a7][2] = a2 := fun _ _ _ _ _ _ _ _ => rfl
    simp only [Nat.reduceAdd, Nat.zero_add, g, l2 0 (by decide), l2 1 (by decide), l2 2 (by decide), l2 3 (by decide), l2 4 (by decide), l2 5 (by decide), l2 6 (by decide), l2 7 (by decide), l10 0 (by decide), l10 1 (by decide), l10 2 (by decide), l10 3 (by decide), l10 4 (by decide), l10 5 (by decide), l10 6 (by decide), l10 7 (by decide)]; rfl
  · have g : ∀ a0 a1 a2 a3 a4 a5 a6 a7 : V, #v[a0, a1, a2, a3, a4, a5, a6, a7][3] = a3 := fun _ _ _ _ _ _ _ _ => rfl
    simp only [Nat.reduceAdd, Nat.zero_add, g, l3 0 (by decide), l3 1 (by decide), l3 2 (by decide), l3 3 (by decide), l3 4 (by decide), l3 5 (by decide), l3 6 (by decide), l3 7 (by decide), l11 0 (by decide), l11 1 (by decide), l11 2 (by decide), l11 3 (by decide), l11 4 (by decide), l11 5 (by decide), l11 6 (by decide), l11 7 (by decide)]; rfl
  · have g : ∀ a0 a1 a2 a3 a4 a5 a6 a7 : V, #v[a0, a1, a2, a3, a4, a5, a6, a7][4] = a4 := fun _ _ _ _ _ _ _ _ => rfl
    simp only [Nat.reduceAdd, Nat.zero_add, g, l4 0 (by decide), l4 1 (by decide), l4 2 (by decide), l4 3 (by decide), l4 4 (by decide), l4 5 (by decide), l4 6 (by decide), l4 7 (by decide), l12 0 (by decide), l12 1 (by decide), l12 2 (by decide), l12 3 (by decide), l12 4 (by decide), l12 5 (by decide), l12 6 (by decide), l12 7 (by decide)]; rfl
  · have g : ∀ a0 a1 a2 a3 a4 a5 a6 a7 : V, #v[a0, a1, a2, a3, a4, a5, a6, a7][5] = a5 := fun _ _ _ _ _ _ _ _ => rfl
    simp only [Nat.reduceAdd, Nat.zero_add, g, l5 0 (by decide), l5 1 (by decide), l5 2 (by decide), l5 3 (by decide), l5 4 (by decide), l5 5 (by decide), l5 6 (by decide), l5 7 (by decide), l13 0 (by decide), l13 1 (by decide), l13 2 (by decide), l13 3 (by decide), l13 4 (by decide), l13 5 (by decide), l13 6 (by decide), l13 7 (by decide)]; rfl
  · have g : ∀ a0 a1 a2 a3 a4 a5 a6 a7 : V, #v[a0, a1, a2, a3, a4, a5, a6, a7][6] = a6 := fun _ _ _ _ _ _ _ _ => rfl
    simp only [Nat.reduceAdd, Nat.zero_add, g, l6 0 (by decide), l6 1 (by decide), l6 2 (by decide), l6 3 (by decide), l6 4 (by decide), l6 5 (by decide), l6 6 (by decide), l6 7 (by decide), l14 0 (by decide), l14 1 (by decide), l14 2 (by decide), l14 3 (by decide), l14 4 (by decide), l14 5 (by decide), l14 6 (by decide), l14 7 (by decide)]; rfl
  · have g : ∀ a0 a1 a2 a3 a4 a5 a6 a7 : V, #v[a0, a1, a2, a3, a4, a5, a6, a7][7] = a7 := fun _ _ _ _ _ _ _ _ => rfl
    simp only [Nat.reduceAdd, Nat.zero_add, g, l7 0 (by decide), l7 1 (by decide), l7 2 (by decide), l7 3 (by decide), l7 4 (by decide), l7 5 (by decide), l7 6 (by decide), l7 7 (by decide), l15 0 (by decide), l15 1 (by decide), l15 2 (by decide), l15 3 (by decide), l15 4 (by decide), l15 5 (by decide), l15 6 (by decide), l15 7 (by decide)]; rfl
  · omega

/-- `transpose_msg_vecs` for 16 lanes -/
def msg16 {V : Type} (load : Bytes → Nat → R V) (tr : Vector V 16 → Vector V 16) (inputs : List Bytes)
    (block_offset : Nat) : R (Vector V 16) := do
  let out0 ← load (← cIndex inputs 0) block_offset
  let out1 ← load (← cIndex inputs 1) block_offset
  let out2 ← load (← cIndex inputs 2) block_offset
  let out3 ← load (← cIndex inputs 3) block_offset
  let out4 ← load (← cIndex inputs 4) block_offset
  let out5 ← load (← cIndex inputs 5) block_offset
  let out6 ← load (← cIndex inputs 6) block_offset
  let out7 ← load (← cIndex inputs 7) block_offset
  let out8 ← load (← cIndex inputs 8) block_offset
  let out9 ← load (← cIndex inputs 9) block_offset
  let out10 ← load (← cIndex inputs 10) block_offset
  let out11 ← load (← cIndex inputs 11) block_offset
  let out12 ← load (← cIndex inputs 12) block_offset
  let out13 ← load (← cIndex inputs 13) block_offset
  let out14 ← load (← cIndex inputs 14) block_offset
  let out15 ← load (← cIndex inputs 15) block_offset
  let sq0 := tr #v[out0, out1, out2, out3, out4, out5, out6, out7, out8, out9, out10, out11, out12, out13, out14, out15]
  return sq0

theorem msg16_ok {V : Type} (L : Nat → V → Word) (load : Bytes → Nat → R V) (tr : Vector V 16 → Vector V 16)
    (hload : LoadOk 16 L load) (htr : TrOk 16 L tr) : MsgOk 16 L (msg16 load tr) := by
  intro inputs off hN hlen
  have hi : ∀ i, i < 16 → cIndex inputs i = .ok (inputs.getD i []) := fun i h => cIndex_getD _ _ _ (by omega)
  have H : ∀ i, i < 16 → ∀ k, k < 1 → ∃ x, load (inputs.getD i []) (off + 4 * (16 * k)) = .ok x ∧
      ∀ j, j < 16 → L j x = wordAt (inputs.getD i []) off (16 * k + j) := by
    intro i hi k hk
    obtain ⟨x, e, l⟩ := hload (inputs.getD i []) (off + 4 * (16 * k)) (by have := hlen i hi; omega)
    exact ⟨x, e, fun j hj => by rw [l j hj, wordAt_shift]⟩
  obtain ⟨x0, e0, l0⟩ := H 0 (by decide) 0 (by decide)
  obtain ⟨x1, e1, l1⟩ := H 1 (by decide) 0 (by decide)
  obtain ⟨x2, e2, l2⟩ := H 2 (by decide) 0 (by decide)
  obtain ⟨x3, e3, l3⟩ := H 3 (by decide) 0 (by decide)
  obtain ⟨x4, e4, l4⟩ := H 4 (by decide) 0 (by decide)
  obtain ⟨x5, e5, l5⟩ := H 5 (by decide) 0 (by decide)
  obtain ⟨x6, e6, l6⟩ := H 6 (by decide) 0 (by decide)
  obtain ⟨x7, e7, l7⟩ := H 7 (by decide) 0 (by decide)
  obtain ⟨x8, e8, l8⟩ := H 8 (by decide) 0 (by decide)
  obtain ⟨x9, e9, l9⟩ := H 9 (by decide) 0 (by decide)
  obtain ⟨x10, e10, l10⟩ := H 10 (by decide) 0 (by decide)
  obtain ⟨x11, e11, l11⟩ := H 11 (by decide) 0 (by decide)
  obtain ⟨x12, e12, l12⟩ := H 12 (by decide) 0 (by decide)
  obtain ⟨x13, e13, l13⟩ := H 13 (by decide) 0 (by decide)
  obtain ⟨x14, e14, l14⟩ := H 14 (by decide) 0 (by decide)
  obtain ⟨x15, e15, l15⟩ := H 15 (by decide) 0 (by decide)
  simp only [Nat.reduceMul, Nat.add_zero] at e0 e1 e2 e3 e4 e5 e6 e7 e8 e9 e10 e11 e12 e13 e14 e15
  refine ⟨tr #v[x0, x1, x2, x3, x4, x5, x6, x7, x8, x9, x10, x11, x12, x13, x14, x15], by
    simp only [msg16, Nat.reduceMul, Nat.add_zero, hi _ (show 0 < 16 by decide), hi 1 (by decide), hi 2 (by decide), hi 3 (by decide), hi 4 (by decide), hi 5 (by decide), hi 6 (by decide), hi 7 (by decide), hi 8 (by decide), hi 9 (by decide), hi 10 (by decide), hi 11 (by decide), hi 12 (by decide), hi 13 (by decide), hi 14 (by decide), hi 15 (by decide),
      bind_ok, pure_eq, e0, e1, e2, e3, e4, e5, e6, e7, e8, e9, e10, e11, e12, e13, e14, e15], ?_⟩
  intro p hp
  rw [words_pad, ofFn16]
  rw [getElem_vec16 (tr _), map16]
  simp only [htr _ 0 p (by decide) hp, htr _ 1 p (by decide) hp, htr _ 2 p (by decide) hp, htr _ 3 p (by decide) hp, htr _ 4 p (by decide) hp, htr _ 5 p (by decide) hp, htr _ 6 p (by decide) hp, htr _ 7 p (by decide) hp, htr _ 8 p (by decide) hp, htr _ 9 p (by decide) hp, htr _ 10 p (by decide) hp, htr _ 11 p (by decide) hp, htr _ 12 p (by decide) hp, htr _ 13 p (by decide) hp, htr _ 14 p (by decide) hp, htr _ 15 p (by decide) hp]
  rcases p with _|_|_|_|_|_|_|_|_|_|_|_|_|_|_|_|p
  · have g : ∀ a0 a1 a2 a3 a4 a5 a6 a7 a8 a9 a10 a11 a12 a13 a14 a15 : V, #v[a0, a1, a2, a3, a4, a5, a6, a7, a8, a9, a10, a11, a12, a13, a14, a15][0] = a0 := fun _ _ _ _ _ _ _ _ _ _ _ _ _ _ _ _ => rfl
    simp only [Nat.reduceAdd, Nat.zero_add, g, l0 0 (by decide), l0 1 (by decide), l0 2 (by decide), l0 3 (by decide), l0 4 (by decide), l0 5 (by decide), l0 6 (by decide), l0 7 (by decide), l0 8 (by decide), l0 9 (by decide), l0 10 (by decide), l0 11 (by decide), l0 12 (by decide), l0 13 (by decide), l0 14 (by decide), l0 15 (by decide)]; rfl
  · have g : ∀ a0 a1 a2 a3 a4 a5 a6 a7 a8 a9 a10 a11 a12 a13 a14 a15 : V, #v[a0, a1, a2, a3, a4, a5, a6, a7, a8, a9, a10, a11, a12, a13, a14, a15][1] = a1 := fun _ _ _ _ _ _ _ _ _ _ _ _ _ _ _ _ => rfl
    simp only [Nat.reduceAdd, Nat.zero_add, g, l1 0 (by decide), l1 1 (by decide), l1 2 (by decide), l1 3 (by decide), l1 4 (by decide), l1 5 (by decide), l1 6 (by decide), l1 7 (by decide), l1 8 (by decide), l1 9 (by decide), l1 10 (by decide), l1 11 (by decide), l1 12 (by decide), l1 13 (by decide), l1 14 (by decide), l1 15 (by decide)]; rfl
  · have g : ∀ a0 a1 a2 a3 a4 a5 a6 a7 a8 a9 a10 a11 a12 a13 a14 a15 : V, #v[a0, a1, a2, a3, a4, a5, a6, a7, a8, a9, a10, a11, a12, a13, a14, a15][2] = a2 := fun _ _ _ _ _ _ _ _ _ _ _ _ _ _ _ _ => rfl
    simp only [Nat.reduceAdd, Nat.zero_add, g, l2 0 (by decide), l2 1 (by decide), l2 2 (by decide), l2 3 (by decide), l2 4 (by decide), l2 5 (by decide), l2 6 (by decide), l2 7 (by decide), l2 8 (by decide), l2 9 (by decide), l2 10 (by decide), l2 11 (by decide), l2 12 (by decide), l2 13 (by decide), l2 14 (by decide), l2 15 (by decide)]; rfl
  · have g : ∀ a0 a1 a2 a3 a4 a5 a6 a7 a8 a9 a10 a11 a12 a13 a14 a15 : V, #v[a0, a1, a2, a3, a4, a5, a6, a7, a8, a9, a10, a11, a12, a13, a14, a15][3] = a3 := fun _ _ _ _ _ _ _ _ _ _ _ _ _ _ _ _ => rfl
    simp only [Nat.reduceAdd, Nat.zero_add, g, l3 0 (by decide), l3 1 (by decide), l3 2 (by decide), l3 3 (by decide), l3 4 (by decide), l3 5 (by decide), l3 6 (by decide), l3 7 (by decide), l3 8 (by decide), l3 9 (by decide), l3 10 (by decide), l3 11 (by decide), l3 12 (by decide), l3 13 (by decide), l3 14 (by decide), l3 15 (by decide)]; rfl
  · have g : ∀ a0 a1 a2 a3 a4 a5 a6 a7 a8 a9 a10 a11 a12 a13 a14 a15 : V, #v[a0, a1, a2, a3, a4, a5, a6, a7, a8, a9, a10, a11, a12, a13, a14, a15][4] = a4 := fun _ _ _ _ _ _ _ _ _ _ _ _ _ _ _ _ => rfl
    simp only [Nat.reduceAdd, Nat.zero_add, g, l4 0 (by decide), l4 1 (by decide), l4 2 (by decide), l4 3 (by decide), l4 4 (by decide), l4 5 (by decide), l4 6 (by decide), l4 7 (by decide), l4 8 (by decide), l4 9 (by decide), l4 10 (by decide), l4 11 (by decide), l4 12 (by decide), l4 13 (by decide), l4 14 (by decide), l4 15 (by decide)]; rfl
  · have g : ∀ a0 a1 a2 a3 a4 a5 a6 a7 a8 a9 a10 a11 a12 a13 a14 a15 : V, #v[a0, a1, a2, a3, a4, a5, a6, a7, a8, a9, a10, a11, a12, a13, a14, a15][5] = a5 := fun _ _ _ _ _ _ _ _ _ _ _ _ _ _ _ _ => rfl
    simp only [Nat.reduceAdd, Nat.zero_add, g, l5 0 (by decide), l5 1 (by decide), l5 2 (by decide), l5 3 (by decide), l5 4 (by decide), l5 5 (by decide), l5 6 (by decide), l5 7 (by decide), l5 8 (by decide), l5 9 (by decide), l5 10 (by decide), l5 11 (by decide), l5 12 (by decide), l5 13 (by decide), l5 14 (by decide), l5 15 (by decide)]; rfl
  · have g : ∀ a0 a1 a2 a3 a4 a5 a6 a7 a8 a9 a10 a11 a12 a13 a14 a15 : V, #v[a0, a1, a2, a3, a4, a5, a6, a7, a8, a9, a10, a11, a12, a13, a14, a15][6] = a6 := fun _ _ _ _ _ _ _ _ _ _ _ _ _ _ _ _ => rfl
    simp only [Nat.reduceAdd, Nat.zero_add, g, l6 0 (by decide), l6 1 (by decide), l6 2 (by decide), l6 3 (by decide), l6 4 (by decide), l6 5 (by decide), l6 6 (by decide), l6 7 (by decide), l6 8 (by decide), l6 9 (by decide), l6 10 (by decide), l6 11 (by decide), l6 12 (by decide), l6 13 (by decide), l6 14 (by decide), l6 15 (by decide)]; rfl
  · have g : ∀ a0 a1 a2 a3 a4 a5 a6 a7 a8 a9 a10 a11 a12 a13 a14 a15 : V, #v[a0, a1, a2, a3, a4, a5, a6, a7, a8, a9, a10, a11, a12, a13, a14, a15][7] = a7 := fun _ _ _ _ _ _ _ _ _ _ _ _ _ _ _ _ => rfl
    simp only [Nat.reduceAdd, Nat.zero_add, g, l7 0 (by decide), l7 1 (by decide), l7 2 (by decide), l7 3 (by decide), l7 4 (by decide), l7 5 (by decide), l7 6 (by decide), l7 7 (by decide), l7 8 (by decide), l7 9 (by decide), l7 10 (by decide), l7 11 (by decide), l7 12 (by decide), l7 13 (by decide), l7 14 (by decide), l7 15 (by decide)]; rfl
  · have g : ∀ a0 a1 a2 a3 a4 a5 a6 a7 a8 a9 a10 a11 a12 a13 a14 a15 : V, #v[a0, a1, a2, a3, a4, a5, a6, a7, a8, a9, a10, a11, a12, a13, a14, a15][8] = a8 := fun _ _ _ _ _ _ _ _ _ _ _ _ _ _ _ _ => rfl
    simp only [Nat.reduceAdd, Nat.zero_add, g, l8 0 (by decide), l8 1 (by decide), l8 2 (by decide), l8 3 (by decide), l8 4 (by decide), l8 5 (by decide), l8 6 (by decide), l8 7 (by decide), l8 8 (by decide), l8 9 (by decide), l8 10 (by decide), l8 11 (by decide), l8 12 (by decide), l8 13 (by decide), l8 14 (by decide), l8 15 (by decide)]; rfl
  · have g : ∀ a0 a1 a2 a3 a4 a5 a6 a7 a8 a9 a10 a11 a12 a13 a14 a15 : V, #v[a0, a1, a2, a3, a4, a5, a6, a7, a8, a9, a10, a11, a12, a13, a14, a15][9] = a9 := fun _ _ _ _ _ _ _ _ _ _ _ _ _ _ _ _ => rfl
    simp only [Nat.reduceAdd, Nat.zero_add, g, l9 0 (by decide), l9 1 (by decide), l9 2 (by decide), l9 3 (by decide), l9 4 (by decide), l9 5 (by decide), l9 6 (by decide), l9 7 (by decide), l9 8 (by decide), l9 9 (by decide), l9 10 (by decide), l9 11 (by decide), l9 12 (by decide), l9 13 (by decide), l9 14 (by decide), l9 15 (by decide)]; rfl
  · have g : ∀ a0 a1 a2 a3 a4 a5 a6 a7 a8 a9 a10 a11 a12 a13 a14 a15 : V, #v[a0, a1, a2, a3, a4, a5, a6, a7, a8, a9, a10, a11, a12, a13, a14, a15][10] = a10 := fun _ _ _ _ _ _ _ _ _ _ _ _ _ _ _ _ => rfl
    simp only [Nat.reduceAdd, Nat.zero_add, g, l10 0 (by decide), l10 1 (by decide), l10 2 (by decide), l10 3 (by decide), l10 4 (by decide), l10 5 (by decide), l10 6 (by decide), l10 7 (by decide), l10 8 (by decide), l10 9 (by decide), l10 10 (by decide), l10 11 (by decide), l10 12 (by decide), l10 13 (by decide), l10 14 (by decide), l10 15 (by decide)]; rfl
  · have g : ∀ a0 a1 a2 a3 a4 a5 a6 a7 a8 a9 a10 a11 a12 a13 a14 a15 : V, #v[a0, a1, a2, a3, a4, a5, a6, a7, a8, a9, a10, a11, a12, a13, a14, a15][11] = a11 := fun _ _ _ _ _ _ _ _ _ _ _ _ _ _ _ _ => rfl
    simp only [Nat.reduceAdd, Nat.zero_add, g, l11 0 (by decide), l11 1 (by decide), l11 2 (by decide), l11 3 (by decide), l11 4 (by decide), l11 5 (by decide), l11 6 (by decide), l11 7 (by decide), l11 8 (by decide), l11 9 (by decide), l11 10 (by decide), l11 11 (by decide), l11 12 (by decide), l11 13 (by decide), l11 14 (by decide), l11 15 (by decide)]; rfl
  · have g : ∀ a0 a1 a2 a3 a4 a5 a6 a7 a8 a9 a10 a11 a12 a13 a14 a15 : V, #v[a0, a1, a2, a3, a4, a5, a6, a7, a8, a9, a10, a11, a12, a13, a14, a15][12] = a12 := fun _ _ _ _ _ _ _ _ _ _ _ _ _ _ _ _ => rfl
    simp only [Nat.reduceAdd, Nat.zero_add, g, l12 0 (by decide), l12 1 (by decide), l12 2 (by decide), l12 3 (by decide), l12 4 (by decide), l12 5 (by decide), l12 6 (by decide), l12 7 (by decide), l12 8 (by decide), l12 9 (by decide), l12 10 (by decide), l12 11 (by decide), l12 12 (by decide), l12 13 (by decide), l12 14 (by decide), l12 15 (by decide)]; rfl
  · have g : ∀ a0 a1 a2 a3 a4 a5 a6 a7 a8 a9 a10 a11 a12 a13 a14 a15 : V, #v[a0, a1, a2, a3, a4, a5, a6, a7, a8, a9, a10, a11, a12, a13, a14, a15][13] = a13 := fun _ _ _ _ _ _ _ _ _ _ _ _ _ _ _ _ => rfl
    simp only [Nat.reduceAdd, Nat.zero_add, g, l13 0 (by decide), l13 1 (by decide), l13 2 (by decide), l13 3 (by decide), l13 4 (by decide), l13 5 (by decide), l13 6 (by decide), l13 7 (by decide), l13 8 (by decide), l13 9 (by decide), l13 10 (by decide), l13 11 (by decide), l13 12 (by decide), l13 13 (by decide), l13 14 (by decide), l13 15 (by decide)]; rfl
  · have g : ∀ a0 a1 a2 a3 a4 a5 a6 a7 a8 a9 a10 a11 a12 a13 a14 a15 : V, #v[a0, a1, a2, a3, a4, a5, a6, a7, a8, a9, a10, a11, a12, a13, a14, a15][14] = a14 := fun _ _ _ _ _ _ _ _ _ _ _ _ _ _ _ _ => rfl
    simp only [Nat.reduceAdd, Nat.zero_add, g, l14 0 (by decide), l14 1 (by decide), l14 2 (by decide), l14 3 (by decide), l14 4 (by decide), l14 5 (by decide), l14 6 (by decide), l14 7 (by decide), l14 8 (by decide), l14 9 (by decide), l14 10 (by decide), l14 11 (by decide), l14 12 (by decide), l14 13 (by decide), l14 14 (by decide), l14 15 (by decide)]; rfl
  · have g : ∀ a0 a1 a2 a3 a4 a5 a6 a7 a8 a9 a10 a11 a12 a13 a14 a15 : V, #v[a0, a1, a2, a3, a4, a5, a6, a7, a8, a9, a10, a11, a12, a13, a14, a15][15] = a15 := fun _ _ _ _ _ _ _ _ _ _ _ _ _ _ _ _ => rfl
    simp only [Nat.reduceAdd, Nat.zero_add, g, l15 0 (by decide), l15 1 (by decide), l15 2 (by decide), l15 3 (by decide), l15 4 (by decide), l15 5 (by decide), l15 6 (by decide), l15 7 (by decide), l15 8 (by decide), l15 9 (by decide), l15 10 (by decide), l15 11 (by decide), l15 12 (by decide), l15 13 (by decide), l15 14 (by decide), l15 15 (by decide)]; rfl
  · omega

theorem regBytes_lanes (k : Nat) (x : BitVec (32 * k)) :
    regBytes (4 * k) x = (List.range k).flatMap fun i => leBytes (lane 32 x i) := regBytes_eq k x

theorem cStore_step0 {α} (out d : List α) (k : Nat) (hd : d.length = k) (h : k ≤ out.length) :
    cStore out 0 d = .ok (d ++ out.drop (1 * k)) := by
  rw [cStore_zero out d (by omega), hd, Nat.one_mul]

theorem cStore_step {α} (p out d : List α) (k i : Nat) (hp : p.length = i * k) (hd : d.length = k)
    (h : (i + 1) * k ≤ out.length) :
    cStore (p ++ out.drop (i * k)) (i * k) d = .ok ((p ++ d) ++ out.drop ((i + 1) * k)) := by
  rw [cStore_append p _ d (i * k) hp.symm (by rw [List.length_drop, hd]; rw [Nat.add_mul] at h; omega), List.drop_drop, hd,
    Nat.add_mul, Nat.one_mul]

theorem cStore_bind0 {α β} (out d : List α) (k : Nat) (hd : d.length = k) (h : k ≤ out.length) (f : List α → R β) :
    (cStore out (0 * k) d >>= f) = f (d ++ out.drop (1 * k)) := by
  rw [Nat.zero_mul, cStore_step0 out d k hd h, bind_ok]

theorem cStore_bind {α β} (p out d : List α) (k i : Nat) (hp : p.length = i * k) (hd : d.length = k)
    (h : (i + 1) * k ≤ out.length) (f : List α → R β) :
    (cStore (p ++ out.drop (i * k)) (i * k) d >>= f) = f ((p ++ d) ++ out.drop ((i + 1) * k)) := by
  rw [cStore_step p out d k i hp hd h, bind_ok]

theorem len_step {α} {p d : List α} {k i : Nat} (hp : p.length = i * k) (hd : d.length = k) :
    (p ++ d).length = (i + 1) * k := by
  rw [List.length_append, hp, hd, Nat.add_mul, Nat.one_mul]

theorem store8 (out d0 d1 d2 d3 d4 d5 d6 d7 : Bytes) (k : Nat) (h0 : d0.length = k) (h1 : d1.length = k) (h2 : d2.length = k) (h3 : d3.length = k) (h4 : d4.length = k) (h5 : d5.length = k) (h6 : d6.length = k) (h7 : d7.length = k)
    (h : 8 * k ≤ out.length) :
    (do
      let out ← cStore out (0 * k) d0
      let out ← cStore out (1 * k) d1
      let out ← cStore out (2 * k) d2
      let out ← cStore out (3 * k) d3
      let out ← cStore out (4 * k) d4
      let out ← cStore out (5 * k) d5
      let out ← cStore out (6 * k) d6
      let out ← cStore out (7 * k) d7
      return out : R Bytes) =
    .ok (d0 ++ (d1 ++ (d2 ++ (d3 ++ (d4 ++ (d5 ++ (d6 ++ (d7 ++ out.drop (8 * k))))))))) := by
  have l : ∀ j, j ≤ 8 → j * k ≤ out.length := fun j hj => Nat.le_trans (Nat.mul_le_mul_right k hj) h
  refine (cStore_bind0 out d0 k h0 (by rw [← Nat.one_mul k]; exact l 1 (by decide)) _).trans ?_
  have p0 : d0.length = 1 * k := by rw [Nat.one_mul]; exact h0
  refine (cStore_bind _ out d1 k 1 p0 h1 (l 2 (by decide)) _).trans ?_
  have p1 := len_step p0 h1
  refine (cStore_bind _ out d2 k 2 p1 h2 (l 3 (by decide)) _).trans ?_
  have p2 := len_step p1 h2
  refine (cStore_bind _ out d3 k 3 p2 h3 (l 4 (by decide)) _).trans ?_
  have p3 := len_step p2 h3
  refine (cStore_bind _ out d4 k 4 p3 h4 (l 5 (by decide)) _).trans ?_
  have p4 := len_step p3 h4
  refine (cStore_bind _ out d5 k 5 p4 h5 (l 6 (by decide)) _).trans ?_
  have p5 := len_step p4 h5
  refine (cStore_bind _ out d6 k 6 p5 h6 (l 7 (by decide)) _).trans ?_
  have p6 := len_step p5 h6
  refine (cStore_step _ out d7 k 7 p6 h7 (l 8 (by decide))).trans ?_
  simp only [List.append_assoc, pure_eq, Nat.reduceAdd]

theorem store16 (out d0 d1 d2 d3 d4 d5 d6 d7 d8 d9 d10 d11 d12 d13 d14 d15 : Bytes) (k : Nat) (h0 : d0.length = k) (h1 : d1.length = k) (h2 : d2.length = k) (h3 : d3.length = k) (h4 : d4.length = k) (h5 : d5.length = k) (h6 : d6.length = k) (h7 : d7.length = k) (h8 : d8.length = k) (h9 : d9.length = k) (h10 : d10.length = k) (h11 : d11.length = k) (h12 : d12.length = k) (h13 : d13.length = k) (h14 : d14.length = k) (h15 : d15.length = k)
    (h : 16 * k ≤ out.length) :
    (do
      let out ← cStore out (0 * k) d0
      let out ← cStore out (1 * k) d1
      let out ← cStore out (2 * k) d2
      let out ← cStore out (3 * k) d3
      let out ← cStore out (4 * k) d4
      let out ← cStore out (5 * k) d5
      let out ← cStore out (6 * k) d6
      let out ← cStore out (7 * k) d7
      let out ← cStore out (8 * k) d8
      let out ← cStore out (9 * k) d9
      let out ← cStore out (10 * k) d10
      let out ← cStore out (11 * k) d11
      let out ← cStore out (12 * k) d12
      let out ← cStore out (13 * k) d13
      let out ← cStore out (14 * k) d14
      let out ← cStore out (15 * k) d15
      return out : R Bytes) =
    .ok (d0 ++ (d1 ++ (d2 ++ (d3 ++ (d4 ++ (d5 ++ (d6 ++ (d7 ++ (d8 ++ (d9 ++ (d10 ++ (d11 ++ (d12 ++ (d13 ++ (d14 ++ (d15 ++ out.drop (16 * k))))))))))))))))) := by
  have l : ∀ j, j ≤ 16 → j * k ≤ out.length := fun j hj => Nat.le_trans (Nat.mul_le_mul_right k hj) h
  refine (cStore_bind0 out d0 k h0 (by rw [← Nat.one_mul k]; exact l 1 (by decide)) _).trans ?_
  have p0 : d0.length = 1 * k := by rw [Nat.one_mul]; exact h0
  refine (cStore_bind _ out d1 k 1 p0 h1 (l 2 (by decide)) _).trans ?_
  have p1 := len_step p0 h1
  refine (cStore_bind _ out d2 k 2 p1 h2 (l 3 (by decide)) _).trans ?_
  have p2 := len_step p1 h2
  refine (cStore_bind _ out d3 k 3 p2 h3 (l 4 (by decide)) _).trans ?_
  have p3 := len_step p2 h3
  refine (cStore_bind _ out d4 k 4 p3 h4 (l 5 (by decide)) _).trans ?_
  have p4 := len_step p3 h4
  refine (cStore_bind _ out d5 k 5 p4 h5 (l 6 (by decide)) _).trans ?_
  have p5 := len_step p4 h5
  refine (cStore_bind _ out d6 k 6 p5 h6 (l 7 (by decide)) _).trans ?_
  have p6 := len_step p5 h6
  refine (cStore_bind _ out d7 k 7 p6 h7 (l 8 (by decide)) _).trans ?_
  have p7 := len_step p6 h7
  refine (cStore_bind _ out d8 k 8 p7 h8 (l 9 (by decide)) _).trans ?_
  have p8 := len_step p7 h8
  refine (cStore_bind _ out d9 k 9 p8 h9 (l 10 (by decide)) _).trans ?_
  have p9 := len_step p8 h9
  refine (cStore_bind _ out d10 k 10 p9 h10 (l 11 (by decide)) _).trans ?_
  have p10 := len_step p9 h10
  refine (cStore_bind _ out d11 k 11 p10 h11 (l 12 (by decide)) _).trans ?_
  have p11 := len_step p10 h11
  refine (cStore_bind _ out d12 k 12 p11 h12 (l 13 (by decide)) _).trans ?_
  have p12 := len_step p11 h12
  refine (cStore_bind _ out d13 k 13 p12 h13 (l 14 (by decide)) _).trans ?_
  have p13 := len_step p12 h13
  refine (cStore_bind _ out d14 k 14 p13 h14 (l 15 (by decide)) _).trans ?_
  have p14 := len_step p13 h14
  refine (cStore_step _ out d15 k 15 p14 h15 (l 16 (by decide))).trans ?_
  simp only [List.append_assoc, pure_eq, Nat.reduceAdd]

/-! ## the kernels -/

section kernel
variable {V : Type} (N : Nat) (L : Nat → V → Word) (o : Ops V) (set1 : Word → V)
  (key : Vector Word 8) (d : U64) (flags fs fe : Byte) (blocks : Nat) (deltas : List U64)
  (trm : List Bytes → Nat → R (Vector V 16)) (store : Vector V 8 → Bytes → R Bytes)
  (ldo : U64 → List U64 → R (V × V))

/-- the shape of `hashN_...` -/
def kern (inputs : List Bytes) (off : U64) (out : Bytes) : R Bytes := do
  let (lo, hi) ← ldo off deltas
  let h ← loopG (fun b => trm inputs (b * 64))
    (fun h bf m => o.block (set1 Model.IV[0]) (set1 Model.IV[1]) (set1 Model.IV[2]) (set1 Model.IV[3]) h lo hi
      (set1 (BitVec.ofNat 32 64)) (set1 (bf.setWidth 32)) m) blocks flags fe blocks 0
    #v[set1 key[0], set1 key[1], set1 key[2], set1 key[3], set1 key[4], set1 key[5], set1 key[6], set1 key[7]]
    (flags ||| fs)
  store h out

theorem map_set1_gen (key : Vector Word 8) (f : V → Word) (hf : ∀ x, f (set1 x) = x) :
    (#v[set1 key[0], set1 key[1], set1 key[2], set1 key[3], set1 key[4], set1 key[5], set1 key[6],
      set1 key[7]]).map f = key := by
  apply Vector.ext; intro j hj
  rw [Vector.getElem_map]
  rcases j with _|_|_|_|_|_|_|_|j
  all_goals first | omega | exact hf _

theorem kern_each (hom : ∀ i, i < N → LaneHom o (L i)) (hset : ∀ i, i < N → ∀ x, L i (set1 x) = x)
    (htrm : MsgOk N L trm) (hstore : StoreOk N L store) (δ : Nat → U64) (hldo : OffsOk N L δ deltas ldo)
    (inputs : List Bytes) (off : U64) (out : Bytes) (hN : N ≤ inputs.length)
    (hlen : ∀ i, i < N → 64 * blocks ≤ (inputs.getD i []).length) (hout : 32 * N ≤ out.length) :
    kern o set1 key flags fs fe blocks deltas trm store ldo inputs off out =
      .ok (Spec.eachOut key (fun i => off + δ i) flags fs fe blocks N inputs ++ out.drop (32 * N)) := by
  obtain ⟨lo, hi, el, hl⟩ := hldo off
  obtain ⟨h', e, hh⟩ := loopG_lane (I := Fin N) (fun i x => L i.val x)
    (fun i => (inputs.getD i.val []).take (64 * blocks)) (fun i => off + δ i.val)
    (fun b => trm inputs (b * 64))
    (fun h bf m => o.block (set1 Model.IV[0]) (set1 Model.IV[1]) (set1 Model.IV[2]) (set1 Model.IV[3]) h lo hi
      (set1 (BitVec.ofNat 32 64)) (set1 (bf.setWidth 32)) m) blocks flags fe
    (fun i => by rw [List.length_take]; have := hlen i i.isLt; omega)
    (by
      intro b hb
      obtain ⟨m, e, hm⟩ := htrm inputs (b * 64) hN (fun i hi => by have := hlen i hi; omega)
      refine ⟨m, e, fun i => ?_⟩
      rw [hm i i.isLt, Nat.mul_comm b 64, List.drop_take, ← pad_take ((_ : List Byte).take _), List.take_take,
        Nat.min_eq_left (by omega), pad_take])
    (by
      intro i h bf m
      rw [o.block_lane (L i.val) (hom i i.isLt) _ _ _ _ _ _ _ _ _ _ (hset i i.isLt _) (hset i i.isLt _)
        (hset i i.isLt _) (hset i i.isLt _), hset i i.isLt, hset i i.isLt, (hl i i.isLt).1, (hl i i.isLt).2]
      rfl)
    blocks 0 (by omega)
    #v[set1 key[0], set1 key[1], set1 key[2], set1 key[3], set1 key[4], set1 key[5], set1 key[6], set1 key[7]]
    (flags ||| fs)
  rw [kern, el, bind_ok]
  dsimp only
  rw [e, bind_ok, hstore _ _ hout]
  refine congrArg (fun l => Except.ok (l ++ _)) ?_
  unfold Spec.eachOut
  simp only [List.flatMap]
  refine congrArg List.flatten (List.map_congr_left fun i hi => ?_)
  have hi := List.mem_range.1 hi
  have := hh ⟨i, hi⟩
  rw [Nat.mul_zero, List.drop_zero, map_set1_gen set1 key _ (fun x => hset i hi x), cvLoop_chain _ _ _ _ _ _ _ (hlen i hi)] at this
  rw [← this]

theorem kern_ok (hom : ∀ i, i < N → LaneHom o (L i)) (hset : ∀ i, i < N → ∀ x, L i (set1 x) = x)
    (htrm : MsgOk N L trm) (hstore : StoreOk N L store)
    (hldo : OffsOk N L (fun i => BitVec.ofNat 64 i * d) deltas ldo) :
    KerOk key d flags fs fe blocks N (kern o set1 key flags fs fe blocks deltas trm store ldo) :=
  kern_each N L o set1 key flags fs fe blocks deltas trm store ldo hom hset htrm hstore _ hldo

end kernel

end Baokeshed.Proofs.C
