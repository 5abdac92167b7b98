import Verif.SpecTable
import Verif.Proofs.C.Basic
import Verif.Proofs.C64.Basic

/-!
# The loops of `hash_many` for any table of offset deltas
-/

set_option linter.unusedVariables false

namespace Baokeshed.Proofs.Table
open Baokeshed.Model Baokeshed.Spec
open Baokeshed.Model.C (cAdvance cIndex)
open Baokeshed.Proofs.C (batch cAdvance_ok cIndex_some)

/-! ## `tableOffset` batch by batch -/

theorem table_lt (δ : Nat → U64) (w : Nat) (ws : List Nat) (num : Nat) (off : U64) (i : Nat) (h : num < w) :
    tableOffset δ (w :: ws) num off i = tableOffset δ ws num off i := by
  rw [tableOffset, Nat.div_eq_of_lt h, Nat.mod_eq_of_lt h, Nat.zero_mul, if_neg (by omega)]
  simp

theorem table_head (δ : Nat → U64) (w : Nat) (ws : List Nat) (num : Nat) (off : U64) (i : Nat) (hw : w ≤ num)
    (hi : i < w) :
    tableOffset δ (w :: ws) num off i = off + (if w = 1 then 0 else δ i) := by
  have h1 : 1 ≤ num / w := (Nat.one_le_div_iff (by omega)).2 hw
  have h2 : w ≤ num / w * w := Nat.le_mul_of_pos_left w h1
  rw [tableOffset, if_pos (by omega), Nat.div_eq_of_lt hi, Nat.mod_eq_of_lt hi]
  simp

theorem table_tail (δ : Nat → U64) (w : Nat) (ws : List Nat) (num : Nat) (off : U64) (i : Nat) (h0 : 0 < w)
    (hw : w ≤ num) :
    tableOffset δ (w :: ws) num off (w + i) = tableOffset δ (w :: ws) (num - w) (off + δ w) i := by
  have e : num = (num - w) + w := by omega
  generalize num - w = m at e
  subst e
  have e1 : (m + w) / w = m / w + 1 := Nat.add_div_right m h0
  have e2 : (w + i) / w = i / w + 1 := by rw [Nat.add_comm, Nat.add_div_right i h0]
  have e3 : (w + i) % w = i % w := Nat.add_mod_left w i
  have e4 : ∀ q : Nat, off + BitVec.ofNat 64 (q + 1) * δ w = off + δ w + BitVec.ofNat 64 q * δ w := by
    intro q
    rw [BitVec.ofNat_add, BitVec.add_mul, BitVec.one_mul, BitVec.add_comm (_ * _), BitVec.add_assoc]
  rw [tableOffset, tableOffset, e1, e2, e3, Nat.add_mod_right, Nat.add_mul, Nat.one_mul, e4, e4]
  by_cases h : i < m / w * w
  · rw [if_pos h, if_pos (by omega)]
  · rw [if_neg h, if_neg (by omega)]
    congr 1
    omega

/-- a table `i * d` gives input `i` the offset `off + i * d`, whatever the widths -/
theorem table_linear (δ : Nat → U64) (d : U64) (ws : List Nat) (hw : ∀ w, w ∈ ws → 0 < w)
    (hδ : ∀ w, w ∈ ws → ∀ i, i ≤ w → δ i = BitVec.ofNat 64 i * d) (num : Nat) (off : U64) (i : Nat)
    (h1 : 1 ∈ ws) (hi : i < num) : tableOffset δ ws num off i = off + BitVec.ofNat 64 i * d := by
  induction ws generalizing num off i with
  | nil => cases h1
  | cons w ws ih =>
    have w0 := hw w List.mem_cons_self
    have hδw := hδ w List.mem_cons_self
    rw [tableOffset, hδw w (Nat.le_refl w)]
    by_cases h : i < num / w * w
    · rw [if_pos h]
      have e : i = i / w * w + i % w := by rw [Nat.mul_comm]; exact (Nat.div_add_mod i w).symm
      have hm := Nat.mod_lt i w0
      have e1 : (if w = 1 then 0 else δ (i % w)) = BitVec.ofNat 64 (i % w) * d := by
        by_cases h1 : w = 1
        · rw [if_pos h1, h1, Nat.mod_one]; simp
        · rw [if_neg h1]; exact hδw _ (by omega)
      rw [e1, ← BitVec.mul_assoc, BitVec.add_assoc, ← BitVec.add_mul, ← BitVec.ofNat_mul, ← BitVec.ofNat_add, ← e]
    · rw [if_neg h]
      have hd := Nat.div_add_mod num w
      rw [Nat.mul_comm] at hd
      have e : num / w * w + (i - num / w * w) = i := by omega
      have h1' : 1 ∈ ws := by
        rcases List.mem_cons.1 h1 with h1 | h1
        · subst h1
          simp at h
          omega
        · exact h1
      rw [ih (fun v hv => hw v (List.mem_cons_of_mem _ hv)) (fun v hv => hδ v (List.mem_cons_of_mem _ hv)) _ _ _ h1'
        (by omega), ← BitVec.mul_assoc, BitVec.add_assoc, ← BitVec.add_mul, ← BitVec.ofNat_mul, ← BitVec.ofNat_add, e]

/-! ## The loops -/

section
variable (cv : U64 → Bytes → Bytes) (hcv : ∀ o b, (cv o b).length = 32) (B : Nat)

/-- the results for the first `n` inputs, input `i` at offset `o i` -/
def each (o : Nat → U64) (n : Nat) (inputs : List Bytes) : Bytes :=
  (List.range n).flatMap fun i => cv (o i) (inputs.getD i [])

include hcv in
theorem length_each (o : Nat → U64) (n : Nat) (inputs : List Bytes) : (each cv o n inputs).length = 32 * n := by
  unfold each
  induction n with
  | zero => rfl
  | succ n ih => rw [List.range_succ, List.flatMap_append, List.length_append, ih]; simp [hcv]; omega

theorem each_congr (o o' : Nat → U64) (n : Nat) (inputs : List Bytes) (h : ∀ i, i < n → o i = o' i) :
    each cv o n inputs = each cv o' n inputs := by
  unfold each
  induction n with
  | zero => rfl
  | succ n ih =>
    rw [List.range_succ, List.flatMap_append, List.flatMap_append, ih fun i hi => h i (by omega)]
    simp [h n (by omega)]

theorem each_add (o : Nat → U64) (k n : Nat) (inputs : List Bytes) :
    each cv o (k + n) inputs = each cv o k inputs ++ each cv (fun i => o (k + i)) n (inputs.drop k) := by
  unfold each
  rw [List.range_add, List.flatMap_append, List.flatMap_map]
  simp only [List.getD_eq_getElem?_getD, List.getElem?_drop]

/-- `f` gives its inputs the offsets of `tableOffset`, if there are fewer than `b` -/
def GoodT (δ : Nat → U64) (ws : List Nat) (b : Option Nat) (f : Nat → List Bytes → U64 → Bytes → R Bytes) : Prop :=
  ∀ num inputs off out, (∀ b', b = some b' → num < b') → num ≤ inputs.length →
    (∀ i, i < num → B ≤ (inputs.getD i []).length) → 32 * num ≤ out.length →
    f num inputs off out = .ok (each cv (tableOffset δ ws num off) num inputs ++ out.drop (32 * num))

/-- `ker` hashes `k` inputs, input `i` at `off + δ i` -/
def KerT (δ : Nat → U64) (k : Nat) (ker : List Bytes → U64 → Bytes → R Bytes) : Prop :=
  ∀ inputs off out, k ≤ inputs.length → (∀ i, i < k → B ≤ (inputs.getD i []).length) → 32 * k ≤ out.length →
    ker inputs off out =
      .ok (each cv (fun i => off + (if k = 1 then 0 else δ i)) k inputs ++ out.drop (32 * k))

include hcv in
theorem loopT (δ : Nat → U64) (ws : List Nat) (k : Nat) (hk : 0 < k) (deltas : List U64)
    (ker : List Bytes → U64 → Bytes → R Bytes) (f next : Nat → List Bytes → U64 → Bytes → R Bytes)
    (hf : ∀ num inputs off out, f num inputs off out =
      if k ≤ num then batch k ker deltas f num inputs off out else next num inputs off out)
    (hker : KerT cv B δ k ker) (hnext : GoodT cv B δ ws (some k) next)
    (hd : deltas[k]? = some (δ k)) : GoodT cv B δ (k :: ws) none f := by
  intro num
  induction num using Nat.strongRecOn with
  | ind num ih =>
    intro inputs off out _ hin hlen hout
    rw [hf]
    split
    next h =>
      have hl := length_each cv hcv
      have e0 : each cv (tableOffset δ (k :: ws) num off) num inputs =
          each cv (fun i => off + (if k = 1 then 0 else δ i)) k inputs ++
            each cv (tableOffset δ (k :: ws) (num - k) (off + δ k)) (num - k) (inputs.drop k) := by
        have e1 : num = k + (num - k) := by omega
        conv => lhs; arg 3; rw [e1]
        rw [each_add]
        congr 1
        · exact each_congr _ _ _ _ _ fun i hi => table_head δ k ws num off i h hi
        · exact each_congr _ _ _ _ _ fun i _ => table_tail δ k ws num off i hk h
      have hadv : cAdvance (each cv (fun i => off + (if k = 1 then 0 else δ i)) k inputs ++ out.drop (32 * k)) (k * 32) =
          .ok (out.drop (32 * k)) := by
        rw [cAdvance_ok _ _ (by rw [List.length_append, hl]; omega),
          List.drop_left' (by rw [hl]; omega)]
      rw [batch, hker inputs off out (by omega) (fun i hi => hlen i (by omega)) (by omega), bind_ok,
        cAdvance_ok _ _ (by omega), bind_ok, cIndex_some _ _ _ hd, bind_ok, hadv, bind_ok,
        ih (num - k) (by omega) _ _ _ (by simp) (by rw [List.length_drop]; omega) (fun i hi => by
          have := hlen (k + i) (by omega)
          simpa [List.getD_eq_getElem?_getD, List.getElem?_drop] using this) (by rw [List.length_drop]; omega),
        bind_ok, pure_eq, List.take_left' (by rw [hl]; omega), List.drop_drop, ← List.append_assoc, ← e0]
      have e2 : 32 * k + 32 * (num - k) = 32 * num := by omega
      rw [e2]
    next h =>
      rw [hnext num inputs off out (fun b' e => by cases e; omega) hin hlen hout,
        each_congr cv _ _ num inputs fun i _ => table_lt δ k ws num off i (by omega)]

theorem goodT_zero (δ : Nat → U64) : GoodT cv B δ [] (some 1) (fun _ _ _ out => .ok out) := by
  intro num inputs off out h1 _ _ _
  have : num = 0 := by have := h1 1 rfl; omega
  subst this
  rfl

theorem GoodT.mono {δ : Nat → U64} {ws : List Nat} {f : Nat → List Bytes → U64 → Bytes → R Bytes}
    (h : GoodT cv B δ ws none f) (b : Option Nat) : GoodT cv B δ ws b f :=
  fun num inputs off out _ => h num inputs off out (by simp)

theorem one_kerT (δ : Nat → U64) (one : Bytes → U64 → Bytes → R Bytes)
    (h1 : ∀ input off out, B ≤ input.length → 32 ≤ out.length → one input off out = .ok (cv off input ++ out.drop 32)) :
    KerT cv B δ 1 (fun inputs off out => do one (← cIndex inputs 0) off out) := by
  intro inputs off out hin hlen hout
  cases inputs with
  | nil => simp at hin
  | cons x xs =>
    have e : cIndex (x :: xs) 0 = .ok x := rfl
    show (do one (← cIndex (x :: xs) 0) off out) = _
    rw [e, bind_ok, h1 x off out (hlen 0 (by omega)) (by omega)]
    simp [each]

end

end Baokeshed.Proofs.Table
