import Verif.Proofs.HashMany8
import Verif.Model.Lib

/-!
# Left-balanced trees

Free binary trees, used to describe what the hash buffers and stacks of the implementations hold.
-/

set_option linter.unusedVariables false

namespace Baokeshed.Proofs
open Baokeshed.Model

/-- `empty` only occurs as the tree over no leaves -/
inductive Tree (α : Type) where
  | empty
  | leaf (a : α)
  | node (l r : Tree α)

/-- largest power of two below `n` (for `n ≥ 2`) -/
def lp (n : Nat) : Nat := 2 ^ Nat.log2 (n - 1)

theorem lp_pos (n : Nat) : 0 < lp n := Nat.two_pow_pos _

theorem lp_lt {n : Nat} (h : 2 ≤ n) : lp n < n := by
  unfold lp
  have := Nat.log2_self_le (n := n - 1) (by omega)
  omega

theorem le_two_lp {n : Nat} (h : 2 ≤ n) : n ≤ 2 * lp n := by
  unfold lp
  have := Nat.lt_log2_self (n := n - 1)
  rw [Nat.pow_succ] at this
  omega

theorem lp_eq {n k : Nat} (h1 : 2 ^ k < n) (h2 : n ≤ 2 * 2 ^ k) : lp n = 2 ^ k := by
  have hk : 0 < 2 ^ k := Nat.two_pow_pos k
  unfold lp
  congr 1
  rw [Nat.log2_eq_iff (by omega), Nat.pow_succ]
  omega

/-- the left-balanced tree over a list of trees -/
def shape {α} (xs : List (Tree α)) : Tree α :=
  if h : xs.length ≤ 1 then xs.headD .empty
  else .node (shape (xs.take (lp xs.length))) (shape (xs.drop (lp xs.length)))
termination_by xs.length
decreasing_by
  · have := lp_lt (n := xs.length) (by omega)
    simp only [List.length_take]; omega
  · have := lp_pos xs.length
    simp only [List.length_drop]; omega

theorem shape_one {α} (t : Tree α) : shape [t] = t := by
  rw [shape, dif_pos (by simp)]; rfl

theorem shape_append {α} (l r : List (Tree α)) (k : Nat) (hl : l.length = 2 ^ k) (h1 : 1 ≤ r.length)
    (h2 : r.length ≤ 2 ^ k) : shape (l ++ r) = .node (shape l) (shape r) := by
  have hk : 0 < 2 ^ k := Nat.two_pow_pos k
  have e : lp (l ++ r).length = l.length := by
    rw [hl]; apply lp_eq <;> rw [List.length_append] <;> omega
  rw [shape, dif_neg (by rw [List.length_append]; omega), e]
  simp

theorem shape_split {α} (xs : List (Tree α)) (h : 2 ≤ xs.length) :
    shape xs = .node (shape (xs.take (lp xs.length))) (shape (xs.drop (lp xs.length))) := by
  rw [shape, dif_neg (by omega)]

/-- combine neighbours; an odd one out stays -/
def pairs {α} : List (Tree α) → List (Tree α)
  | [] => []
  | [x] => [x]
  | x :: y :: r => .node x y :: pairs r

theorem length_pairs {α} (xs : List (Tree α)) : (pairs xs).length = (xs.length + 1) / 2 := by
  induction xs using pairs.induct with
  | case1 => simp [pairs]
  | case2 => simp [pairs]
  | case3 x y r ih => rw [pairs, List.length_cons, ih, List.length_cons, List.length_cons]; omega

theorem pairs_append {α} (xs ys : List (Tree α)) (h : xs.length % 2 = 0) :
    pairs (xs ++ ys) = pairs xs ++ pairs ys := by
  induction xs using pairs.induct with
  | case1 => rfl
  | case2 => simp at h
  | case3 x y r ih =>
    simp only [List.length_cons] at h
    simp only [List.cons_append, pairs]
    rw [ih (by omega)]

theorem shape_pairs {α} (xs : List (Tree α)) : shape (pairs xs) = shape xs := by
  induction hn : xs.length using Nat.strongRecOn generalizing xs with
  | ind n ih =>
  match xs, hn with
  | [], _ => rfl
  | [x], _ => rfl
  | [x, y], _ =>
    rw [pairs, pairs, shape_one]
    have := shape_append [x] [y] 0 rfl (by simp) (by simp)
    rw [List.singleton_append, shape_one, shape_one] at this
    exact this.symm
  | x :: y :: z :: r, hn =>
    generalize hxs : x :: y :: z :: r = xs at hn
    have h3 : 3 ≤ n := by rw [← hn, ← hxs]; simp
    have hlt := lp_lt (n := n) (by omega)
    have hle := le_two_lp (n := n) (by omega)
    have hp : ∃ k, lp n = 2 ^ (k + 1) := by
      unfold lp at *
      rcases hk : Nat.log2 (n - 1) with _ | k
      · rw [hk] at hle; omega
      · exact ⟨k, rfl⟩
    obtain ⟨k, hk⟩ := hp
    rw [hk] at hlt hle
    rw [Nat.pow_succ] at hlt hle
    have hpos := Nat.two_pow_pos k
    have e := List.take_append_drop (2 ^ (k + 1)) xs
    generalize hl : xs.take (2 ^ (k + 1)) = l at e
    generalize hr : xs.drop (2 ^ (k + 1)) = r' at e
    have ll : l.length = 2 ^ (k + 1) := by rw [← hl, List.length_take, Nat.pow_succ]; omega
    have lr : r'.length = n - 2 ^ (k + 1) := by rw [← hr, List.length_drop]; omega
    rw [Nat.pow_succ] at ll lr
    have e2 : pairs xs = pairs l ++ pairs r' := by
      rw [← e]; exact pairs_append l r' (by rw [ll]; omega)
    rw [e2, ← e, shape_append l r' (k + 1) (by rw [Nat.pow_succ]; omega) (by omega) (by rw [Nat.pow_succ]; omega),
      shape_append (pairs l) (pairs r') k (by rw [length_pairs]; omega) (by rw [length_pairs]; omega)
        (by rw [length_pairs]; omega), ih l.length (by omega) l rfl, ih r'.length (by omega) r' rfl]

/-! ## The binary-counter stack -/

/-- The subtrees over a list of leaves given by the binary representation of its length, smallest
(last) first. -/
def canon {α} (xs : List (Tree α)) : List (Tree α) :=
  if h : xs.length = 0 then []
  else if xs.length % 2 = 1 then xs.getLastD .empty :: canon (pairs xs.dropLast)
  else canon (pairs xs)
termination_by xs.length
decreasing_by
  · rw [length_pairs, List.length_dropLast]; omega
  · rw [length_pairs]; omega

theorem canon_nil {α} : canon ([] : List (Tree α)) = [] := by rw [canon, dif_pos (by simp)]

theorem canon_odd {α} (xs : List (Tree α)) (x : Tree α) (h : xs.length % 2 = 0) :
    canon (xs ++ [x]) = x :: canon (pairs xs) := by
  rw [canon, dif_neg (by simp), if_pos (by simp; omega)]
  simp

theorem canon_even {α} (xs : List (Tree α)) (h : xs.length % 2 = 0) :
    canon xs = canon (pairs xs) := by
  by_cases h0 : xs.length = 0
  · have : xs = [] := List.length_eq_zero_iff.1 h0
    subst this; rfl
  · rw [canon, dif_neg h0, if_neg (by omega)]

theorem exists_snoc {α} (xs : List α) (h : xs ≠ []) : ∃ ys y, xs = ys ++ [y] :=
  ⟨xs.dropLast, xs.getLast h, (List.dropLast_concat_getLast h).symm⟩

theorem length_canon {α} (xs : List (Tree α)) : (canon xs).length = popcount xs.length := by
  induction hn : xs.length using Nat.strongRecOn generalizing xs with
  | ind n ih =>
  rw [popcount]
  by_cases h0 : n = 0
  · have : xs = [] := List.length_eq_zero_iff.1 (by omega)
    subst this; rw [canon_nil, if_pos h0]; rfl
  · rw [if_neg h0]
    by_cases h1 : n % 2 = 1
    · obtain ⟨ys, y, rfl⟩ := exists_snoc xs (by intro h; subst h; simp at hn; omega)
      rw [List.length_append, List.length_singleton] at hn
      rw [canon_odd ys y (by omega), List.length_cons, ih ((pairs ys).length) (by rw [length_pairs]; omega) _ rfl,
        length_pairs, h1, show (ys.length + 1) / 2 = n / 2 by omega, Nat.add_comm]
    · rw [canon_even xs (by omega), ih ((pairs xs).length) (by rw [length_pairs]; omega) _ rfl, length_pairs,
        show (xs.length + 1) / 2 = n / 2 by omega, show n % 2 = 0 by omega, Nat.zero_add]

/-- merging the two top entries -/
def merge1 {α} : List (Tree α) → List (Tree α)
  | x :: y :: r => .node y x :: r
  | s => s

/-- `n` merges -/
def mergeN {α} : Nat → List (Tree α) → List (Tree α)
  | 0, s => s
  | n + 1, s => mergeN n (merge1 s)

/-- Carry propagation: pushing one more tree and merging until the number of entries is the number
of one bits of the new count restores the canonical stack. -/
theorem canon_push {α} (xs : List (Tree α)) (x : Tree α) :
    popcount (xs.length + 1) ≤ (canon xs).length + 1 ∧
    mergeN ((canon xs).length + 1 - popcount (xs.length + 1)) (x :: canon xs) = canon (xs ++ [x]) := by
  induction hn : xs.length using Nat.strongRecOn generalizing xs x with
  | ind n ih =>
  by_cases h1 : n % 2 = 0
  · have e := canon_odd xs x (by omega)
    have e2 := canon_even xs (by omega)
    have l : popcount (n + 1) = (canon xs).length + 1 := by
      rw [← hn, show xs.length + 1 = (xs ++ [x]).length by simp, ← length_canon, e, ← e2]; rfl
    rw [l, Nat.sub_self, mergeN, e, ← e2]
    exact ⟨Nat.le_refl _, rfl⟩
  · obtain ⟨ys, y, rfl⟩ := exists_snoc xs (by intro h; subst h; simp at hn; omega)
    rw [List.length_append, List.length_singleton] at hn
    have hp : (pairs ys).length = n / 2 := by rw [length_pairs]; omega
    obtain ⟨h2, h3⟩ := ih (n / 2) (by omega) (pairs ys) (.node y x) hp
    have hpc : popcount (n + 1) = popcount (n / 2 + 1) := by
      rw [popcount, if_neg (by omega), show (n + 1) % 2 = 0 by omega, Nat.zero_add,
        show (n + 1) / 2 = n / 2 + 1 by omega]
    rw [hpc, canon_odd ys y (by omega), List.length_cons]
    refine ⟨by omega, ?_⟩
    rw [show (canon (pairs ys)).length + 1 + 1 - popcount (n / 2 + 1) =
      (canon (pairs ys)).length + 1 - popcount (n / 2 + 1) + 1 by omega, mergeN, merge1, h3,
      canon_even (ys ++ [y] ++ [x]) (by simp; omega), List.append_assoc, List.singleton_append,
      pairs_append ys [y, x] (by omega)]
    rfl

/-- combining all entries, smallest first -/
def foldStack {α} : Tree α → List (Tree α) → Tree α
  | x, [] => x
  | x, y :: r => foldStack (.node y x) r

theorem fold_canon {α} (xs : List (Tree α)) (x : Tree α) :
    foldStack x (canon xs) = shape (xs ++ [x]) := by
  induction hn : xs.length using Nat.strongRecOn generalizing xs x with
  | ind n ih =>
  by_cases h0 : n = 0
  · have : xs = [] := List.length_eq_zero_iff.1 (by omega)
    subst this; rw [canon_nil, foldStack, List.nil_append, shape_one]
  by_cases h1 : n % 2 = 0
  · rw [canon_even xs (by omega), ih (pairs xs).length (by rw [length_pairs]; omega) _ _ rfl,
      ← shape_pairs (xs ++ [x]), pairs_append _ _ (by omega)]
    rfl
  · obtain ⟨ys, y, rfl⟩ := exists_snoc xs (by intro h; subst h; simp at hn; omega)
    rw [List.length_append, List.length_singleton] at hn
    rw [canon_odd ys y (by omega), foldStack, ih (pairs ys).length (by rw [length_pairs]; omega) _ _ rfl,
      ← shape_pairs (ys ++ [y] ++ [x]), List.append_assoc, List.singleton_append,
      pairs_append ys [y, x] (by omega)]
    rfl

/-! ## Connection with the specification -/

section
variable (key : Vector Word 8) (flags : Byte)

/-- the compression input of the top node of a tree -/
def inp : Tree Spec.Input → Spec.Input
  | .empty => Spec.chunk key flags 0 []
  | .leaf n => n
  | .node l r => Spec.parent key flags (Spec.compress (inp l)) (Spec.compress (inp r))

/-- chaining value of a tree -/
def cvOf (t : Tree Spec.Input) : Vector Word 8 := Spec.compress (inp key flags t)

/-- the leaves of the tree over `input` starting at byte `offset` -/
def leaves (offset : Nat) (input : Bytes) : List (Tree Spec.Input) :=
  if h : input.length ≤ 2048 then [.leaf (Spec.chunk key flags offset input)]
  else .leaf (Spec.chunk key flags offset (input.take 2048)) :: leaves (offset + 2048) (input.drop 2048)
termination_by input.length
decreasing_by simp; omega

theorem length_leaves (offset : Nat) (input : Bytes) :
    (leaves key flags offset input).length = (input.length - 1) / 2048 + 1 := by
  induction hn : input.length using Nat.strongRecOn generalizing input offset with
  | ind n ih =>
  rw [leaves]
  split
  next h => simp only [List.length_singleton]; omega
  next h => rw [List.length_cons, ih (n - 2048) (by omega) _ _ (by simp; omega)]; omega

theorem leaves_append (offset : Nat) (a b : Bytes) (k : Nat) (ha : a.length = 2048 * (k + 1)) (hb : b ≠ []) :
    leaves key flags offset (a ++ b) = leaves key flags offset a ++ leaves key flags (offset + a.length) b := by
  have hb' : 0 < b.length := List.length_pos_iff.2 hb
  induction k generalizing offset a with
  | zero =>
    rw [leaves, dif_neg (by simp; omega), leaves.eq_def _ _ _ a, dif_pos (by omega)]
    rw [List.take_append_of_le_length (by omega), List.drop_append_of_le_length (by omega),
      List.take_of_length_le (by omega), List.drop_of_length_le (by omega), List.nil_append,
      show a.length = 2048 by omega]
    rfl
  | succ k ih =>
    rw [leaves, dif_neg (by simp; omega), leaves.eq_def _ _ _ a, dif_neg (by omega)]
    rw [List.take_append_of_le_length (by omega), List.drop_append_of_le_length (by omega),
      ih _ _ (by simp; omega), List.cons_append, List.length_drop,
      show offset + 2048 + (a.length - 2048) = offset + a.length by omega]

theorem subtree_eq (offset : Nat) (input : Bytes) :
    Spec.subtree key flags offset input = inp key flags (shape (leaves key flags offset input)) := by
  induction hn : input.length using Nat.strongRecOn generalizing input offset with
  | ind n ih =>
  rw [Spec.subtree]
  split
  next h => rw [leaves, dif_pos h, shape_one]; rfl
  next h =>
    have hlt := Spec.leftLen_lt (Nat.lt_of_not_le h)
    have hpos := Spec.leftLen_pos input.length
    have hlp : Spec.leftLen input.length = 2048 * lp ((input.length - 1) / 2048 + 1) := rfl
    rw [hn] at hlt hpos hlp h
    have hl := length_leaves key flags offset input
    have hk := lp_pos ((n - 1) / 2048 + 1)
    have e : leaves key flags offset input =
        leaves key flags offset (input.take (Spec.leftLen n)) ++
          leaves key flags (offset + Spec.leftLen n) (input.drop (Spec.leftLen n)) := by
      have := leaves_append key flags offset (input.take (Spec.leftLen n)) (input.drop (Spec.leftLen n))
        (lp ((n - 1) / 2048 + 1) - 1) (by rw [List.length_take]; omega)
        (by intro h0; have := congrArg List.length h0; simp at this; omega)
      rw [List.take_append_drop] at this
      rw [this, List.length_take, show min (Spec.leftLen n) input.length = Spec.leftLen n by omega]
    have l1 : (leaves key flags offset (input.take (Spec.leftLen n))).length = lp ((n - 1) / 2048 + 1) := by
      rw [length_leaves, List.length_take]; omega
    rw [e, shape_append _ _ (Nat.log2 ((n - 1) / 2048 + 1 - 1)) l1 (by rw [length_leaves]; omega)
      (by
        have h2 := le_two_lp (n := (n - 1) / 2048 + 1) (by omega)
        rw [length_leaves, List.length_drop]; change _ ≤ lp ((n - 1) / 2048 + 1); omega), inp]
    simp only [hn]
    rw [ih _ (by rw [List.length_take]; omega) _ _ rfl, ih _ (by rw [List.length_drop]; omega) _ _ rfl]

end

end Baokeshed.Proofs
