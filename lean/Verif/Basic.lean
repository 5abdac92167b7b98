/-!
# Basic vocabulary of the model

Machine integers, byte slices, panics, checked arithmetic and bounds-checked slice
operations.  Nothing here is specific to baokeshed; these are the Rust primitives the
modelled code uses.
-/

namespace Baokeshed

/-- `u8` -/
abbrev Byte := BitVec 8
/-- `u32` (`type Word = u32`, /repo/src/lib.rs:59) -/
abbrev Word := BitVec 32
/-- `u64` -/
abbrev U64 := BitVec 64
/-- a byte slice `&[u8]` -/
abbrev Bytes := List Byte

/-- The ways in which the modelled code can stop abnormally. -/
inductive Panic where
  /-- a failed `assert!`/`debug_assert!` -/
  | assert
  /-- integer overflow or underflow with overflow checks enabled -/
  | overflow
  /-- slice index or range out of bounds, or slices of different length in
  `copy_from_slice` -/
  | bounds
  /-- push into a full `ArrayVec`/`ArrayString` -/
  | capacity
  /-- a raw pointer access outside the slice it was derived from -/
  | ub
  /-- the call stack is exhausted; only in Model/Depth.lean and Model/Python.lean, where its size is a parameter -/
  | stack
  deriving DecidableEq, Repr

/-- A computation that may panic. -/
abbrev R := Except Panic

/-- `debug_assert!(c)` -/
def assertR (c : Prop) [Decidable c] : R Unit := if c then .ok () else .error .assert

/-- `a + b` on `u64` with overflow check -/
def addU64 (a b : U64) : R U64 :=
  if a.toNat + b.toNat < 2 ^ 64 then .ok (a + b) else .error .overflow

/-- `a * b` on `u64` with overflow check -/
def mulU64 (a b : U64) : R U64 :=
  if a.toNat * b.toNat < 2 ^ 64 then .ok (a * b) else .error .overflow

/-- `a + b` on an unsigned type of `w` bits whose values are kept as `Nat` -/
def addN (w a b : Nat) : R Nat := if a + b < 2 ^ w then .ok (a + b) else .error .overflow

/-- `a * b` on an unsigned type of `w` bits whose values are kept as `Nat` -/
def mulN (w a b : Nat) : R Nat := if a * b < 2 ^ w then .ok (a * b) else .error .overflow

/-- `a - b` on an unsigned type, with underflow check -/
def subN (a b : Nat) : R Nat := if b ≤ a then .ok (a - b) else .error .overflow

/-- `&s[..n]` -/
def sliceTo {α} (s : List α) (n : Nat) : R (List α) :=
  if n ≤ s.length then .ok (s.take n) else .error .bounds

/-- `&s[n..]` -/
def sliceFrom {α} (s : List α) (n : Nat) : R (List α) :=
  if n ≤ s.length then .ok (s.drop n) else .error .bounds

/-- `array_ref!(s, off, n)`: the `n`-element array starting at `off`. -/
def arrayRef {α} (s : List α) (off n : Nat) : R (Vector α n) :=
  if h : off + n ≤ s.length then
    .ok ⟨((s.drop off).take n).toArray, by simp; omega⟩
  else .error .bounds

/-- Overwrite `s[off..off + data.len()]` with `data`. -/
def writeAt {α} (s : List α) (off : Nat) (data : List α) : R (List α) :=
  if off + data.length ≤ s.length then
    .ok (s.take off ++ data ++ s.drop (off + data.length))
  else .error .bounds

/-- `s.split_at(n)` -/
def splitAtR {α} (s : List α) (n : Nat) : R (List α × List α) :=
  if n ≤ s.length then .ok (s.take n, s.drop n) else .error .bounds

/-- `slice::chunks_exact(n)`: the list of whole `n`-element chunks. -/
def chunksExact {α} (n : Nat) (s : List α) : List (List α) :=
  if _h : 0 < n ∧ n ≤ s.length then s.take n :: chunksExact n (s.drop n) else []
termination_by s.length
decreasing_by simp; omega

/-- `ChunksExact::remainder` -/
def chunksRemainder {α} (n : Nat) (s : List α) : List α := s.drop (s.length / n * n)

/-- `u64::count_ones` -/
def popcount (n : Nat) : Nat := if n = 0 then 0 else n % 2 + popcount (n / 2)

/-- `usize::next_power_of_two`, with the overflow check of a `w`-bit `usize`.
(core::num: `one_less_than_next_power_of_two` is `MAX >> (n - 1).leading_zeros()`.) -/
def nextPowerOfTwo (w n : Nat) : R Nat :=
  let p := if n ≤ 1 then 1 else 2 ^ (Nat.log2 (n - 1) + 1)
  if p < 2 ^ w then .ok p else .error .overflow

/-- `u32::from_le_bytes` -/
def leWord (b0 b1 b2 b3 : Byte) : Word := b3 ++ b2 ++ b1 ++ b0

/-- `u32::to_le_bytes` -/
def leBytes (w : Word) : Bytes :=
  [w.extractLsb' 0 8, w.extractLsb' 8 8, w.extractLsb' 16 8, w.extractLsb' 24 8]

end Baokeshed
