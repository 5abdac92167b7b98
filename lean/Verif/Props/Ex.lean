import Verif.Model.Platform

/-! # Machines and inputs used by the non-vacuity examples -/

namespace Baokeshed.Props
open Baokeshed.Model

deriving instance DecidableEq for Except

/-- AVX2, 64 bits -/
def exAvx2 : Config := ⟨true, true, true, 64⟩
/-- SSE4.1, 32 bits -/
def exSse41 : Config := ⟨true, false, true, 32⟩
/-- no SIMD, 16 bits -/
def exSmall : Config := ⟨false, false, false, 16⟩

/-- `n` copies of byte `b` -/
def rep (n : Nat) (b : Byte) : Bytes := List.replicate n b

@[simp] theorem length_rep (n : Nat) (b : Byte) : (rep n b).length = n := List.length_replicate

theorem rep_ne_nil (n : Nat) (b : Byte) (h : 0 < n) : rep n b ≠ [] := by
  intro e; have := congrArg List.length e; rw [length_rep] at this; simp at this; omega

@[simp] theorem exAvx2_valid : exAvx2.Valid := by simp [Config.Valid, exAvx2]
@[simp] theorem exSse41_valid : exSse41.Valid := by simp [Config.Valid, exSse41]
@[simp] theorem exSmall_valid : exSmall.Valid := by simp [Config.Valid, exSmall]
@[simp] theorem exAvx2_fits (n : Nat) : exAvx2.Fits n ↔ n < 2 ^ 63 := Iff.rfl
@[simp] theorem exSse41_fits (n : Nat) : exSse41.Fits n ↔ n < 2 ^ 31 := Iff.rfl
@[simp] theorem exSmall_fits (n : Nat) : exSmall.Fits n ↔ n < 2 ^ 15 := Iff.rfl

end Baokeshed.Props
