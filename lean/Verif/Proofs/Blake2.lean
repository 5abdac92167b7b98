import Verif.SpecBlake2
import Verif.Model.PythonTest
import Verif.Proofs.Python
import Verif.Proofs.C64.Portable

/-! # The round functions and those of BLAKE2 -/

set_option linter.unusedVariables false

namespace Baokeshed.Proofs
open Baokeshed.Model

theorem b2s_G (v : Vector Word 16) (a b c d : Fin 16) (x y : Word) :
    Blake2.G Blake2.S v a b c d x y = Portable.g v a b c d x y := rfl

theorem b2s_round (v m : Vector Word 16) (p : Vector (Fin 16) 16) : Blake2.round Blake2.S p m v = roundP v m p := by
  simp only [Blake2.round, roundP, b2s_G]

theorem b2b_G (v : Vector U64 16) (a b c d : Fin 16) (x y : U64) :
    Blake2.G Blake2.B v a b c d x y = Portable64.g v a b c d x y := rfl

/-! ## The construction of the Python test -/

theorem b2_word (b : Bytes) (i : Nat) :
    Blake2.word 32 b i = leWord (b.getD (4 * i) 0) (b.getD (4 * i + 1) 0) (b.getD (4 * i + 2) 0) (b.getD (4 * i + 3) 0) := by
  have h := from_bytes_four (b.getD (4 * i) 0) (b.getD (4 * i + 1) 0) (b.getD (4 * i + 2) 0) (b.getD (4 * i + 3) 0)
  apply BitVec.eq_of_toNat_eq
  rw [← h, Blake2.word, BitVec.toNat_ofNat]
  refine Nat.mod_eq_of_lt ?_
  have e : ∀ x : Nat, x = Py.from_bytes [b.getD (4 * i) 0, b.getD (4 * i + 1) 0, b.getD (4 * i + 2) 0, b.getD (4 * i + 3) 0] →
      x < 2 ^ 32 := by rintro x rfl; rw [h]; exact BitVec.isLt _
  exact e _ rfl

/-- a block padded with zeros -/
def padded (msg : Bytes) : Vector Byte 64 := Vector.ofFn fun i : Fin 64 => msg.getD i 0

theorem padded_toList (msg : Bytes) (h : msg.length ≤ 64) :
    (padded msg).toList = Py.setSlice (List.replicate 64 0) 0 msg.length msg := by
  apply List.ext_getElem
  · simp [Py.setSlice]; omega
  · intro i h1 h2
    have hi : i < 64 := by simpa using h1
    simp only [padded, Vector.getElem_toList, Vector.getElem_ofFn, Py.setSlice, List.take_zero, List.nil_append]
    by_cases hm : i < msg.length
    · rw [List.getElem_append_left hm, List.getD_eq_getElem?_getD, List.getElem?_eq_getElem hm]; rfl
    · rw [List.getElem_append_right (by omega), List.getD_eq_getElem?_getD, List.getElem?_eq_none (by omega), List.getElem_drop, List.getElem_replicate]
      rfl

theorem b2_words (msg : Bytes) : Blake2.words 32 msg = blockWords (padded msg) := by
  apply Vector.ext
  intro i hi
  rw [Blake2.words, Vector.getElem_ofFn, b2_word, blockWords, Vector.getElem_ofFn]
  simp only [Spec.blockWord, padded, Vector.getElem_ofFn, leWord]

theorem b2_unwords (h : Vector Word 8) : Blake2.unwords h = Spec.wordBytes h.toList := rfl

theorem test_schedules : (Py.MSG_SCHEDULE.toList ++ Py.extra_schedules.toList).take 10 =
    (List.range 10).map fun i => (Blake2.SIGMA (Fin.ofNat 10 i)).map Fin.val := by decide +kernel

theorem test_rounds_eq (m : Vector Word 16) (ps : List (Vector (Fin 16) 16)) : ∀ v : Vector Word 16,
    Py.test_rounds (m.toList.map BitVec.toNat) (ps.map fun p => p.map Fin.val) (v.map BitVec.toNat) =
      .ok ((ps.foldl (fun v p => Blake2.round Blake2.S p m v) v).map BitVec.toNat) := by
  induction ps with
  | nil => intro v; rfl
  | cons p ps ih =>
    intro v
    rw [List.map_cons, Py.test_rounds, py_round, bind_ok, ih, List.foldl_cons, b2s_round]

/-- the initial chaining value of BLAKE2s -/
def b2h : Vector Word 8 := Blake2.S.IV.set 0 (Blake2.S.IV[0] ^^^ 0x01010000 ^^^ 32)

/-- the initial state of BLAKE2s for a message of one block -/
def b2v (len : Nat) : Vector Word 16 :=
  b2h ++ (#v[Blake2.S.IV[0], Blake2.S.IV[1], Blake2.S.IV[2], Blake2.S.IV[3], Blake2.S.IV[4] ^^^ BitVec.ofNat 32 len,
    Blake2.S.IV[5], ~~~ Blake2.S.IV[6], Blake2.S.IV[7]] : Vector Word 8)

theorem b2v_eq' : ∀ len : Fin 65,
    (let v := b2h ++ Blake2.S.IV
     let v := v.set 12 (v[12] ^^^ BitVec.ofNat 32 len)
     let v := v.set 13 (v[13] ^^^ BitVec.ofNat 32 (len / 2 ^ 32))
     v.set 14 (~~~ v[14])) = b2v len := by decide +kernel

theorem b2v_eq (len : Nat) (h : len ≤ 64) :
    (let v := b2h ++ Blake2.S.IV
     let v := v.set 12 (v[12] ^^^ BitVec.ofNat 32 len)
     let v := v.set 13 (v[13] ^^^ BitVec.ofNat 32 (len / 2 ^ 32))
     v.set 14 (~~~ v[14])) = b2v len := b2v_eq' ⟨len, by omega⟩

theorem b2v_toNat' : ∀ len : Fin 65, (b2v len).map BitVec.toNat =
    (#v[0x6A09E667 ^^^ 32 ^^^ (1 <<< 16) ^^^ (1 <<< 24), 0xBB67AE85, 0x3C6EF372, 0xA54FF53A, 0x510E527F, 0x9B05688C,
      0x1F83D9AB, 0x5BE0CD19] : Vector Nat 8) ++
    (#v[0x6A09E667, 0xBB67AE85, 0x3C6EF372, 0xA54FF53A, 0x510E527F ^^^ len.val, 0x9B05688C, 0x1F83D9AB ^^^ (2 ^ 32 - 1),
      0x5BE0CD19] : Vector Nat 8) := by decide +kernel

theorem b2v_toNat (len : Nat) (h : len ≤ 64) : (b2v len).map BitVec.toNat =
    (#v[0x6A09E667 ^^^ 32 ^^^ (1 <<< 16) ^^^ (1 <<< 24), 0xBB67AE85, 0x3C6EF372, 0xA54FF53A, 0x510E527F, 0x9B05688C,
      0x1F83D9AB, 0x5BE0CD19] : Vector Nat 8) ++
    (#v[0x6A09E667, 0xBB67AE85, 0x3C6EF372, 0xA54FF53A, 0x510E527F ^^^ len, 0x9B05688C, 0x1F83D9AB ^^^ (2 ^ 32 - 1),
      0x5BE0CD19] : Vector Nat 8) := b2v_toNat' ⟨len, by omega⟩

theorem b2_hash (msg : Bytes) (h : msg.length ≤ 64) : Blake2.blake2s msg = Blake2.unwords (
    let v := (List.range 10).foldl (fun v i => Blake2.round Blake2.S (Blake2.SIGMA (Fin.ofNat 10 i)) (Blake2.words 32 msg) v)
      (b2v msg.length)
    Vector.ofFn fun i : Fin 8 => b2h[i] ^^^ v[i.val] ^^^ v[i.val + 8]) := by
  rw [Blake2.blake2s, Blake2.blocks, dif_pos h, Nat.zero_add, Blake2.F]
  have := b2v_eq msg.length h
  dsimp only at this ⊢
  rw [if_pos rfl]
  exact congrArg (fun v0 => Blake2.unwords (
    let v := (List.range 10).foldl (fun v i => Blake2.round Blake2.S (Blake2.SIGMA (Fin.ofNat 10 i)) (Blake2.words 32 msg) v)
      v0
    Vector.ofFn fun i : Fin 8 => b2h[i] ^^^ v[i.val] ^^^ v[i.val + 8])) this

theorem b2h_toNat : ∀ i : Fin 8,
    (#v[0x6A09E667 ^^^ 32 ^^^ (1 <<< 16) ^^^ (1 <<< 24), 0xBB67AE85, 0x3C6EF372, 0xA54FF53A, 0x510E527F, 0x9B05688C,
      0x1F83D9AB, 0x5BE0CD19] : Vector Nat 8)[i] = b2h[i].toNat := by decide +kernel

theorem test_blake2s_eq (msg : Bytes) (h : msg.length ≤ 64) : Py.test_blake2s msg = .ok (Blake2.blake2s msg) := by
  have ei : ∀ i (hi : i < 8), Py.idx Py.IV i = .ok (Py.IV[i]'hi) := fun i hi => py_idx Py.IV i hi
  rw [Py.test_blake2s]
  simp only [ei 0 (by decide), ei 1 (by decide), ei 2 (by decide), ei 3 (by decide), ei 4 (by decide), ei 5 (by decide),
    ei 6 (by decide), ei 7 (by decide), bind_ok]
  have e := b2v_toNat msg.length h
  have hr := test_rounds_eq (blockWords (padded msg)) ((List.range 10).map fun i => Blake2.SIGMA (Fin.ofNat 10 i))
    (b2v msg.length)
  rw [List.map_map, e, ← py_words_block, padded_toList msg h] at hr
  have hr' := congrArg (fun r : R (Vector Nat 16) => r >>= fun state : Vector Nat 16 =>
    Py.bytes_from_words ((List.finRange 8).map fun i : Fin 8 => state[i.val] ^^^ state[i.val + 8] ^^^
      (#v[0x6A09E667 ^^^ 32 ^^^ (1 <<< 16) ^^^ (1 <<< 24), 0xBB67AE85, 0x3C6EF372, 0xA54FF53A, 0x510E527F, 0x9B05688C,
      0x1F83D9AB, 0x5BE0CD19] : Vector Nat 8)[i])) hr
  rw [test_schedules]
  refine Eq.trans hr' ?_
  rw [bind_ok, List.foldl_map, b2_hash msg h, b2_words]
  generalize (List.range 10).foldl _ _ = v
  dsimp only
  rw [b2_unwords, ← py_bytes_from_words]
  refine congrArg _ ?_
  rw [Vector.toList_ofFn]
  apply List.ext_getElem
  · simp
  · intro i h1 h2
    have hi : i < 8 := by simpa using h1
    simp only [List.getElem_map, List.getElem_finRange, List.getElem_ofFn, BitVec.toNat_xor, Vector.getElem_map, b2h_toNat]
    rw [Nat.xor_comm, ← Nat.xor_assoc]
    rfl

end Baokeshed.Proofs
