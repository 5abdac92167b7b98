import Verif.Model.Bench
import Verif.Props.C
import Verif.Props.C64
import Verif.Props.CExports
import Verif.Props.CHasher
import Verif.Props.Hasher
import Verif.Props.OneShot
import Verif.Props.Reference
import Verif.Props.Ex

/-!
# C69: the benchmarks measure what they say they measure

For every page size, all random bytes, every order of the offsets and every number of calls: no benchmark panics or makes
an invalid access, the number of bytes it declares is the number of bytes each call hashes, each call works on the slice
it should, and the benchmarks that are meant to be compared with each other compute the same values.
-/

set_option linter.unusedVariables false

namespace Baokeshed.Props
open Baokeshed.Model Baokeshed.Model.Bench Baokeshed.Proofs

attribute [local irreducible] Spec.compress Spec.outBytes Spec.cvBytes Spec.pad Spec64.compress Spec64.outBytes Spec64.cvBytes Spec64.pad

/-- What may be assumed of the surroundings of a benchmark with inputs of `len` bytes: the generator fills the buffer, the
shuffle permutes, pages are not empty and the memory can be allocated. -/
structure EnvOk (env : Env) (len : Nat) : Prop where
  valid : env.cfg.Valid
  page : 0 < env.page_size
  fill : ∀ n, (env.fill n).length = n
  shuffle : ∀ l, (env.shuffle l).Perm l
  fits : env.cfg.Fits (len + env.page_size)
  fits' : env.cfg.Fits (env.cfg.usizeBits / 8 * env.page_size)

/-- Where the slice of the `j`-th call begins. -/
def startOf (env : Env) (j : Nat) : Nat := (env.shuffle (List.range env.page_size)).getD (j % env.page_size) 0

/-- The slice of the `j`-th call. -/
def sliceOf (env : Env) (len j : Nat) : Bytes := ((env.fill (len + env.page_size)).drop (startOf env j)).take len

/-- the state of a `RandomInput` after `j` calls of `get` -/
def inputAt (env : Env) (len j : Nat) : RandomInput where
  buf := env.fill (len + env.page_size)
  len := len
  offsets := env.shuffle (List.range env.page_size)
  offset_index := j % env.page_size

section
variable {env : Env} {len : Nat} (hv : EnvOk env len)
include hv

theorem offsets_length : (env.shuffle (List.range env.page_size)).length = env.page_size := by
  rw [(hv.shuffle _).length_eq, List.length_range]

theorem startOf_some (j : Nat) : (env.shuffle (List.range env.page_size))[j % env.page_size]? = some (startOf env j) :=
  getD_some _ 0 _ (by rw [offsets_length hv]; exact Nat.mod_lt _ hv.page)

theorem startOf_lt (j : Nat) : startOf env j < env.page_size := by
  have h := List.mem_of_getElem? (startOf_some hv j)
  exact List.mem_range.1 ((hv.shuffle _).mem_iff.1 h)

theorem sliceOf_length (j : Nat) : (sliceOf env len j).length = len := by
  have := startOf_lt hv j
  rw [sliceOf, List.length_take, List.length_drop, hv.fill]
  omega

theorem bits_le : len + env.page_size < 2 ^ 63 := by
  have h1 : 2 ^ (env.cfg.usizeBits - 1) ≤ 2 ^ 63 := Nat.pow_le_pow_right (by decide) (by have := hv.valid.2; omega)
  exact Nat.lt_of_lt_of_le hv.fits h1

omit hv in
theorem bits_half : 2 ^ (env.cfg.usizeBits - 1) ≤ 2 ^ env.cfg.usizeBits := Nat.pow_le_pow_right (by decide) (by omega)

theorem new_input : RandomInput.new env 0 len = .ok (BitVec.ofNat 64 len, inputAt env len 0) := by
  have h1 := bits_le hv
  have h2 := bits_half (env := env)
  have h3 : len + env.page_size < 2 ^ (env.cfg.usizeBits - 1) := hv.fits
  have h4 : env.cfg.usizeBits / 8 * env.page_size < 2 ^ (env.cfg.usizeBits - 1) := hv.fits'
  have e : addU64 0 (BitVec.ofNat 64 len) = .ok (BitVec.ofNat 64 len) := by
    have := addU64_ofNat 0 len (by omega)
    rwa [Nat.zero_add] at this
  rw [RandomInput.new, e, bind_ok]
  dsimp only
  rw [addN, if_pos (by omega), bind_ok, allocate, if_pos (by omega), bind_ok, allocate, if_pos h4, bind_ok, pure_eq,
    inputAt, Nat.zero_mod]

theorem get_input (j : Nat) : (inputAt env len j).get env = .ok (sliceOf env len j, inputAt env len (j + 1)) := by
  have h1 := bits_le hv
  have h2 := bits_half (env := env)
  have h3 : len + env.page_size < 2 ^ (env.cfg.usizeBits - 1) := hv.fits
  have h5 := startOf_lt hv j
  have h6 : j % env.page_size < env.page_size := Nat.mod_lt _ hv.page
  have hl := offsets_length hv
  rw [RandomInput.get]
  dsimp only [inputAt]
  rw [startOf_some hv j]
  dsimp only
  rw [addN, if_pos (by omega), bind_ok, sliceFrom, if_pos (by rw [hv.fill]; omega), bind_ok, sliceTo,
    if_pos (by rw [List.length_drop, hv.fill]; omega), bind_ok, pure_eq]
  have e : (if (env.shuffle (List.range env.page_size)).length ≤ j % env.page_size + 1 then 0 else j % env.page_size + 1) =
      (j + 1) % env.page_size := by
    rw [Nat.add_mod]
    split
    next h =>
      have : j % env.page_size + 1 = env.page_size := by omega
      by_cases h1 : env.page_size = 1
      · rw [h1]; omega
      · rw [Nat.mod_eq_of_lt (show 1 < env.page_size by omega), this, Nat.mod_self]
    next h =>
      have h7 : 1 < env.page_size := by omega
      rw [Nat.mod_eq_of_lt h7, Nat.mod_eq_of_lt (show j % env.page_size + 1 < env.page_size by omega)]
  exact congrArg (fun i => Except.ok (sliceOf env len j, { inputAt env len j with offset_index := i })) e

end

/-- `k` calls of `get` -/
def gets (env : Env) : Nat → RandomInput → R (List Bytes)
  | 0, _ => .ok []
  | k + 1, r => do
    let (x, r) ← r.get env
    let xs ← gets env k r
    return x :: xs

theorem gets_at {env : Env} {len : Nat} (hv : EnvOk env len) (k : Nat) : ∀ j,
    gets env k (inputAt env len j) = .ok ((List.range k).map fun i => sliceOf env len (j + i)) := by
  induction k with
  | zero => intro j; rfl
  | succ k ih =>
    intro j
    rw [gets, get_input hv, bind_ok]
    dsimp only
    rw [ih (j + 1), bind_ok, pure_eq, List.range_succ_eq_map, List.map_cons, List.map_map]
    refine congrArg Except.ok ?_
    refine congrArg (List.cons _) (List.map_congr_left fun i _ => ?_)
    show sliceOf env len (j + 1 + i) = sliceOf env len (j + (i + 1))
    rw [show j + 1 + i = j + (i + 1) by omega]

/-- C69.  `RandomInput`: any number of calls of `get` succeed; each returns `len` bytes of the buffer, the `j`-th of them
beginning within the first page, at the offset that the shuffle put in place `j` modulo the page size. -/
theorem C69_get (env : Env) (len : Nat) (hv : EnvOk env len) (k : Nat) :
    ∃ r, RandomInput.new env 0 len = .ok (BitVec.ofNat 64 len, r) ∧
      gets env k r = .ok ((List.range k).map (sliceOf env len)) ∧
      ∀ j, (sliceOf env len j).length = len ∧ startOf env j < env.page_size ∧ startOf env (j + env.page_size) = startOf env j := by
  refine ⟨_, new_input hv, ?_, fun j => ⟨sliceOf_length hv j, startOf_lt hv j, ?_⟩⟩
  · rw [gets_at hv k 0]
    simp only [Nat.zero_add]
  · rw [startOf, startOf, Nat.add_mod_right]

/-- C69.  As many consecutive calls as a page has bytes use every offset within the page exactly once, whatever the order. -/
theorem C69_offsets (env : Env) (len : Nat) (hv : EnvOk env len) (j : Nat) :
    ((List.range env.page_size).map fun i => startOf env (j + i)).Perm (List.range env.page_size) := by
  have hl := offsets_length hv
  have hp := hv.page
  have h0 : ((List.range env.page_size).map fun i => startOf env i) = env.shuffle (List.range env.page_size) := by
    refine List.ext_getElem (by simp [hl]) fun i h1 h2 => ?_
    rw [List.getElem_map, List.getElem_range, startOf, Nat.mod_eq_of_lt (by omega), List.getD_eq_getElem?_getD,
      List.getElem?_eq_getElem h2]
    rfl
  have key : ∀ j, ((List.range env.page_size).map fun i => startOf env (j + i)).Perm
      ((List.range env.page_size).map fun i => startOf env i) := by
    intro j
    induction j with
    | zero => simp only [Nat.zero_add]; exact .refl _
    | succ j ih =>
      refine List.Perm.trans ?_ ih
      obtain ⟨p, hp'⟩ : ∃ p, env.page_size = p + 1 := ⟨env.page_size - 1, by omega⟩
      rw [hp']
      conv => lhs; rw [List.range_succ, List.map_append, List.map_singleton]
      conv => rhs; rw [List.range_succ_eq_map, List.map_cons, List.map_map]
      have e1 : startOf env (j + 1 + p) = startOf env (j + 0) := by
        rw [startOf, startOf, show j + 1 + p = j + env.page_size by omega, Nat.add_mod_right, Nat.add_zero]
      rw [e1]
      have e2 : (List.range p).map (fun i => startOf env (j + 1 + i)) = (List.range p).map ((fun i => startOf env (j + i)) ∘ Nat.succ) :=
        List.map_congr_left fun i _ => by
          show startOf env (j + 1 + i) = startOf env (j + (i + 1))
          rw [show j + 1 + i = j + (i + 1) by omega]
      rw [e2]
      exact List.perm_append_comm.trans (by exact .refl _)
  exact (key j).trans (h0 ▸ hv.shuffle _)

/-! ## The closure -/

theorem iter_inv {σ α : Type} (f : Nat → σ → R (α × σ)) (A : Nat → α) (I : Nat → σ → Prop)
    (b : Nat) (hf : ∀ j s, j < b → I j s → ∃ s', f j s = .ok (A j, s') ∧ I (j + 1) s') (k : Nat) : ∀ j s, j + k ≤ b → I j s →
    ∃ s', iter f k j s = .ok ((List.range k).map fun i => A (j + i), s') ∧ I (j + k) s' := by
  induction k with
  | zero => intro j s _ h; exact ⟨s, rfl, h⟩
  | succ k ih =>
    intro j s hb h
    obtain ⟨s1, e1, h1⟩ := hf j s (by omega) h
    obtain ⟨s2, e2, h2⟩ := ih (j + 1) s1 (by omega) h1
    refine ⟨s2, ?_, by rwa [show j + (k + 1) = j + 1 + k by omega]⟩
    rw [iter, e1, bind_ok]
    dsimp only
    rw [e2, bind_ok, pure_eq, List.range_succ_eq_map, List.map_cons, List.map_map]
    refine congrArg (fun l => Except.ok (A j :: l, s2)) (List.map_congr_left fun i _ => ?_)
    show A (j + 1 + i) = A (j + (i + 1))
    rw [show j + 1 + i = j + (i + 1) by omega]

theorem iter_fail {σ α : Type} (f : Nat → σ → R (α × σ)) (k : Nat) : ∀ (j : Nat) (s : σ) (as : List α) (s' : σ) (p : Panic),
    iter f k j s = .ok (as, s') → f (j + k) s' = .error p → iter f (k + 1) j s = .error p := by
  induction k with
  | zero =>
    intro j s as s' p h1 h2
    cases h1
    rw [iter, show f j s = .error p from h2]
    rfl
  | succ k ih =>
    intro j s as s' p h1 h2
    rw [iter] at h1 ⊢
    cases e : f j s with
    | error q => rw [e] at h1; cases h1
    | ok r =>
      obtain ⟨a, s1⟩ := r
      rw [e, bind_ok] at h1
      dsimp only at h1
      rw [bind_ok]
      dsimp only
      cases e2 : iter f k (j + 1) s1 with
      | error q => rw [e2] at h1; cases h1
      | ok r2 =>
        obtain ⟨as2, s2⟩ := r2
        rw [e2, bind_ok] at h1
        dsimp only at h1
        cases h1
        rw [ih (j + 1) s1 as2 _ p e2 (by rwa [show j + 1 + k = j + (k + 1) by omega])]
        rfl

/-! ## One block -/

/-- `k` compressions of one block, each with the chaining value of the one before -/
def chain32 (block : Bytes) : Nat → Vector Word 8
  | 0 => Vector.replicate 8 1
  | k + 1 => Spec.compress ⟨chain32 block k, Spec.pad block, 64, 0, 0⟩

/-- the same for the 64-bit variant -/
def chain64 (block : Bytes) : Nat → Vector U64 4
  | 0 => Vector.replicate 4 1
  | k + 1 => Spec64.compress ⟨chain64 block k, Spec64.pad block, 128, 0, 0⟩

theorem compress32_ok {env : Env} (hv : EnvOk env 64)
    (f : Vector Word 8 → Vector Byte 64 → Byte → U64 → Byte → R (Vector Word 8))
    (hf : ∀ s b l o fl, f s b l o fl = .ok (Spec.compress ⟨s, b, l, o, fl⟩)) (k : Nat) :
    compress32 env f k = .ok ⟨64, chain32 (sliceOf env 64 0) k⟩ := by
  have hl := sliceOf_length hv 0
  obtain ⟨s, e, hs⟩ := iter_inv (fun _ state => do
    let state ← f state (Spec.pad (sliceOf env 64 0)) (BitVec.ofNat 8 BLOCK_LEN_32) 0 0
    return ((), state)) (fun _ => ()) (fun j s => s = chain32 (sliceOf env 64 0) j) k
    (fun j s _ h => ⟨chain32 (sliceOf env 64 0) (j + 1), by rw [h, hf]; rfl, rfl⟩) k 0 _ (by omega) rfl
  rw [compress32]
  dsimp only
  rw [new_input hv, bind_ok]
  dsimp only
  rw [get_input hv, bind_ok]
  dsimp only
  have ea : arrayRef (sliceOf env 64 0) 0 BLOCK_LEN_32 = .ok (Spec.pad (sliceOf env 64 0)) := arrayRef_block _ 0 (by omega)
  rw [ea, bind_ok, show (Vector.replicate 8 1 : Vector Word 8) = chain32 (sliceOf env 64 0) 0 from rfl, e, bind_ok, pure_eq, hs, Nat.zero_add]
  rfl

theorem compress64_ok {env : Env} (hv : EnvOk env 128) (n : Nat) (val : Vector U64 4 → Vector U64 n)
    (f : Vector U64 n → Vector Byte 128 → Byte → U64 → Byte → R (Vector U64 n)) (h0 : Vector.replicate n 1 = val (Vector.replicate 4 1))
    (hf : ∀ s b l o fl, f (val s) b l o fl = .ok (val (Spec64.compress ⟨s, b, l, o, fl⟩))) (k : Nat) :
    compress64 env n f k = .ok ⟨128, val (chain64 (sliceOf env 128 0) k)⟩ := by
  have hl := sliceOf_length hv 0
  obtain ⟨s, e, hs⟩ := iter_inv (fun _ state => do
    let state ← f state (Spec64.pad (sliceOf env 128 0)) (BitVec.ofNat 8 BLOCK_LEN_64) 0 0
    return ((), state)) (fun _ => ()) (fun j s => s = val (chain64 (sliceOf env 128 0) j)) k
    (fun j s _ h => ⟨val (chain64 (sliceOf env 128 0) (j + 1)), by rw [h, hf]; rfl, rfl⟩) k 0 _ (by omega) rfl
  rw [compress64]
  dsimp only
  rw [new_input hv, bind_ok]
  dsimp only
  rw [get_input hv, bind_ok]
  dsimp only
  have ea : arrayRef (sliceOf env 128 0) 0 BLOCK_LEN_64 = .ok (Spec64.pad (sliceOf env 128 0)) :=
    W64.arrayRef_block _ 0 (by omega)
  rw [ea, bind_ok, h0, show (Vector.replicate 4 1 : Vector U64 4) = chain64 (sliceOf env 128 0) 0 from rfl, e, bind_ok, pure_eq, hs, Nat.zero_add]
  rfl

/-- four words and four ones -/
def widen (s : Vector U64 4) : Vector U64 8 := #v[s[0], s[1], s[2], s[3], 1, 1, 1, 1]

theorem compress_c64_ok {env : Env} (hv : EnvOk env 128) (k : Nat) :
    bench_compress_portable_c64 env k = .ok ⟨128, widen (chain64 (sliceOf env 128 0) k)⟩ := by
  refine compress64_ok hv 8 widen _ (by decide) (fun s b l o fl => ?_) k
  have e : #v[(widen s)[0], (widen s)[1], (widen s)[2], (widen s)[3]] = s := by
    refine Vector.ext fun i hi => ?_
    match i, hi with
    | 0, _ => rfl
    | 1, _ => rfl
    | 2, _ => rfl
    | 3, _ => rfl
  have hw := (C41_c_compress s b [] l o fl).1
  rw [List.append_nil] at hw
  rw [e, hw, bind_ok]
  rfl

/-- C69.  The benchmarks of the compression functions: each declares the 64 (or 128) bytes of one block, and after `k` calls
its state is the specified chain of `k` compressions of the first random block.  So those of one word size compute the
same; the portable C function, given an array of eight words, leaves the last four alone. -/
theorem C69_compress (env : Env) (k : Nat) :
    (EnvOk env 64 →
      let r : Report (Vector Word 8) := ⟨64, chain32 (sliceOf env 64 0) k⟩
      bench_compress_portable_rust env k = .ok r ∧
      bench_compress_portable_c env k = .ok r ∧
      bench_compress_sse41_rust env k = .ok (if env.cfg.hasSse41 then some r else none) ∧
      bench_compress_sse41_c env k = .ok r ∧
      bench_compress_avx512_c env k = .ok r) ∧
    (EnvOk env 128 →
      let s := chain64 (sliceOf env 128 0) k
      bench_compress_portable_rust64 env k = .ok ⟨128, s⟩ ∧
      bench_compress_portable_c64 env k = .ok ⟨128, widen s⟩ ∧
      bench_compress_avx2_c64 env k = .ok ⟨128, s⟩ ∧
      bench_compress_avx512_c64 env k = .ok ⟨128, s⟩) := by
  have hc := fun s b l o fl => C31_c_compress s b [] l o fl
  have hw := fun s b l o fl => C41_c_compress s b [] l o fl
  simp only [List.append_nil] at hc hw
  refine ⟨fun hv => ⟨?_, ?_, ?_, ?_, ?_⟩, fun hv => ⟨?_, ?_, ?_, ?_⟩⟩
  · exact compress32_ok hv _ (fun s b l o fl => by rw [compress_eq]) k
  · exact compress32_ok hv _ (fun s b l o fl => (hc s b l o fl).1) k
  · rw [bench_compress_sse41_rust]
    cases env.cfg.hasSse41
    · rfl
    · simp only [Bool.not_true, Bool.false_eq_true, if_false, if_true]
      rw [compress32_ok hv _ (fun s b l o fl => by rw [(C07_sse41_compress ..).1, compress_eq]) k]
      rfl
  · exact compress32_ok hv _ (fun s b l o fl => (hc s b l o fl).2.1) k
  · exact compress32_ok hv _ (fun s b l o fl => (hc s b l o fl).2.2) k
  · exact compress64_ok hv 4 id _ rfl (fun s b l o fl => congrArg Except.ok (C40_compress s b l o fl).1) k
  · exact compress_c64_ok hv k
  · exact compress64_ok hv 4 id _ rfl (fun s b l o fl => (hw s b l o fl).2.1) k
  · exact compress64_ok hv 4 id _ rfl (fun s b l o fl => (hw s b l o fl).2.2) k

/-! ## Several chunks -/

/-- the first `n` pieces of `len` bytes -/
def piecesOf (len n : Nat) (w : Bytes) : List Bytes := (List.range n).map fun i => (w.drop (len * i)).take len

theorem pieces_chunks (len : Nat) (hl : 0 < len) (n : Nat) : ∀ w : Bytes, w.length = len * n → chunksExact len w = piecesOf len n w := by
  induction n with
  | zero => intro w hw; rw [chunksExact_short _ _ (by rw [hw]; omega)]; rfl
  | succ n ih =>
    intro w hw
    rw [Nat.mul_succ] at hw
    rw [chunksExact_step _ _ ⟨hl, by omega⟩, ih _ (by rw [List.length_drop]; omega), piecesOf, piecesOf, List.range_succ_eq_map,
      List.map_cons, List.map_map, Nat.mul_zero, List.drop_zero]
    refine congrArg (List.cons _) (List.map_congr_left fun i _ => ?_)
    show ((w.drop len).drop (len * i)).take len = (w.drop (len * (i + 1))).take len
    rw [List.drop_drop, Nat.mul_succ, Nat.add_comm]

theorem set_pointers_all : ∀ (xs ys : List Bytes), xs.length = ys.length → set_pointers xs ys = ys
  | [], [], _ => rfl
  | _ :: xs, y :: ys, h => by rw [set_pointers, set_pointers_all xs ys (Nat.succ.inj h)]
  | [], _ :: _, h => by cases h
  | _ :: _, [], h => by cases h

theorem pieces_length (len n : Nat) (w : Bytes) : (piecesOf len n w).length = n := by
  rw [piecesOf, List.length_map, List.length_range]

theorem pieces_each (len n : Nat) (w : Bytes) (hw : w.length = len * n) : ∀ x ∈ piecesOf len n w, x.length = len := by
  intro x hx
  obtain ⟨i, hi, rfl⟩ := List.mem_map.1 hx
  have hi := List.mem_range.1 hi
  have : len * (i + 1) ≤ len * n := Nat.mul_le_mul_left _ hi
  rw [Nat.mul_succ] at this
  rw [List.length_take, List.length_drop]
  omega

theorem chunks_ok {env : Env} (n len : Nat) (hl : 0 < len) (hv : EnvOk env (len * n)) (kernel : List Bytes → Bytes → R Bytes)
    (F : List Bytes → Bytes)
    (hk : ∀ inputs out, inputs.length = n → (∀ x ∈ inputs, x.length = len) → out.length = 32 * n →
      kernel inputs out = .ok (F inputs) ∧ (F inputs).length = 32 * n) (k : Nat) :
    chunks env n len kernel k =
      .ok ⟨BitVec.ofNat 64 (len * n), (List.range k).map fun j => F (piecesOf len n (sliceOf env (len * n) j))⟩ := by
  obtain ⟨s, e, -⟩ := iter_inv (fun _ (s : RandomInput × Bytes) => do
    let inputs : List Bytes := List.replicate n []
    let (slice, input) ← RandomInput.get env s.1
    let inputs := set_pointers inputs (chunksExact len slice)
    let out ← kernel inputs s.2
    return (out, (input, out))) (fun j => F (piecesOf len n (sliceOf env (len * n) j)))
    (fun j s => s.1 = inputAt env (len * n) j ∧ s.2.length = 32 * n) k (fun j s _ h => by
      have hs := sliceOf_length hv j
      have hh := hk (piecesOf len n (sliceOf env (len * n) j)) s.2 (pieces_length ..) (pieces_each _ _ _ hs) h.2
      refine ⟨(inputAt env (len * n) (j + 1), F (piecesOf len n (sliceOf env (len * n) j))), ?_, rfl, hh.2⟩
      dsimp only
      rw [h.1, get_input hv, bind_ok]
      dsimp only
      rw [pieces_chunks len hl n _ hs, set_pointers_all _ _ (by rw [pieces_length, List.length_replicate]), hh.1, bind_ok, pure_eq])
    k 0 (inputAt env (len * n) 0, List.replicate (OUT_LEN * n) 0) (by omega) ⟨rfl, by rw [List.length_replicate]⟩
  rw [chunks]
  dsimp only
  rw [new_input hv, bind_ok]
  dsimp only
  refine Eq.trans (congrArg (· >>= _) e) ?_
  rw [bind_ok, pure_eq]
  simp only [Nat.zero_add]

/-- what the kernels should write: for each piece the chain of its 32 blocks under the key of ones, without offset or flags -/
def many32 (n : Nat) (inputs : List Bytes) : Bytes := Spec.eachOut (Vector.replicate 8 1) (fun _ => 0) 0 0 0 32 n inputs

/-- the same for the 64-bit variant: chunks of 32 blocks of 128 bytes -/
def many64 (n : Nat) (inputs : List Bytes) : Bytes := Spec64.eachOut (Vector.replicate 4 1) (fun _ => 0) 0 0 0 32 n inputs

theorem many32_length (n : Nat) (inputs : List Bytes) : (many32 n inputs).length = 32 * n := by
  rw [many32, Spec.eachOut]
  induction n with
  | zero => rfl
  | succ n ih => rw [List.range_succ, List.flatMap_append, List.length_append, ih]; simp; omega

theorem many64_length (n : Nat) (inputs : List Bytes) : (many64 n inputs).length = 32 * n := by
  rw [many64, Spec64.eachOut]
  induction n with
  | zero => rfl
  | succ n ih => rw [List.range_succ, List.flatMap_append, List.length_append, ih]; simp [W64.length_cvBytes]; omega

theorem deltas_zero (i : Nat) (o : U64) : o + OFFSET_DELTAS.getD i 0 = o := by
  have : OFFSET_DELTAS.getD i 0 = 0 := by
    rw [OFFSET_DELTAS, List.getD_eq_getElem?_getD, List.getElem?_replicate]
    split <;> rfl
  rw [this]; exact BitVec.add_zero o

theorem getD_mem_length {inputs : List Bytes} {n len : Nat} (hn : inputs.length = n) (hx : ∀ x ∈ inputs, x.length = len) (i : Nat)
    (hi : i < n) : (inputs.getD i []).length = len := by
  have h : i < inputs.length := by omega
  rw [List.getD_eq_getElem?_getD, List.getElem?_eq_getElem h]
  exact hx _ (List.getElem_mem h)

theorem kernel32_ok {n : Nat} (hn : n ≤ 17) {K} (hK : Kernel n K) (inputs : List Bytes) (out : Bytes) (h1 : inputs.length = n)
    (h2 : ∀ x ∈ inputs, x.length = 2048) (h3 : out.length = 32 * n) :
    kernel32 K inputs out = .ok (many32 n inputs) ∧ (many32 n inputs).length = 32 * n := by
  refine ⟨?_, many32_length ..⟩
  have h := hK inputs 32 (Vector.replicate 8 1) 0 OFFSET_DELTAS 0 0 0 out (by omega)
    (fun i hi => Nat.le_of_eq (getD_mem_length h1 h2 i hi).symm) (by rw [OFFSET_DELTAS, List.length_replicate]; omega) (by omega)
  simp only [deltas_zero] at h
  rw [List.drop_of_length_le (by omega), List.append_nil] at h
  exact h

theorem kernel64_ok {n : Nat} (hn : n ≤ 17) {K} (hK : Kernel64 n K) (inputs : List Bytes) (out : Bytes) (h1 : inputs.length = n)
    (h2 : ∀ x ∈ inputs, x.length = 4096) (h3 : out.length = 32 * n) :
    kernel64 K inputs out = .ok (many64 n inputs) ∧ (many64 n inputs).length = 32 * n := by
  refine ⟨?_, many64_length ..⟩
  have h := hK inputs 32 (Vector.replicate 4 1) 0 OFFSET_DELTAS 0 0 0 out (by omega)
    (fun i hi => Nat.le_of_eq (getD_mem_length h1 h2 i hi).symm) (by rw [OFFSET_DELTAS, List.length_replicate]; omega) (by omega)
  simp only [deltas_zero] at h
  rw [List.drop_of_length_le (by omega), List.append_nil] at h
  exact h

theorem lanes_many {n : Nat} (inputs : List Bytes) (h1 : inputs.length = n) (h2 : ∀ x ∈ inputs, x.length = 2048) :
    lanesOut (Vector.replicate 8 1) 0 0 0 0 0 0 inputs = many32 n inputs := by
  rw [lanesOut_spec _ 0 0 0 0 0 32 inputs h2, h1, many32, Spec.eachOut]
  simp

theorem rust4_ok (inputs : List Bytes) (out : Bytes) (h1 : inputs.length = 4) (h2 : ∀ x ∈ inputs, x.length = 2048)
    (h3 : out.length = 32 * 4) :
    (do
      let inputs ← arrayRef inputs 0 4
      Sse41.hash4 inputs (CHUNK_LEN_32 / BLOCK_LEN_32) (Vector.replicate 8 1) 0 0 0 0 0 out) = .ok (many32 4 inputs) ∧
      (many32 4 inputs).length = 32 * 4 := by
  refine ⟨?_, many32_length ..⟩
  obtain ⟨v, e, hv⟩ := arrayRef_take inputs 4 (by omega)
  rw [List.take_of_length_le (by omega)] at hv
  rw [e, bind_ok, ← lanes_many inputs h1 h2, ← hv]
  refine (hash4_eq v 32 _ 0 0 0 0 0 out (fun i hi => ?_) h3).trans (if_pos (by decide))
  exact h2 _ (by rw [← hv]; simp)

theorem rust8_ok (inputs : List Bytes) (out : Bytes) (h1 : inputs.length = 8) (h2 : ∀ x ∈ inputs, x.length = 2048)
    (h3 : out.length = 32 * 8) :
    (do
      let inputs ← arrayRef inputs 0 8
      Avx2.hash8 inputs (CHUNK_LEN_32 / BLOCK_LEN_32) (Vector.replicate 8 1) 0 0 0 0 0 out) = .ok (many32 8 inputs) ∧
      (many32 8 inputs).length = 32 * 8 := by
  refine ⟨?_, many32_length ..⟩
  obtain ⟨v, e, hv⟩ := arrayRef_take inputs 8 (by omega)
  rw [List.take_of_length_le (by omega)] at hv
  rw [e, bind_ok, ← lanes_many inputs h1 h2, ← hv]
  refine (hash8_eq v 32 _ 0 0 0 0 0 out (fun i hi => ?_) h3).trans (if_pos (by decide))
  exact h2 _ (by rw [← hv]; simp)

/-- what a benchmark of `n` chunks of 2048 bytes should report after `k` calls -/
def chunksReport (env : Env) (n k : Nat) : Report (List Bytes) :=
  ⟨BitVec.ofNat 64 (2048 * n), (List.range k).map fun j => many32 n (piecesOf 2048 n (sliceOf env (2048 * n) j))⟩

/-- the same for chunks of 4096 bytes -/
def chunksReport64 (env : Env) (n k : Nat) : Report (List Bytes) :=
  ⟨BitVec.ofNat 64 (4096 * n), (List.range k).map fun j => many64 n (piecesOf 4096 n (sliceOf env (4096 * n) j))⟩

/-- C69.  The benchmarks of the kernels of 32-bit words.  Each declares the bytes of its chunks, and every call writes the
specified chaining values of the chunks of its slice.  So the benchmarks of 4 (8) lanes all compute the same. -/
theorem C69_chunks (env : Env) (k : Nat) :
    (EnvOk env (2048 * 4) →
      bench_chunks_128bit_sse41_rust env k = .ok (if env.cfg.hasSse41 then some (chunksReport env 4 k) else none) ∧
      bench_chunks_128bit_sse41_c env k = .ok (chunksReport env 4 k) ∧
      bench_chunks_128bit_avx512_c env k = .ok (chunksReport env 4 k) ∧
      (env.c.order = .little → bench_chunks_128bit_neon_c env k = .ok (chunksReport env 4 k))) ∧
    (EnvOk env (2048 * 8) →
      bench_chunks_256bit_avx2_rust env k = .ok (if env.cfg.hasAvx2 then some (chunksReport env 8 k) else none) ∧
      bench_chunks_256bit_avx2_c env k = .ok (chunksReport env 8 k) ∧
      bench_chunks_256bit_avx512_c env k = .ok (chunksReport env 8 k)) ∧
    (EnvOk env (2048 * 16) → bench_chunks_512bit_avx512_c env k = .ok (chunksReport env 16 k)) := by
  refine ⟨fun hv => ⟨?_, ?_, ?_, fun ho => ?_⟩, fun hv => ⟨?_, ?_, ?_⟩, fun hv => ?_⟩
  · rw [bench_chunks_128bit_sse41_rust]
    cases env.cfg.hasSse41
    · rfl
    · simp only [Bool.not_true, Bool.false_eq_true, if_false, if_true]
      rw [chunks_ok 4 2048 (by decide) hv _ (many32 4) rust4_ok k]
      rfl
  · exact chunks_ok 4 2048 (by decide) hv _ (many32 4) (kernel32_ok (by decide) C54_hash4_sse41) k
  · exact chunks_ok 4 2048 (by decide) hv _ (many32 4) (kernel32_ok (by decide) C54_hash4_avx512) k
  · rw [bench_chunks_128bit_neon_c, ho]
    exact chunks_ok 4 2048 (by decide) hv _ (many32 4) (kernel32_ok (by decide) C54_hash4_neon) k
  · rw [bench_chunks_256bit_avx2_rust]
    cases env.cfg.hasAvx2
    · rfl
    · simp only [Bool.not_true, Bool.false_eq_true, if_false, if_true]
      rw [chunks_ok 8 2048 (by decide) hv _ (many32 8) rust8_ok k]
      rfl
  · exact chunks_ok 8 2048 (by decide) hv _ (many32 8) (kernel32_ok (by decide) C54_hash8_avx2) k
  · exact chunks_ok 8 2048 (by decide) hv _ (many32 8) (kernel32_ok (by decide) C54_hash8_avx512) k
  · exact chunks_ok 16 2048 (by decide) hv _ (many32 16) (kernel32_ok (by decide) C54_hash16_avx512) k

/-- C69.  The same for the kernels of 64-bit words. -/
theorem C69_chunks64 (env : Env) (k : Nat) :
    (EnvOk env (4096 * 2) →
      bench_chunks_128bit_sse41_c64 env k = .ok (chunksReport64 env 2 k) ∧
      bench_chunks_128bit_avx512_c64 env k = .ok (chunksReport64 env 2 k) ∧
      (env.c.order = .little → bench_chunks_128bit_neon_c64 env k = .ok (chunksReport64 env 2 k))) ∧
    (EnvOk env (4096 * 4) →
      bench_chunks_256bit_avx2_c64 env k = .ok (chunksReport64 env 4 k) ∧
      bench_chunks_256bit_avx512_c64 env k = .ok (chunksReport64 env 4 k)) ∧
    (EnvOk env (4096 * 8) → bench_chunks_512bit_avx512_c64 env k = .ok (chunksReport64 env 8 k)) := by
  refine ⟨fun hv => ⟨?_, ?_, fun ho => ?_⟩, fun hv => ⟨?_, ?_⟩, fun hv => ?_⟩
  · exact chunks_ok 2 4096 (by decide) hv _ (many64 2) (kernel64_ok (by decide) C54_c64_hash2_sse41) k
  · exact chunks_ok 2 4096 (by decide) hv _ (many64 2) (kernel64_ok (by decide) C54_c64_hash2_avx512) k
  · rw [bench_chunks_128bit_neon_c64, ho]
    exact chunks_ok 2 4096 (by decide) hv _ (many64 2) (kernel64_ok (by decide) C54_c64_hash2_neon) k
  · exact chunks_ok 4 4096 (by decide) hv _ (many64 4) (kernel64_ok (by decide) C54_c64_hash4_avx2) k
  · exact chunks_ok 4 4096 (by decide) hv _ (many64 4) (kernel64_ok (by decide) C54_c64_hash4_avx512) k
  · exact chunks_ok 8 4096 (by decide) hv _ (many64 8) (kernel64_ok (by decide) C54_c64_hash8_avx512) k

/-! ## Whole inputs -/

theorem whole_with_ok {σ α : Type} {env : Env} (len : Nat) (hv : EnvOk env len) (s : σ) (I : σ → Prop) (h0 : I s)
    (f : Nat → σ → Bytes → R (α × σ)) (F : Bytes → α)
    (hf : ∀ j s x, x.length = len → I s → ∃ s', f j s x = .ok (F x, s') ∧ I s') (k : Nat) :
    whole_with env len s f k = .ok ⟨BitVec.ofNat 64 len, (List.range k).map fun j => F (sliceOf env len j)⟩ := by
  obtain ⟨t, e, -⟩ := iter_inv (fun j (p : RandomInput × σ) => do
    let (slice, input) ← RandomInput.get env p.1
    let (r, s) ← f j p.2 slice
    return (r, (input, s))) (fun j => F (sliceOf env len j)) (fun j p => p.1 = inputAt env len j ∧ I p.2) k (fun j p _ h => by
      obtain ⟨s', e, h'⟩ := hf j p.2 (sliceOf env len j) (sliceOf_length hv j) h.2
      refine ⟨(inputAt env len (j + 1), s'), ?_, rfl, h'⟩
      dsimp only
      rw [h.1, get_input hv, bind_ok]
      dsimp only
      rw [e, bind_ok, pure_eq]) k 0 (inputAt env len 0, s) (by omega) ⟨rfl, h0⟩
  rw [whole_with, new_input hv, bind_ok]
  dsimp only
  refine Eq.trans (congrArg (· >>= _) e) ?_
  rw [bind_ok, pure_eq]
  simp only [Nat.zero_add]

theorem once_with_ok {σ α : Type} {env : Env} (len : Nat) (hv : EnvOk env len) (s : σ) (I : σ → Prop) (h0 : I s)
    (f : Nat → σ → Bytes → R (α × σ)) (F : Bytes → α)
    (hf : ∀ j s x, x.length = len → I s → ∃ s', f j s x = .ok (F x, s') ∧ I s') (k : Nat) :
    once_with env len s f k = .ok ⟨BitVec.ofNat 64 len, List.replicate k (F (sliceOf env len 0))⟩ := by
  obtain ⟨t, e, -⟩ := iter_inv (fun j s => f j s (sliceOf env len 0)) (fun _ => F (sliceOf env len 0)) (fun _ s => I s) k
    (fun j s _ h => hf j s _ (sliceOf_length hv 0) h) k 0 s (by omega) h0
  rw [once_with, new_input hv, bind_ok]
  dsimp only
  rw [get_input hv, bind_ok]
  dsimp only
  rw [e, bind_ok, pure_eq, List.map_const', List.length_range]

theorem stateless_ok {α : Type} {f : Nat → Bytes → R α} {F : Bytes → α} {len : Nat} (hf : ∀ j x, x.length = len → f j x = .ok (F x)) :
    ∀ j (s : Unit) x, x.length = len → True → ∃ s', stateless f j s x = .ok (F x, s') ∧ True :=
  fun j s x hx _ => ⟨(), by rw [stateless, hf j x hx]; rfl, trivial⟩

/-- what a benchmark that hashes the next slice in each call should report -/
def wholeReport {α : Type} (env : Env) (len : Nat) (F : Bytes → α) (k : Nat) : Report (List α) :=
  ⟨BitVec.ofNat 64 len, (List.range k).map fun j => F (sliceOf env len j)⟩

/-- what a benchmark that hashes one slice again and again should report -/
def onceReport {α : Type} (env : Env) (len : Nat) (F : Bytes → α) (k : Nat) : Report (List α) :=
  ⟨BitVec.ofNat 64 len, List.replicate k (F (sliceOf env len 0))⟩

theorem whole_ok {α : Type} {env : Env} (len : Nat) (hv : EnvOk env len) (f : Nat → Bytes → R α) (F : Bytes → α)
    (hf : ∀ j x, x.length = len → f j x = .ok (F x)) (k : Nat) :
    whole env len f k = .ok (wholeReport env len F k) :=
  whole_with_ok len hv () (fun _ => True) trivial _ F (stateless_ok hf) k

theorem whole_once_ok {α : Type} {env : Env} (len : Nat) (hv : EnvOk env len) (f : Nat → Bytes → R α) (F : Bytes → α)
    (hf : ∀ j x, x.length = len → f j x = .ok (F x)) (k : Nat) :
    whole_once env len f k = .ok (onceReport env len F k) :=
  once_with_ok len hv () (fun _ => True) trivial _ F (stateless_ok hf) k

theorem hash_each {env : Env} {len : Nat} (hv : EnvOk env len) (x : Bytes) (hx : x.length = len) :
    hash env.cfg x = .ok (Spec.hash .hash x) :=
  C01_one_shot_eq_spec env.cfg hv.valid .hash x (by
    have h : len + env.page_size < 2 ^ (env.cfg.usizeBits - 1) := hv.fits
    show x.length < _
    omega)

theorem hasher_each {env : Env} {len : Nat} (hv : EnvOk env len) (x : Bytes) (hx : x.length = len) :
    hasher_rust env x = .ok (Spec.hash .hash x) := by
  have h1 := bits_le hv
  obtain ⟨h, e, e'⟩ := C02_finalize env.cfg .hash [x] (by simp; omega)
  rw [Hasher.updates] at e
  obtain ⟨h', e1, e2⟩ : ∃ h', (newHasher env.cfg .hash).update env.cfg x = .ok h' ∧ h' = h := by
    cases e1 : (newHasher env.cfg .hash).update env.cfg x with
    | error p => rw [e1] at e; cases e
    | ok h1 => rw [e1, bind_ok, Hasher.updates] at e; cases e; exact ⟨_, rfl, rfl⟩
  rw [hasher_rust, show Hasher.new env.cfg = newHasher env.cfg .hash from rfl, e1, bind_ok, e2, e']
  simp

theorem reference_each {len : Nat} (hl : len < 2 ^ 64) (j : Nat) (out x : Bytes) (hx : x.length = len) (ho : out.length = 32) :
    reference j out x = .ok ((Spec.hash .hash x).toList, (Spec.hash .hash x).toList) := by
  have h := C13_reference .hash [x] out (by simp; omega) (by omega)
  rw [RefProgram, refUpdates] at h
  rw [reference]
  cases e1 : Ref.Hasher.new.update x with
  | error p => rw [show refNew .hash = Ref.Hasher.new from rfl, e1] at h; cases h
  | ok h' =>
    rw [show refNew .hash = Ref.Hasher.new from rfl, e1, bind_ok, refUpdates, bind_ok] at h
    rw [bind_ok, h, bind_ok, pure_eq, ho]
    simp [hash_toList, output_eq_slice]

theorem hasher_c_each {env : Env} {len : Nat} (hlt : len < 2 ^ 63) (h16 : 16 ≤ env.c.bits) (hn : NeonLittle env.c ∨ len < 2048) (j : Nat)
    (x : Bytes) (hx : x.length = len) : hasher_c env j x = .ok (keyedTree (Vector.replicate 32 0) 0 x) := by
  obtain ⟨h0, e0, hok0⟩ := C.init_ok (env.stale j).toList (Vector.replicate 32 0) [] 0
  have hfed : fed [(x, [])] = x := by simp [fed]
  obtain ⟨h1, e1, hok1⟩ := feed_ok env.c h16 [(x, [])] [] h0 hok0 ⟨by rw [hfed]; simp; omega, Or.inr ⟨by rw [Vector.length_toList]; decide, by rw [hfed]; simp; omega⟩,
    fun _ => by left; rw [hfed, List.length_nil]; omega, by
      rcases hn with h | h
      · exact .inl h
      · refine .inr fun s hs => ?_
        rw [List.mem_singleton.1 hs]; show x.length < 2048; omega⟩
  rw [List.append_nil] at e0
  have e2 := C.finalize_sim _ _ h16 _ h1 hok1 (by rw [hfed]; simp; omega) (List.replicate C.OUT_LEN 0) (by simp)
  unfold feed at e1
  rw [List.append_nil] at e1
  cases e3 : C.hasher_update env.c h0 x x.length with
  | error p => rw [e3] at e1; cases e1
  | ok h' =>
    rw [e3, bind_ok, feed] at e1
    cases e1
    have e4 : C.Ffi.new (env.stale j) (Vector.replicate 32 0) 0 = .ok h0 := e0
    rw [hasher_c, e4, bind_ok, C.Ffi.update, e3, bind_ok, C.Ffi.finalize, e2, bind_ok, List.nil_append, keyWords, hfed]
    have hl : ((keyedTree (Vector.replicate 32 0) 0 x).toList ++ (List.replicate C.OUT_LEN (0 : Byte)).drop 32) =
        (keyedTree (Vector.replicate 32 0) 0 x).toList := by
      rw [List.drop_of_length_le (by simp), List.append_nil]
    refine (congrArg (fun l => arrayRef l 0 C.OUT_LEN) hl).trans ?_
    exact arrayRef_toList _

/-- C69.  The benchmarks of the one-shot function and of the Rust hasher.  Each declares the length of its slices, and every
call returns the specified hash of its slice; so does the reference implementation. -/
theorem C69_hash (env : Env) (k : Nat) :
    (EnvOk env VERYLONG → bench_hash_00_verylong_rust env k = .ok (wholeReport env VERYLONG (Spec.hash .hash) k)) ∧
    (EnvOk env LONG →
      bench_hash_01_long_rust env k = .ok (wholeReport env LONG (Spec.hash .hash) k) ∧
      bench_hasher_01_long_rust env k = .ok (wholeReport env LONG (Spec.hash .hash) k) ∧
      bench_reference_01_long env k = .ok (wholeReport env LONG (fun x => (Spec.hash .hash x).toList) k)) ∧
    (EnvOk env 2048 →
      bench_hash_02_chunk_rust env k = .ok (wholeReport env 2048 (Spec.hash .hash) k) ∧
      bench_hasher_02_chunk_rust env k = .ok (wholeReport env 2048 (Spec.hash .hash) k) ∧
      bench_reference_02_chunk env k = .ok (wholeReport env 2048 (fun x => (Spec.hash .hash x).toList) k)) ∧
    (EnvOk env 64 →
      bench_hash_03_block_rust env k = .ok (onceReport env 64 (Spec.hash .hash) k) ∧
      bench_hasher_03_block_rust env k = .ok (onceReport env 64 (Spec.hash .hash) k) ∧
      bench_reference_03_block env k = .ok (onceReport env 64 (fun x => (Spec.hash .hash x).toList) k)) := by
  have href : ∀ len, len < 2 ^ 64 → ∀ j s x, x.length = len → s.length = 32 →
      ∃ s' : Bytes, reference j s x = .ok ((Spec.hash .hash x).toList, s') ∧ s'.length = 32 :=
    fun len hl j s x hx hs => ⟨_, reference_each hl j s x hx hs, by simp⟩
  refine ⟨fun hv => ?_, fun hv => ⟨?_, ?_, ?_⟩, fun hv => ⟨?_, ?_, ?_⟩, fun hv => ⟨?_, ?_, ?_⟩⟩
  · exact whole_ok _ hv _ _ (fun _ x hx => hash_each hv x hx) k
  · exact whole_ok _ hv _ _ (fun _ x hx => hash_each hv x hx) k
  · exact whole_ok _ hv _ _ (fun _ x hx => hasher_each hv x hx) k
  · exact whole_with_ok _ hv (List.replicate 32 0) (fun s => s.length = 32) List.length_replicate reference (fun x => (Spec.hash .hash x).toList) (href _ (by decide)) k
  · exact whole_ok _ hv _ _ (fun _ x hx => hash_each hv x hx) k
  · exact whole_ok _ hv _ _ (fun _ x hx => hasher_each hv x hx) k
  · exact whole_with_ok _ hv (List.replicate 32 0) (fun s => s.length = 32) List.length_replicate reference (fun x => (Spec.hash .hash x).toList) (href _ (by decide)) k
  · exact whole_once_ok _ hv _ _ (fun _ x hx => hash_each hv x hx) k
  · exact whole_once_ok _ hv _ _ (fun _ x hx => hasher_each hv x hx) k
  · exact once_with_ok _ hv (List.replicate 32 0) (fun s => s.length = 32) List.length_replicate reference (fun x => (Spec.hash .hash x).toList) (href _ (by decide)) k

/-- C69.  The benchmarks of the C hasher.  They pass a key of zeros and no flags, which is not a mode of the library: what
they compute is the specified tree under that key, not the hash that the Rust benchmarks compute. -/
theorem C69_hasher_c (env : Env) (k : Nat) (h16 : 16 ≤ env.c.bits) :
    let F := keyedTree (Vector.replicate 32 0) 0
    (EnvOk env LONG → NeonLittle env.c → bench_hasher_01_long_c env k = .ok (wholeReport env LONG F k)) ∧
    (EnvOk env 2048 → NeonLittle env.c → bench_hasher_02_chunk_c env k = .ok (wholeReport env 2048 F k)) ∧
    (EnvOk env 64 → bench_hasher_03_block_c env k = .ok (onceReport env 64 F k)) := by
  refine ⟨fun hv hn => ?_, fun hv hn => ?_, fun hv => ?_⟩
  · exact whole_ok _ hv _ _ (fun j x hx => hasher_c_each (by decide) h16 (.inl hn) j x hx) k
  · exact whole_ok _ hv _ _ (fun j x hx => hasher_c_each (by decide) h16 (.inl hn) j x hx) k
  · exact whole_once_ok _ hv _ _ (fun j x hx => hasher_c_each (by decide) h16 (.inr (by decide)) j x hx) k

/-- C69.  The benchmark of the extensible output declares the 64 bytes of one `read`, and call `j` returns block `j + 1` of
the output for the empty input.  With overflow checks it can make 2^58 - 2 calls; the next one panics. -/
theorem C69_xof (env : Env) (prof : Profile) (k : Nat) :
    (prof = .release ∨ k ≤ 2 ^ 58 - 2 → bench_xof env prof k =
      .ok ⟨64, (List.range k).map fun j => (Spec.streamBlock .hash [] (j + 1)).toList⟩) ∧
    (prof = .debug → k = 2 ^ 58 - 1 → bench_xof env prof k = .error .overflow) := by
  obtain ⟨o, e', -, ho⟩ := (HasherAt.new env.cfg .hash).finalize_xof
  have hr := fun k => iter_inv (fun _ (xof : Output) => do
    let (r, xof) ← xof.read prof
    return (r.toList, xof)) (fun j => (Spec.streamBlock .hash [] (j + 1)).toList) (fun j o => OutAt o .hash [] (j + 1)) k
  have start : ∀ k, bench_xof env prof k = (do
      let (rs, _) ← iter (fun _ (xof : Output) => do
        let (r, xof) ← xof.read prof
        return (r.toList, xof)) k 0 { o with offset := BitVec.ofNat 64 (64 * (0 + 1)) }
      return ⟨64, rs⟩) := by
    intro k
    rw [bench_xof]
    dsimp only
    rw [show Hasher.new env.cfg = newHasher env.cfg .hash from rfl, e', bind_ok, (OutAt.zero ho).read prof (.inr (by decide)), bind_ok]
    dsimp only
    rw [Vector.length_toList]
    rfl
  constructor
  · intro h
    obtain ⟨s, e, -⟩ := hr k (fun j s hj h' => by
      have := h'.read prof (by rcases h with h | h; exact .inl h; exact .inr (by omega))
      exact ⟨_, by rw [this]; rfl, h'.next⟩) k 0 _ (by omega) (OutAt.zero ho).next
    rw [start, e, bind_ok]
    dsimp only
    rw [pure_eq]
    simp only [Nat.zero_add]
  · intro hp hk
    obtain ⟨a, ha⟩ : ∃ a, a + 1 = k := ⟨k - 1, by omega⟩
    obtain ⟨s, e, hs⟩ := hr a (fun j s hj h' => by
      have := h'.read prof (.inr (by omega))
      exact ⟨_, by rw [this]; rfl, h'.next⟩) a 0 _ (by omega) (OutAt.zero ho).next
    have hl : s.read prof = .error .overflow := by rw [hp]; exact hs.read_last (by omega)
    rw [start, ← ha, iter_fail _ a 0 _ _ s .overflow e (by rw [hl]; rfl)]
    rfl

-- pages of 4096 bytes, shuffled into reverse order; every length used above fits
def exBench : Env where
  cfg := exAvx2
  c := ⟨false, true, true, false, true, true, 64, fun _ => 0, .little⟩
  page_size := 4096
  fill := fun n => List.replicate n 7
  shuffle := List.reverse
  stale := fun _ => Vector.replicate _ 3

theorem exBench_ok (len : Nat) (h : len ≤ 2 ^ 20) : EnvOk exBench len where
  valid := exAvx2_valid
  page := by decide
  fill := fun n => List.length_replicate
  shuffle := List.reverse_perm
  fits := by show len + 4096 < 2 ^ 63; omega
  fits' := by show 64 / 8 * 4096 < 2 ^ 63; decide

example : EnvOk exBench VERYLONG ∧ EnvOk exBench LONG ∧ EnvOk exBench (2048 * 16) ∧ EnvOk exBench (4096 * 8) ∧ EnvOk exBench 128 ∧ EnvOk exBench 64 :=
  ⟨exBench_ok _ (by decide), exBench_ok _ (by decide), exBench_ok _ (by decide), exBench_ok _ (by decide), exBench_ok _ (by decide),
    exBench_ok _ (by decide)⟩
-- with pages of four bytes: the second call starts at offset 2, and the fifth where the first one did
example : (List.range 5).map (startOf { exBench with page_size := 4 }) = [3, 2, 1, 0, 3] := by decide
example : NeonLittle exBench.c ∧ 16 ≤ exBench.c.bits := ⟨fun _ => rfl, by decide⟩

end Baokeshed.Props
