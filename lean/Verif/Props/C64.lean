import Verif.Proofs.C64.Avx512
import Verif.Proofs.C64.Neon
import Verif.Props.C

/-!
# C40, C41, C42: the 64-bit variant

`portable64.rs` and the C code of /repo/c64.
-/

namespace Baokeshed.Props
open Baokeshed.Model Baokeshed.Proofs
attribute [local irreducible] Spec64.compress Spec64.cvBytes Spec64.permuted

/-! ## C40: the Rust code -/

/-- C40.  `portable64::compress` and `compress_xof` compute the specified functions. -/
theorem C40_compress (cv : Vector U64 4) (block : Vector Byte 128) (block_len : Byte) (offset : U64) (flags : Byte) :
    Portable64.compress cv block block_len offset flags = Spec64.compress ⟨cv, block, block_len, offset, flags⟩ ∧
    (Portable64.compress_xof cv block block_len offset flags).toList =
      Spec64.outBytes ⟨cv, block, block_len, offset, flags⟩ :=
  ⟨W64.compress_eq .., W64.compress_xof_eq ..⟩

/-- C40.  The chaining value is the beginning of the extended output. -/
theorem C40_prefix (cv : Vector U64 4) (block : Vector Byte 128) (block_len : Byte) (offset : U64) (flags : Byte) :
    (Portable64.compress_xof cv block block_len offset flags).toList.take 32 =
      (Portable64.bytes_from_state_words (Portable64.compress cv block block_len offset flags)).toList := by
  rw [(C40_compress ..).2, (C40_compress ..).1, W64.bytes_from_state_words_eq]
  unfold Spec64.outBytes Spec64.cvBytes Spec64.compress
  generalize Spec64.permuted _ = s
  have h4 : List.finRange 4 = [0, 1, 2, 3] := by decide
  have e : (Vector.ofFn fun i : Fin 4 => s.a i ^^^ s.b i).toList = (List.finRange 4).map fun i => s.a i ^^^ s.b i := by
    rw [Vector.toList_ofFn, h4]; rfl
  dsimp only
  rw [e, List.append_assoc, List.append_assoc, List.flatMap_append]
  apply List.take_left'
  rw [h4]
  rfl

/-- C40.  `portable64::hash1` of whole blocks is the specified chain of compressions; any other length
is an assertion failure. -/
theorem C40_hash1 (input : Bytes) (key : Vector U64 4) (offset : U64) (flags fs fe : Byte) :
    (∀ blocks, input.length = 128 * blocks → ∃ h : Vector Byte 32,
      Portable64.hash1 input key offset flags fs fe = .ok h ∧
      h.toList = Spec64.cvBytes (Spec64.blockChain key offset flags fs fe blocks input)) ∧
    (input.length % 128 ≠ 0 → Portable64.hash1 input key offset flags fs fe = .error .assert) := by
  refine ⟨fun blocks h => ⟨_, W64.hash1_eq input key offset flags fs fe (by omega), ?_⟩, fun h => ?_⟩
  · rw [W64.bytes_from_state_words_eq, ← W64.cvLoop_chain key flags fs fe offset blocks input (by omega),
      List.take_of_length_le (by omega)]
  · rw [Portable64.hash1, assertR, if_neg (by simpa using h)]; rfl

theorem many_loop64 (key : Vector U64 4) (d : U64) (flags fs fe : Byte) (blocks : Nat) (inputs : List Bytes)
    (hx : ∀ x ∈ inputs, x.length = 128 * blocks) (offset : U64) (out : Bytes)
    (hout : 32 * inputs.length ≤ out.length) :
    Portable64.hash_many_loop key d flags fs fe inputs offset out =
      if offset.toNat + inputs.length * d.toNat < 2 ^ 64 then
        .ok (Spec64.manyOut key offset d flags fs fe blocks inputs.length inputs ++ out.drop (32 * inputs.length))
      else .error .overflow := by
  induction inputs generalizing offset out with
  | nil => rw [Portable64.hash_many_loop, if_pos (by simpa using offset.isLt)]; rfl
  | cons x xs ih =>
    rw [List.length_cons] at hout
    obtain ⟨h, e, eh⟩ := (C40_hash1 x key offset flags fs fe).1 blocks (hx x (List.mem_cons_self ..))
    rw [Portable64.hash_many_loop, if_neg (by simp only [Portable64.OUT_LEN]; omega), e, bind_ok, addU64]
    have hm : (xs.length + 1) * d.toNat = xs.length * d.toNat + d.toNat := by rw [Nat.add_mul, Nat.one_mul]
    rw [List.length_cons, hm]
    by_cases h1 : offset.toNat + d.toNat < 2 ^ 64
    · rw [if_pos h1, bind_ok, ih (fun y hy => hx y (List.mem_cons_of_mem _ hy)) _ _
        (by rw [List.length_drop]; simp only [Portable64.OUT_LEN]; omega)]
      have e1 : (offset + d).toNat = offset.toNat + d.toNat := by
        rw [BitVec.toNat_add, Nat.mod_eq_of_lt h1]
      rw [e1]
      by_cases h2 : offset.toNat + (xs.length * d.toNat + d.toNat) < 2 ^ 64
      · rw [if_pos h2, if_pos (by omega), bind_ok, pure_eq, eh, List.drop_drop, Nat.add_comm xs.length 1,
          W64.manyOut_add, ← List.append_assoc]
        have e2 : Spec64.manyOut key offset d flags fs fe blocks 1 (x :: xs) =
            Spec64.cvBytes (Spec64.blockChain key offset flags fs fe blocks x) := by
          simp [Spec64.manyOut]
        rw [e2, Nat.mul_add]
        simp [Portable64.OUT_LEN]
      · rw [if_neg h2, if_neg (by omega)]; rfl
    · rw [if_neg h1, if_neg (by omega)]; rfl

/-- C40.  `portable64::hash_many` writes the specified chaining values and nothing else; it panics exactly
if `out` is too short or if the running offset overflows (which is advanced after the last input, too). -/
theorem C40_hash_many (inputs : List Bytes) (blocks : Nat) (hx : ∀ x ∈ inputs, x.length = 128 * blocks)
    (key : Vector U64 4) (offset d : U64) (flags fs fe : Byte) (out : Bytes) :
    Portable64.hash_many inputs key offset d flags fs fe out =
      if out.length < 32 * inputs.length then .error .assert
      else if offset.toNat + inputs.length * d.toNat < 2 ^ 64 then
        .ok (Spec64.manyOut key offset d flags fs fe blocks inputs.length inputs ++ out.drop (32 * inputs.length))
      else .error .overflow := by
  rw [Portable64.hash_many, assertR]
  by_cases h : out.length < 32 * inputs.length
  · rw [if_pos h, if_neg (by simp only [Portable64.OUT_LEN]; omega)]; rfl
  · rw [if_neg h, if_pos (by simp only [Portable64.OUT_LEN]; omega), bind_ok]
    exact many_loop64 key d flags fs fe blocks inputs hx offset out (by omega)

-- 31 chunks at offset 99 * 4096, as in the repository's own test
example : ∀ x ∈ List.replicate 31 (rep 4096 5), x.length = 128 * 32 := by
  intro x h; rw [List.eq_of_mem_replicate h]; simp
example : ((99 * 4096 : U64)).toNat + 31 * (4096 : U64).toNat < 2 ^ 64 := by decide
-- the assertion on the length is reachable
example : (rep 100 5).length % 128 ≠ 0 := by simp

/-! ## C41: the C compression functions -/

theorem pad64_toList_append (block : Vector Byte 128) (rest : Bytes) : Spec64.pad (block.toList ++ rest) = block := by
  apply Vector.ext
  intro i hi
  rw [Spec64.pad, Vector.getElem_ofFn, List.getD_eq_getElem?_getD, List.getElem?_append_left (by simpa using hi)]
  simp [hi]

/-- C41.  With `block` pointing to at least 128 bytes, each of the three C functions replaces `state` by
the specified compression of it, without any access outside the block. -/
theorem C41_c_compress (state : Vector U64 4) (block : Vector Byte 128) (rest : Bytes) (block_len : Byte)
    (offset : U64) (flags : Byte) :
    C64.Portable.compress_portable state (block.toList ++ rest) block_len offset flags =
      .ok (Spec64.compress ⟨state, block, block_len, offset, flags⟩) ∧
    C64.Avx2.compress_avx2 state (block.toList ++ rest) block_len offset flags =
      .ok (Spec64.compress ⟨state, block, block_len, offset, flags⟩) ∧
    C64.Avx512.compress_avx512 state (block.toList ++ rest) block_len offset flags =
      .ok (Spec64.compress ⟨state, block, block_len, offset, flags⟩) := by
  have h : 128 ≤ (block.toList ++ rest).length := by simp
  have e := pad64_toList_append block rest
  refine ⟨?_, ?_, ?_⟩
  · rw [W64.compress_portable_ok state _ block_len offset flags h, e]
  · rw [W64.Avx2.compress_ok state _ block_len offset flags h, e]
  · rw [W64.Avx512.compress_ok state _ block_len offset flags h, e]

/-- C41.  They compute what the Rust function computes. -/
theorem C41_c_eq_rust (state : Vector U64 4) (block : Vector Byte 128) (block_len : Byte) (offset : U64)
    (flags : Byte) :
    C64.Portable.compress_portable state block.toList block_len offset flags =
      .ok (Portable64.compress state block block_len offset flags) ∧
    C64.Avx2.compress_avx2 state block.toList block_len offset flags =
      .ok (Portable64.compress state block block_len offset flags) ∧
    C64.Avx512.compress_avx512 state block.toList block_len offset flags =
      .ok (Portable64.compress state block block_len offset flags) := by
  have h := C41_c_compress state block [] block_len offset flags
  rw [List.append_nil] at h
  rw [(C40_compress state block block_len offset flags).1]
  exact h

/-! ## C42: the C functions for many inputs -/

/-- The callers' part of the contract of the `hash_many` functions of the 64-bit C code: enough inputs,
each with `blocks` whole blocks, room for all results, and `offset_deltas[i] = i * d` for `i ≤ degree`. -/
structure HashManyPre64 (degree : Nat) (inputs : List Bytes) (num_inputs blocks : Nat) (d : U64)
    (offset_deltas : List U64) (out : Bytes) : Prop where
  num : num_inputs ≤ inputs.length
  len : ∀ i, i < num_inputs → 128 * blocks ≤ (inputs.getD i []).length
  room : 32 * num_inputs ≤ out.length
  deltas : ∀ i, i ≤ degree → offset_deltas[i]? = some (BitVec.ofNat 64 i * d)

theorem HashManyPre64.mono {m n : Nat} {inputs : List Bytes} {num blocks : Nat} {d : U64} {deltas : List U64}
    {out : Bytes} (h : HashManyPre64 n inputs num blocks d deltas out) (hm : m ≤ n) :
    HashManyPre64 m inputs num blocks d deltas out :=
  ⟨h.num, h.len, h.room, fun i hi => h.deltas i (by omega)⟩

/-- C42.  `baokeshed64_hash_many_portable` -/
theorem C42_portable (inputs : List Bytes) (num_inputs blocks : Nat) (key : Vector U64 4) (offset d : U64)
    (deltas : List U64) (flags fs fe : Byte) (out : Bytes)
    (h : HashManyPre64 1 inputs num_inputs blocks d deltas out) :
    C64.Portable.hash_many_portable inputs num_inputs blocks key offset deltas flags fs fe out =
      .ok (Spec64.manyOut key offset d flags fs fe blocks num_inputs inputs ++ out.drop (32 * num_inputs)) :=
  W64.portable_good key d flags fs fe blocks deltas (h.deltas 1 (by decide)) num_inputs inputs offset out
    (fun _ h => by cases h) h.num h.len h.room

/-- C42.  `baokeshed64_hash_many_sse41` -/
theorem C42_sse41 (inputs : List Bytes) (num_inputs blocks : Nat) (key : Vector U64 4) (offset d : U64)
    (deltas : List U64) (flags fs fe : Byte) (out : Bytes)
    (h : HashManyPre64 2 inputs num_inputs blocks d deltas out) :
    C64.Sse41.hash_many_sse41 inputs num_inputs blocks key offset deltas flags fs fe out =
      .ok (Spec64.manyOut key offset d flags fs fe blocks num_inputs inputs ++ out.drop (32 * num_inputs)) :=
  W64.Sse41.loop2_good key d flags fs fe blocks deltas h.deltas num_inputs inputs offset out
    (fun _ h => by cases h) h.num h.len h.room

/-- C42.  `baokeshed64_hash_many_avx2` -/
theorem C42_avx2 (inputs : List Bytes) (num_inputs blocks : Nat) (key : Vector U64 4) (offset d : U64)
    (deltas : List U64) (flags fs fe : Byte) (out : Bytes)
    (h : HashManyPre64 4 inputs num_inputs blocks d deltas out) :
    C64.Avx2.hash_many_avx2 inputs num_inputs blocks key offset deltas flags fs fe out =
      .ok (Spec64.manyOut key offset d flags fs fe blocks num_inputs inputs ++ out.drop (32 * num_inputs)) :=
  W64.Avx2.loop4_good key d flags fs fe blocks deltas h.deltas num_inputs inputs offset out
    (fun _ h => by cases h) h.num h.len h.room

/-- C42.  `baokeshed64_hash_many_avx512` -/
theorem C42_avx512 (inputs : List Bytes) (num_inputs blocks : Nat) (key : Vector U64 4) (offset d : U64)
    (deltas : List U64) (flags fs fe : Byte) (out : Bytes)
    (h : HashManyPre64 8 inputs num_inputs blocks d deltas out) :
    C64.Avx512.hash_many_avx512 inputs num_inputs blocks key offset deltas flags fs fe out =
      .ok (Spec64.manyOut key offset d flags fs fe blocks num_inputs inputs ++ out.drop (32 * num_inputs)) :=
  W64.Avx512.loop8_good key d flags fs fe blocks deltas h.deltas num_inputs inputs offset out
    (fun _ h => by cases h) h.num h.len h.room

/-- C42.  `baokeshed64_hash_many_neon` -/
theorem C42_neon (inputs : List Bytes) (num_inputs blocks : Nat) (key : Vector U64 4) (offset d : U64)
    (deltas : List U64) (flags fs fe : Byte) (out : Bytes)
    (h : HashManyPre64 2 inputs num_inputs blocks d deltas out) :
    C64.Neon.hash_many_neon .little inputs num_inputs blocks key offset deltas flags fs fe out =
      .ok (Spec64.manyOut key offset d flags fs fe blocks num_inputs inputs ++ out.drop (32 * num_inputs)) :=
  W64.Neon.loop2_good key d flags fs fe blocks deltas h.deltas num_inputs inputs offset out
    (fun _ h => by cases h) h.num h.len h.room

/-- C42.  All five write the same bytes. -/
theorem C42_agree (inputs : List Bytes) (num_inputs blocks : Nat) (key : Vector U64 4) (offset d : U64)
    (deltas : List U64) (flags fs fe : Byte) (out : Bytes)
    (h : HashManyPre64 8 inputs num_inputs blocks d deltas out) :
    let r := C64.Portable.hash_many_portable inputs num_inputs blocks key offset deltas flags fs fe out
    C64.Sse41.hash_many_sse41 inputs num_inputs blocks key offset deltas flags fs fe out = r ∧
    C64.Avx2.hash_many_avx2 inputs num_inputs blocks key offset deltas flags fs fe out = r ∧
    C64.Avx512.hash_many_avx512 inputs num_inputs blocks key offset deltas flags fs fe out = r ∧
    C64.Neon.hash_many_neon .little inputs num_inputs blocks key offset deltas flags fs fe out = r := by
  intro r
  have e : r = _ := C42_portable inputs num_inputs blocks key offset d deltas flags fs fe out
    (h.mono (by decide))
  rw [e]
  exact ⟨C42_sse41 _ _ _ _ _ _ _ _ _ _ _ (h.mono (by decide)), C42_avx2 _ _ _ _ _ _ _ _ _ _ _ (h.mono (by decide)),
    C42_avx512 _ _ _ _ _ _ _ _ _ _ _ h, C42_neon _ _ _ _ _ _ _ _ _ _ _ (h.mono (by decide))⟩

/-- C42.  Whenever the Rust `hash_many` does not panic, every C function writes the same bytes (the property
the repository's tests sample with 31 inputs). -/
theorem C42_c_eq_rust (inputs : List Bytes) (blocks : Nat) (hx : ∀ x ∈ inputs, x.length = 128 * blocks)
    (key : Vector U64 4) (offset d : U64) (deltas : List U64)
    (hd : ∀ i, i ≤ 8 → deltas[i]? = some (BitVec.ofNat 64 i * d)) (flags fs fe : Byte) (out out' : Bytes)
    (h : Portable64.hash_many inputs key offset d flags fs fe out = .ok out') :
    C64.Portable.hash_many_portable inputs inputs.length blocks key offset deltas flags fs fe out = .ok out' ∧
    C64.Sse41.hash_many_sse41 inputs inputs.length blocks key offset deltas flags fs fe out = .ok out' ∧
    C64.Avx2.hash_many_avx2 inputs inputs.length blocks key offset deltas flags fs fe out = .ok out' ∧
    C64.Avx512.hash_many_avx512 inputs inputs.length blocks key offset deltas flags fs fe out = .ok out' ∧
    C64.Neon.hash_many_neon .little inputs inputs.length blocks key offset deltas flags fs fe out = .ok out' := by
  rw [C40_hash_many inputs blocks hx] at h
  split at h
  · cases h
  next h1 =>
    split at h
    next h2 =>
      have p : HashManyPre64 8 inputs inputs.length blocks d deltas out :=
        ⟨Nat.le_refl _, fun i hi => by
          rw [List.getD_eq_getElem?_getD, List.getElem?_eq_getElem hi]
          exact Nat.le_of_eq (hx _ (List.getElem_mem hi)).symm, by omega, hd⟩
      have a := C42_agree inputs inputs.length blocks key offset d deltas flags fs fe out p
      have e := (C42_portable inputs inputs.length blocks key offset d deltas flags fs fe out (p.mono (by decide))).trans h
      exact ⟨e, a.1.trans e, a.2.1.trans e, a.2.2.1.trans e, a.2.2.2.trans e⟩
    · cases h

theorem leWord64_byte (b : Fin 8 → Byte) (j : Fin 8) :
    (Portable64.leWord64 (b 0) (b 1) (b 2) (b 3) (b 4) (b 5) (b 6) (b 7) >>> (8 * j.val)).setWidth 8 = b j := by
  apply BitVec.eq_of_getLsbD_eq
  intro k hk
  match j with
  | 0 | 1 | 2 | 3 | 4 | 5 | 6 | 7 =>
    simp only [Portable64.leWord64, BitVec.getLsbD_append, BitVec.getLsbD_setWidth, BitVec.getLsbD_ushiftRight, hk,
      decide_true, Bool.true_and, Fin.val_zero, Fin.val_one, Fin.val_two]
    repeat (first | rw [if_neg (by omega)] | rw [if_pos (by omega)])
    congr 1
    omega

/-- C42.  The header's function for keys (which no file of c64 uses) reads four words with the least significant
byte first. -/
theorem C42_load_key_words (key : Bytes) (h : 32 ≤ key.length) :
    ∃ w, C64.load_key_words key = .ok w ∧
      ∀ (i : Fin 4) (j : Fin 8), (w[i] >>> (8 * j.val)).setWidth 8 = key.getD (8 * i.val + j.val) 0 := by
  refine ⟨_, by
    unfold C64.load_key_words
    rw [Proofs.W64.load64_eq _ _ (by omega), bind_ok, Proofs.W64.load64_eq _ _ (by omega), bind_ok,
      Proofs.W64.load64_eq _ _ (by omega), bind_ok, Proofs.W64.load64_eq _ _ (by omega), bind_ok]
    rfl, ?_⟩
  intro i j
  match i with
  | 0 => exact leWord64_byte (fun j => key.getD (8 * 0 + j.val) 0) j
  | 1 => exact leWord64_byte (fun j => key.getD (8 * 1 + j.val) 0) j
  | 2 => exact leWord64_byte (fun j => key.getD (8 * 2 + j.val) 0) j
  | 3 => exact leWord64_byte (fun j => key.getD (8 * 3 + j.val) 0) j

/-- C42.  The table of offset deltas of the header is of the required form. -/
theorem C42_chunk_deltas (i : Nat) (hi : i ≤ 16) :
    C64.CHUNK_OFFSET_DELTAS[i]? = some (BitVec.ofNat 64 i * BitVec.ofNat 64 4096) := by
  rcases i with _|_|_|_|_|_|_|_|_|_|_|_|_|_|_|_|_|i
  all_goals first | omega | rfl

example : 32 ≤ (rep 32 7).length := by simp

-- 31 chunks with the table of the header and spare room behind the results
example : HashManyPre64 8 (List.replicate 31 (rep 4096 5)) 31 32 4096 C64.CHUNK_OFFSET_DELTAS (rep 1000 0) :=
  ⟨by simp, fun i hi => by rw [List.getD_eq_getElem?_getD, List.getElem?_replicate, if_pos hi]; simp, by simp,
    fun i hi => C42_chunk_deltas i (by omega)⟩

-- 31 parent blocks
example : HashManyPre64 8 (List.replicate 31 (rep 128 5)) 31 1 0 (List.replicate 9 0) (rep 992 0) :=
  ⟨by simp, fun i hi => by rw [List.getD_eq_getElem?_getD, List.getElem?_replicate, if_pos hi]; simp, by simp,
    fun i hi => by rw [List.getElem?_replicate, if_pos (by omega)]; simp⟩

end Baokeshed.Props
