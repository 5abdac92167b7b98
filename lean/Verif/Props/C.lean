import Verif.Proofs.C.Avx512
import Verif.Proofs.C.Neon
import Verif.Props.Kernels

/-!
# C31, C32: the C kernels
-/

namespace Baokeshed.Props
open Baokeshed.Model Baokeshed.Proofs
attribute [local irreducible] Spec.compress Spec.cvBytes

theorem pad_toList_append (block : Vector Byte 64) (rest : Bytes) : Spec.pad (block.toList ++ rest) = block := by
  apply Vector.ext
  intro i hi
  rw [Spec.pad, Vector.getElem_ofFn, List.getD_eq_getElem?_getD, List.getElem?_append_left (by simpa using hi)]
  simp [hi]

/-- C31.  With `block` pointing to at least 64 bytes, each of the three C functions replaces `state` by
the specified compression of it. -/
theorem C31_c_compress (state : Vector Word 8) (block : Vector Byte 64) (rest : Bytes) (block_len : Byte)
    (offset : U64) (flags : Byte) :
    C.Portable.compress_portable state (block.toList ++ rest) block_len offset flags =
      .ok (Spec.compress ⟨state, block, block_len, offset, flags⟩) ∧
    C.Sse41.compress_sse41 state (block.toList ++ rest) block_len offset flags =
      .ok (Spec.compress ⟨state, block, block_len, offset, flags⟩) ∧
    C.Avx512.compress_avx512 state (block.toList ++ rest) block_len offset flags =
      .ok (Spec.compress ⟨state, block, block_len, offset, flags⟩) := by
  have h : 64 ≤ (block.toList ++ rest).length := by simp
  have e := pad_toList_append block rest
  refine ⟨?_, ?_, ?_⟩
  · rw [C.compress_portable_ok state _ block_len offset flags h, e]
  · rw [C.Sse41.compress_ok state _ block_len offset flags h, e]
  · rw [C.Avx512.compress_ok state _ block_len offset flags h, e]

/-- C31.  They compute what the Rust functions of the same purpose compute. -/
theorem C31_c_eq_rust (state : Vector Word 8) (block : Vector Byte 64) (block_len : Byte) (offset : U64)
    (flags : Byte) :
    C.Portable.compress_portable state block.toList block_len offset flags =
      .ok (Portable.compress state block block_len offset flags) ∧
    C.Sse41.compress_sse41 state block.toList block_len offset flags =
      .ok (Sse41.compress state block block_len offset flags) ∧
    C.Avx512.compress_avx512 state block.toList block_len offset flags =
      .ok (Portable.compress state block block_len offset flags) := by
  have h := C31_c_compress state block [] block_len offset flags
  rw [List.append_nil] at h
  rw [(C07_sse41_compress state block block_len offset flags).1,
    (C09_portable_compress state block block_len offset flags).1]
  exact h

/-- The callers' part of the contract of the `hash_many` functions of the C code: enough inputs, each
with `blocks` whole blocks, room for all results, and `offset_deltas[i] = i * d` for `i ≤ degree`. -/
structure HashManyPre (degree : Nat) (inputs : List Bytes) (num_inputs blocks : Nat) (d : U64)
    (offset_deltas : List U64) (out : Bytes) : Prop where
  num : num_inputs ≤ inputs.length
  len : ∀ i, i < num_inputs → 64 * blocks ≤ (inputs.getD i []).length
  room : 32 * num_inputs ≤ out.length
  deltas : ∀ i, i ≤ degree → offset_deltas[i]? = some (BitVec.ofNat 64 i * d)

theorem HashManyPre.mono {m n : Nat} {inputs : List Bytes} {num blocks : Nat} {d : U64} {deltas : List U64}
    {out : Bytes} (h : HashManyPre n inputs num blocks d deltas out) (hm : m ≤ n) :
    HashManyPre m inputs num blocks d deltas out :=
  ⟨h.num, h.len, h.room, fun i hi => h.deltas i (by omega)⟩

/-- C32.  `hash_many_portable` writes the specified chaining values to the first `32 * num_inputs` bytes
and leaves the rest of the memory behind `out` alone; it makes no access outside the objects it is given. -/
theorem C32_portable (inputs : List Bytes) (num_inputs blocks : Nat) (key : Vector Word 8) (offset d : U64)
    (deltas : List U64) (flags fs fe : Byte) (out : Bytes)
    (h : HashManyPre 1 inputs num_inputs blocks d deltas out) :
    C.Portable.hash_many_portable inputs num_inputs blocks key offset deltas flags fs fe out =
      .ok (Spec.manyOut key offset d flags fs fe blocks num_inputs inputs ++ out.drop (32 * num_inputs)) :=
  C.portable_good key d flags fs fe blocks deltas (h.deltas 1 (by decide)) num_inputs inputs offset out
    (fun _ h => by cases h) h.num h.len h.room

/-- C32.  `hash_many_sse41` -/
theorem C32_sse41 (inputs : List Bytes) (num_inputs blocks : Nat) (key : Vector Word 8) (offset d : U64)
    (deltas : List U64) (flags fs fe : Byte) (out : Bytes)
    (h : HashManyPre 4 inputs num_inputs blocks d deltas out) :
    C.Sse41.hash_many_sse41 inputs num_inputs blocks key offset deltas flags fs fe out =
      .ok (Spec.manyOut key offset d flags fs fe blocks num_inputs inputs ++ out.drop (32 * num_inputs)) :=
  C.Sse41.loop4_good key d flags fs fe blocks deltas h.deltas num_inputs inputs offset out
    (fun _ h => by cases h) h.num h.len h.room

/-- C32.  `hash_many_avx2` -/
theorem C32_avx2 (inputs : List Bytes) (num_inputs blocks : Nat) (key : Vector Word 8) (offset d : U64)
    (deltas : List U64) (flags fs fe : Byte) (out : Bytes)
    (h : HashManyPre 8 inputs num_inputs blocks d deltas out) :
    C.Avx2.hash_many_avx2 inputs num_inputs blocks key offset deltas flags fs fe out =
      .ok (Spec.manyOut key offset d flags fs fe blocks num_inputs inputs ++ out.drop (32 * num_inputs)) :=
  C.Avx2.loop8_good key d flags fs fe blocks deltas h.deltas num_inputs inputs offset out
    (fun _ h => by cases h) h.num h.len h.room

/-- C32.  `hash_many_avx512` -/
theorem C32_avx512 (inputs : List Bytes) (num_inputs blocks : Nat) (key : Vector Word 8) (offset d : U64)
    (deltas : List U64) (flags fs fe : Byte) (out : Bytes)
    (h : HashManyPre 16 inputs num_inputs blocks d deltas out) :
    C.Avx512.hash_many_avx512 inputs num_inputs blocks key offset deltas flags fs fe out =
      .ok (Spec.manyOut key offset d flags fs fe blocks num_inputs inputs ++ out.drop (32 * num_inputs)) :=
  C.Avx512.loop16_good key d flags fs fe blocks deltas h.deltas num_inputs inputs offset out
    (fun _ h => by cases h) h.num h.len h.room

/-- C32.  `hash_many_neon` -/
theorem C32_neon (inputs : List Bytes) (num_inputs blocks : Nat) (key : Vector Word 8) (offset d : U64)
    (deltas : List U64) (flags fs fe : Byte) (out : Bytes)
    (h : HashManyPre 4 inputs num_inputs blocks d deltas out) :
    C.Neon.hash_many_neon .little inputs num_inputs blocks key offset deltas flags fs fe out =
      .ok (Spec.manyOut key offset d flags fs fe blocks num_inputs inputs ++ out.drop (32 * num_inputs)) :=
  C.Neon.loop4_good key d flags fs fe blocks deltas h.deltas num_inputs inputs offset out
    (fun _ h => by cases h) h.num h.len h.room

/-- C32.  All five write the same bytes. -/
theorem C32_agree (inputs : List Bytes) (num_inputs blocks : Nat) (key : Vector Word 8) (offset d : U64)
    (deltas : List U64) (flags fs fe : Byte) (out : Bytes)
    (h : HashManyPre 16 inputs num_inputs blocks d deltas out) :
    let r := C.Portable.hash_many_portable inputs num_inputs blocks key offset deltas flags fs fe out
    C.Sse41.hash_many_sse41 inputs num_inputs blocks key offset deltas flags fs fe out = r ∧
    C.Avx2.hash_many_avx2 inputs num_inputs blocks key offset deltas flags fs fe out = r ∧
    C.Avx512.hash_many_avx512 inputs num_inputs blocks key offset deltas flags fs fe out = r ∧
    C.Neon.hash_many_neon .little inputs num_inputs blocks key offset deltas flags fs fe out = r := by
  intro r
  have e : r = _ := C32_portable inputs num_inputs blocks key offset d deltas flags fs fe out
    (h.mono (by decide))
  rw [e]
  exact ⟨C32_sse41 _ _ _ _ _ _ _ _ _ _ _ (h.mono (by decide)), C32_avx2 _ _ _ _ _ _ _ _ _ _ _ (h.mono (by decide)),
    C32_avx512 _ _ _ _ _ _ _ _ _ _ _ h, C32_neon _ _ _ _ _ _ _ _ _ _ _ (h.mono (by decide))⟩

/-- The table of offset deltas the C hasher passes is of the required form. -/
theorem chunk_deltas (i : Nat) (hi : i ≤ 16) :
    C.CHUNK_OFFSET_DELTAS[i]? = some (BitVec.ofNat 64 i * BitVec.ofNat 64 2048) := by
  rcases i with _|_|_|_|_|_|_|_|_|_|_|_|_|_|_|_|_|i
  all_goals first | omega | rfl

-- 31 chunks, as in the repository's own test, with the table of the hasher and spare room behind the results
example : HashManyPre 16 (List.replicate 31 (rep 2048 5)) 31 32 2048 C.CHUNK_OFFSET_DELTAS (rep 1000 0) :=
  ⟨by simp, fun i hi => by rw [List.getD_eq_getElem?_getD, List.getElem?_replicate, if_pos hi]; simp, by simp,
    chunk_deltas⟩

-- 31 parent blocks
example : HashManyPre 16 (List.replicate 31 (rep 64 5)) 31 1 0 (List.replicate 17 0) (rep 992 0) :=
  ⟨by simp, fun i hi => by rw [List.getD_eq_getElem?_getD, List.getElem?_replicate, if_pos hi]; simp, by simp,
    fun i hi => by rw [List.getElem?_replicate, if_pos (by omega)]; simp⟩

/-- What the chaining value of 32 blocks is with the flags the hasher passes: that of the specified chunk. -/
theorem C32_chunk (key : Vector Word 8) (flags : Byte) (offset : Nat) (c : Bytes) (h : c.length = 2048) :
    Spec.blockChain key (BitVec.ofNat 64 offset) flags Spec.chunkStart Spec.chunkEnd 32 c =
      Spec.compress (Spec.chunk key flags offset c) := by
  rw [← C.cvLoop_chain key flags Spec.chunkStart Spec.chunkEnd _ 32 c (by omega), List.take_of_length_le (by omega)]
  exact cvLoop_chunk flags offset key _ c (by omega) (by intro e; rw [e] at h; cases h)

/-- ... and that of one block with the parent flag: the specified parent node. -/
theorem C32_parent (key : Vector Word 8) (flags : Byte) (l r : Vector Word 8) :
    Spec.blockChain key 0 (flags ||| Spec.parentFlag) 0 0 1 ((Spec.cvBytes l).toList ++ (Spec.cvBytes r).toList) =
      Spec.compress (Spec.parent key flags l r) := by
  have e : Spec.pad ((Spec.cvBytes l).toList ++ (Spec.cvBytes r).toList) = Spec.cvBytes l ++ Spec.cvBytes r := by
    rw [← Vector.toList_append, ← List.append_nil (_ ++ _ : Vector Byte 64).toList]
    exact pad_toList_append _ _
  have e2 : flags ||| Spec.parentFlag ||| 0 ||| 0 = flags ||| Spec.parentFlag := by simp
  rw [Spec.blockChain, List.range_one, List.foldl_cons, List.foldl_nil, List.drop_zero, e, if_pos rfl, if_pos rfl, e2]
  rfl

theorem offs_eq (off d : U64) (i : Nat) : offs off d i = off + BitVec.ofNat 64 i * d := by
  apply BitVec.eq_of_toNat_eq
  simp [offs, BitVec.toNat_add, BitVec.toNat_mul]

theorem lanesOut_eq (key : Vector Word 8) (off d : U64) (flags fs fe : Byte) (blocks : Nat) (xs : List Bytes)
    (hx : ∀ x ∈ xs, x.length = 64 * blocks) (i : Nat) :
    lanesOut key off d flags fs fe i xs =
      Spec.manyOut key (off + BitVec.ofNat 64 i * d) d flags fs fe blocks xs.length xs := by
  induction xs generalizing i with
  | nil => rfl
  | cons x xs ih =>
    have e : cvLoop flags fe (offs off d i) key (flags ||| fs) x =
        Spec.blockChain key (offs off d i) flags fs fe blocks x := by
      have hl := hx x (List.mem_cons_self ..)
      rw [← C.cvLoop_chain key flags fs fe _ blocks x (by omega), List.take_of_length_le (by omega)]
    have e2 : Spec.manyOut key (off + BitVec.ofNat 64 i * d) d flags fs fe blocks 1 (x :: xs) =
        (Spec.cvBytes (Spec.blockChain key (off + BitVec.ofNat 64 i * d) flags fs fe blocks x)).toList := by
      simp [Spec.manyOut]
    rw [lanesOut, ih (fun y hy => hx y (List.mem_cons_of_mem _ hy)), List.length_cons, Nat.add_comm xs.length 1,
      C.manyOut_add, e2, e, offs_eq, BitVec.add_assoc, ← BitVec.add_mul, ← BitVec.ofNat_add]
    rfl

/-- C08.  What the common result of the Rust functions is: the specified chaining values in the first
`32 * n` bytes and nothing else changed, a failed assertion if there is not enough room, an overflow if
the running offset (which is advanced after the last input, too) does not fit. -/
theorem C08_chaining_values (p : Platform) (blocks : Nat) (inputs : List Bytes)
    (hx : ∀ x ∈ inputs, x.length = 64 * blocks) (key : Vector Word 8) (offset delta : U64) (flags fs fe : Byte)
    (out : Bytes) :
    p.hash_many (64 * blocks) inputs key offset delta flags fs fe out =
      if out.length < 32 * inputs.length then .error .assert
      else if offset.toNat + inputs.length * delta.toNat < 2 ^ 64 then
        .ok (Spec.manyOut key offset delta flags fs fe blocks inputs.length inputs ++ out.drop (32 * inputs.length))
      else .error .overflow := by
  have hc : 64 * blocks % 64 = 0 := by omega
  have e : p.hash_many (64 * blocks) inputs key offset delta flags fs fe out =
      Portable.hash_many inputs key offset delta flags fs fe out := by
    cases p
    · rfl
    · exact sse41_hash_many_eq _ hc inputs key offset delta flags fs fe out hx
    · exact avx2_hash_many_eq _ hc inputs key offset delta flags fs fe out hx
  have h0 : offset + BitVec.ofNat 64 0 * delta = offset := by simp
  rw [e, hash_many_result _ hc inputs hx, lanesOut_eq key offset delta flags fs fe blocks inputs hx 0, h0]

example : ∀ x ∈ List.replicate 31 (rep 2048 5), x.length = 64 * 32 := by
  intro x h; rw [List.eq_of_mem_replicate h]; simp

/-- C32.  Whenever the Rust `hash_many` of any platform does not panic, every C function writes the same bytes
(the property the repository's tests sample with 31 inputs). -/
theorem C32_c_eq_rust (p : Platform) (blocks : Nat) (inputs : List Bytes)
    (hx : ∀ x ∈ inputs, x.length = 64 * blocks) (key : Vector Word 8) (offset d : U64) (deltas : List U64)
    (hd : ∀ i, i ≤ 16 → deltas[i]? = some (BitVec.ofNat 64 i * d)) (flags fs fe : Byte) (out out' : Bytes)
    (h : p.hash_many (64 * blocks) inputs key offset d flags fs fe out = .ok out') :
    C.Portable.hash_many_portable inputs inputs.length blocks key offset deltas flags fs fe out = .ok out' ∧
    C.Sse41.hash_many_sse41 inputs inputs.length blocks key offset deltas flags fs fe out = .ok out' ∧
    C.Avx2.hash_many_avx2 inputs inputs.length blocks key offset deltas flags fs fe out = .ok out' ∧
    C.Avx512.hash_many_avx512 inputs inputs.length blocks key offset deltas flags fs fe out = .ok out' ∧
    C.Neon.hash_many_neon .little inputs inputs.length blocks key offset deltas flags fs fe out = .ok out' := by
  rw [C08_chaining_values p blocks inputs hx] at h
  split at h
  · cases h
  next h1 =>
    split at h
    next h2 =>
      have p : HashManyPre 16 inputs inputs.length blocks d deltas out :=
        ⟨Nat.le_refl _, fun i hi => by
          rw [List.getD_eq_getElem?_getD, List.getElem?_eq_getElem hi]
          exact Nat.le_of_eq (hx _ (List.getElem_mem hi)).symm, by omega, hd⟩
      have a := C32_agree inputs inputs.length blocks key offset d deltas flags fs fe out p
      have e := (C32_portable inputs inputs.length blocks key offset d deltas flags fs fe out (p.mono (by decide))).trans h
      exact ⟨e, a.1.trans e, a.2.1.trans e, a.2.2.1.trans e, a.2.2.2.trans e⟩
    · cases h

end Baokeshed.Props
