import Verif.Model.UnitTest
import Verif.Props.RustTest
import Verif.Props.CExports
import Verif.Props.CHasher
import Verif.Props.C64
import Verif.Props.Copy
import Verif.Props.Cli

/-!
# C67: the tests inside the modules pass for every input

The tests of portable.rs, sse41.rs, avx2.rs, c.rs, portable64.rs, c64.rs, copy.rs and of the program compare two ways to
compute the same bytes on one input.  The theorems say that every comparison succeeds for every input of the shape that
the test uses, every key, offset and flags, on every machine.
-/

set_option linter.unusedVariables false
set_option linter.unusedSimpArgs false

namespace Baokeshed.Props
open Baokeshed.Model Baokeshed.Proofs

attribute [local irreducible] Spec.compress Spec.outBytes Spec.cvBytes Spec.pad
attribute [local irreducible] Spec64.compress Spec64.outBytes Spec64.cvBytes Spec64.pad

/-! ## pieces of a buffer -/

theorem window_ok (buf : Bytes) (off n : Nat) (h : off + n ≤ buf.length) :
    UT.window buf off n = .ok ((buf.drop off).take n) := by
  rw [UT.window, arrayRef, dif_pos h]
  refine congrArg Except.ok ?_
  apply List.ext_getElem
  · simp
  · intro i h1 h2
    simp

theorem windows_ok (buf : Bytes) (len n : Nat) : ∀ i, (i + n) * len ≤ buf.length →
    ∃ xs, UT.windows buf len n i = .ok xs ∧ xs.length = n ∧ (∀ x ∈ xs, x.length = len) ∧
      xs = (List.range' i n).map fun j => (buf.drop (j * len)).take len := by
  induction n with
  | zero => intro i _; exact ⟨[], rfl, rfl, by simp, rfl⟩
  | succ n ih =>
    intro i h
    have h1 : (i + 1 + n) * len = (i + (n + 1)) * len := by congr 1; omega
    have h2 : (i + (n + 1)) * len = i * len + len + n * len := by rw [Nat.add_mul, Nat.add_mul]; omega
    obtain ⟨xs, e, hl, hx, hm⟩ := ih (i + 1) (by omega)
    rw [UT.windows, window_ok _ _ _ (by omega), bind_ok, e, bind_ok]
    refine ⟨_, rfl, by rw [List.length_cons, hl], ?_, by rw [List.range'_succ, List.map_cons, ← hm]⟩
    intro x hx'
    rcases List.mem_cons.1 hx' with rfl | hx'
    · simp; omega
    · exact hx x hx'

theorem chain_1 (key : Vector Word 8) (offset : U64) (flags fs fe : Byte) (x : Bytes) :
    Spec.blockChain key offset flags fs fe 1 x = Spec.compress ⟨key, Spec.pad x, 64, offset, flags ||| fs ||| fe⟩ := by
  rw [Spec.blockChain, show List.range 1 = [0] from rfl]
  simp only [List.foldl_cons, List.foldl_nil, Nat.mul_zero, List.drop_zero, if_pos]

theorem chain_3 (key : Vector Word 8) (offset : U64) (flags fs fe : Byte) (x : Bytes) :
    Spec.blockChain key offset flags fs fe 3 x =
      Spec.compress ⟨Spec.compress ⟨Spec.compress ⟨key, Spec.pad x, 64, offset, flags ||| fs⟩,
        Spec.pad (x.drop 64), 64, offset, flags⟩, Spec.pad (x.drop 128), 64, offset, flags ||| fe⟩ := by
  rw [Spec.blockChain, show List.range 3 = [0, 1, 2] from rfl]
  simp [List.foldl_cons, List.foldl_nil]

/-! ## portable.rs -/

/-- C67.  `portable::tests::test_hash1_1` for every block, key, offset and flags -/
theorem C67_portable_hash1_1 (block : Vector Byte 64) (key : Vector Word 8) (offset : U64) (flags fs fe : Byte) :
    UT.portable_hash1_1_on block key offset flags fs fe = .ok () := by
  have hl : block.toList.length = 64 := Vector.length_toList
  rw [UT.portable_hash1_1_on, hash1_eq _ _ _ _ _ _ (by omega), bind_ok]
  have e := C.cvLoop_chain key flags fs fe offset 1 block.toList (by omega)
  rw [List.take_of_length_le (by omega)] at e
  rw [e, bytes_from_state_words_eq, compress_eq]
  have hp : Spec.pad block.toList = block := by
    have := pad_toList_append block []
    rwa [List.append_nil] at this
  rw [chain_1, hp, show (BitVec.ofNat 8 BLOCK_LEN) = (64 : Byte) from rfl]
  exact assertEq_self _

/-- C67.  `portable::tests::test_hash1_3` for every three blocks, key, offset and flags -/
theorem C67_portable_hash1_3 (blocks : Bytes) (hl : blocks.length = 192) (key : Vector Word 8) (offset : U64)
    (flags fs fe : Byte) : UT.portable_hash1_3_on blocks key offset flags fs fe = .ok () := by
  rw [UT.portable_hash1_3_on]
  simp only [BLOCK_LEN]
  rw [arrayRef_block _ _ (by omega), bind_ok, arrayRef_block _ _ (by omega), bind_ok, arrayRef_block _ _ (by omega), bind_ok,
    hash1_eq _ _ _ _ _ _ (by omega), bind_ok]
  have e := C.cvLoop_chain key flags fs fe offset 3 blocks (by omega)
  rw [List.take_of_length_le (by omega)] at e
  rw [e, bytes_from_state_words_eq, compress_eq, compress_eq, compress_eq]
  rw [chain_3, List.drop_zero, show (BitVec.ofNat 8 64) = (64 : Byte) from rfl, show 2 * 64 = 128 from rfl]
  exact assertEq_self _

theorem write_front (a x rest : Bytes) (off : Nat) (h : a.length = off) (n : Nat) (hn : x.length = n) :
    writeAt (a ++ (List.replicate n (0 : Byte) ++ rest)) off x = .ok (a ++ (x ++ rest)) := by
  subst h hn
  rw [writeAt, if_pos (by simp)]
  refine congrArg Except.ok ?_
  rw [List.take_left, ← List.append_assoc a, List.drop_left' (by simp), List.append_assoc]

/-- C67.  `portable::tests::test_hash_many` for every nine blocks, key, flags, and all offsets that do not overflow -/
theorem C67_portable_hash_many (input_buf : Bytes) (hl : input_buf.length = 576) (key : Vector Word 8) (offset delta : U64)
    (ho : offset.toNat + 3 * delta.toNat < 2 ^ 64) (flags fs fe : Byte) :
    UT.portable_hash_many_on input_buf key offset delta flags fs fe = .ok () := by
  rw [UT.portable_hash_many_on]
  simp only [BLOCK_LEN, OUT_LEN]
  rw [window_ok _ _ _ (by omega), bind_ok, window_ok _ _ _ (by omega), bind_ok, window_ok _ _ _ (by omega), bind_ok]
  generalize h0 : List.take (3 * 64) (List.drop (0 * 64) input_buf) = x0
  generalize h1 : List.take (3 * 64) (List.drop (3 * 64) input_buf) = x1
  generalize h2 : List.take (3 * 64) (List.drop (6 * 64) input_buf) = x2
  have l0 : x0.length = 192 := by rw [← h0]; simp; omega
  have l1 : x1.length = 192 := by rw [← h1]; simp; omega
  have l2 : x2.length = 192 := by rw [← h2]; simp; omega
  have hh : ∀ (x : Bytes) (off : U64), x.length = 192 →
      Portable.hash1 x key off flags fs fe = .ok (Spec.cvBytes (Spec.blockChain key off flags fs fe 3 x)) := by
    intro x off hx
    have e := C.cvLoop_chain key flags fs fe off 3 x (by omega)
    rw [List.take_of_length_le (by omega)] at e
    rw [hash1_eq _ _ _ _ _ _ (by omega), e]
  have lc : ∀ cv, (Spec.cvBytes cv).toList.length = 32 := fun cv => Vector.length_toList
  have m : ∀ k, k < 3 → mulU64 (BitVec.ofNat 64 k) delta = .ok (BitVec.ofNat 64 k * delta) := by
    intro k hk
    have : (BitVec.ofNat 64 k).toNat = k := by rw [BitVec.toNat_ofNat]; omega
    rw [mulU64, if_pos]
    rw [this]
    have : k * delta.toNat ≤ 3 * delta.toNat := Nat.mul_le_mul_right _ (by omega)
    omega
  have a : ∀ k, k < 3 → addU64 offset (BitVec.ofNat 64 k * delta) = .ok (offset + BitVec.ofNat 64 k * delta) := by
    intro k hk
    have e : (BitVec.ofNat 64 k).toNat = k := by rw [BitVec.toNat_ofNat]; omega
    have : k * delta.toNat ≤ 3 * delta.toNat := Nat.mul_le_mul_right _ (by omega)
    rw [addU64, if_pos]
    rw [BitVec.toNat_mul, e, Nat.mod_eq_of_lt (by omega)]
    omega
  have hz1 : writeAt (List.replicate (3 * 32) (0 : Byte)) = writeAt
      ([] ++ (List.replicate 32 0 ++ (List.replicate 32 0 ++ (List.replicate 32 0 ++ [])))) := rfl
  have e0 := m 0 (by omega); have e1 := m 1 (by omega); have e2 := m 2 (by omega)
  have f0 := a 0 (by omega); have f1 := a 1 (by omega); have f2 := a 2 (by omega)
  have many' := C08_chaining_values .portable 3 [x0, x1, x2] (by simp [l0, l1, l2]) key offset delta flags fs fe (List.replicate (32 * 3) 0)
  rw [if_neg (by simp), if_pos (by simpa using ho)] at many'
  rw [show mulU64 0 delta = _ from e0, bind_ok, f0, bind_ok, hh _ _ l0, bind_ok, hz1, write_front [] _ _ (0 * 32) rfl 32 (lc _), bind_ok,
    show mulU64 1 delta = _ from e1, bind_ok, f1, bind_ok, hh _ _ l1, bind_ok, List.nil_append,
    write_front _ _ _ _ (by rw [lc]) 32 (lc _), bind_ok,
    show mulU64 2 delta = _ from e2, bind_ok, f2, bind_ok, hh _ _ l2, bind_ok, ← List.append_assoc,
    write_front _ _ _ _ (by rw [List.length_append, lc, lc]) 32 (lc _), bind_ok,
    show Portable.hash_many [x0, x1, x2] key offset delta flags fs fe _ = _ from many', bind_ok]
  have : Spec.manyOut key offset delta flags fs fe 3 [x0, x1, x2].length [x0, x1, x2] ++
      List.drop (32 * [x0, x1, x2].length) (List.replicate (32 * 3) (0 : Byte)) =
      (Spec.cvBytes (Spec.blockChain key (offset + BitVec.ofNat 64 0 * delta) flags fs fe 3 x0)).toList ++
        ((Spec.cvBytes (Spec.blockChain key (offset + BitVec.ofNat 64 1 * delta) flags fs fe 3 x1)).toList ++
        ((Spec.cvBytes (Spec.blockChain key (offset + BitVec.ofNat 64 2 * delta) flags fs fe 3 x2)).toList ++ [])) := by
    rw [show List.drop (32 * [x0, x1, x2].length) (List.replicate (32 * 3) (0 : Byte)) = [] from rfl, List.append_nil, Spec.manyOut,
      show List.range [x0, x1, x2].length = [0, 1, 2] from rfl]
    simp only [List.flatMap_cons, List.flatMap_nil]
    rfl
  rw [RT.assertEq, if_pos (by rw [this]; simp only [List.append_assoc, List.append_nil])]

/-! ## sse41.rs and avx2.rs -/

theorem get4 {α} (x : Vector α 4) (f : Nat → α) (e : x = #v[f 0, f 1, f 2, f 3]) (j : Nat) (hj : j < 4) : x[j] = f j := by
  subst e
  rcases j with _|_|_|_|j
  all_goals first | rfl | omega

theorem get8 {α} (x : Vector α 8) (f : Nat → α) (e : x = #v[f 0, f 1, f 2, f 3, f 4, f 5, f 6, f 7]) (j : Nat) (hj : j < 8) :
    x[j] = f j := by
  subst e
  rcases j with _|_|_|_|_|_|_|_|j
  all_goals first | rfl | omega

theorem transpose4_get (a b c d : M128) (j : Nat) (hj : j < 4) : (Sse41.transpose_vecs #v[a, b, c, d])[j] =
    mm_setr_epi32 (lane 32 a j) (lane 32 b j) (lane 32 c j) (lane 32 d j) :=
  get4 _ (fun j => mm_setr_epi32 (lane 32 a j) (lane 32 b j) (lane 32 c j) (lane 32 d j)) (transpose4 a b c d) j hj

theorem transpose8_get (a b c d e f g h : M256) (j : Nat) (hj : j < 8) : (Avx2.transpose_vecs #v[a, b, c, d, e, f, g, h])[j] =
    col8 a b c d e f g h j :=
  get8 _ (col8 a b c d e f g h) (transpose8 a b c d e f g h) j hj

theorem lane_pack8 (a b c d e f g h : Word) (i : Nat) (hi : i < 8) :
    lane 32 (pack8 a b c d e f g h) i = #v[a, b, c, d, e, f, g, h][i] := by
  rcases i with _|_|_|_|_|_|_|_|i
  · exact p8_0 ..
  · exact p8_1 ..
  · exact p8_2 ..
  · exact p8_3 ..
  · exact p8_4 ..
  · exact p8_5 ..
  · exact p8_6 ..
  · exact p8_7 ..
  · omega

theorem vec4 {α} (a : Vector α 4) : a = #v[a[0], a[1], a[2], a[3]] := by
  apply Vector.ext; intro k hk
  rcases k with _|_|_|_|k
  all_goals first | rfl | omega

theorem vec8 {α} (a : Vector α 8) : a = #v[a[0], a[1], a[2], a[3], a[4], a[5], a[6], a[7]] := by
  apply Vector.ext; intro k hk
  rcases k with _|_|_|_|_|_|_|_|k
  all_goals first | rfl | omega

theorem lane_row4 (r : Vector Word 4) (k : Nat) (hk : k < 4) : lane 32 (UT.ofRow4 r) k = r[k] := by
  rw [UT.ofRow4, lane_setr _ _ _ _ _ hk]
  rcases k with _|_|_|_|k
  all_goals first | rfl | omega

theorem lane_row8 (r : Vector Word 8) (k : Nat) (hk : k < 8) : lane 32 (UT.ofRow8 r) k = r[k] := by
  rw [UT.ofRow8, lane256_setr _ _ _ _ _ _ _ _ _ hk]
  rcases k with _|_|_|_|_|_|_|_|k
  all_goals first | rfl | omega

/-- C67.  The transposition that `test_transpose` of sse41.rs and avx2.rs checks, for every matrix -/
theorem C67_transposed (a : Vector (Vector Word 4) 4) (b : Vector (Vector Word 8) 8) :
    (∀ i j (hi : i < 4) (hj : j < 4), (UT.sse41_transposed a)[j][i] = a[i][j]) ∧
    ∀ i j (hi : i < 8) (hj : j < 8), (UT.avx2_transposed b)[j][i] = b[i][j] := by
  refine ⟨fun i j hi hj => ?_, fun i j hi hj => ?_⟩
  · rw [UT.sse41_transposed, vec4 (a.map UT.ofRow4), Vector.getElem_map, transpose4_get _ _ _ _ j hj, UT.toRow4, Vector.getElem_ofFn,
      lane_setr _ _ _ _ _ hi]
    simp only [Vector.getElem_map]
    rw [lane_row4 _ _ hj, lane_row4 _ _ hj, lane_row4 _ _ hj, lane_row4 _ _ hj]
    rcases i with _|_|_|_|i
    all_goals first | rfl | omega
  · rw [UT.avx2_transposed, vec8 (b.map UT.ofRow8), Vector.getElem_map, transpose8_get _ _ _ _ _ _ _ _ j hj, UT.toRow8,
      Vector.getElem_ofFn, col8, lane_pack8 _ _ _ _ _ _ _ _ _ hi]
    simp only [Vector.getElem_map, lane_row8 _ _ hj]
    rcases i with _|_|_|_|_|_|_|_|i
    all_goals first | rfl | omega

/-- C67.  `test_transpose` of sse41.rs and avx2.rs -/
theorem C67_test_transpose (cfg : Config) : UT.sse41_test_transpose cfg = .ok () ∧ UT.avx2_test_transpose cfg = .ok () := by
  refine ⟨?_, ?_⟩
  · rw [UT.sse41_test_transpose]
    split
    · rfl
    · refine forEach_ok _ _ fun i _ => forEach_ok _ _ fun j _ => ?_
      rw [(C67_transposed _ (Vector.replicate 8 (Vector.replicate 8 0))).1 i.val j.val i.isLt j.isLt, Vector.getElem_ofFn, Vector.getElem_ofFn]
      exact assertEq_self _
  · rw [UT.avx2_test_transpose]
    split
    · rfl
    · refine forEach_ok _ _ fun i _ => forEach_ok _ _ fun j _ => ?_
      rw [(C67_transposed (Vector.replicate 4 (Vector.replicate 4 0)) _).2 i.val j.val i.isLt j.isLt, Vector.getElem_ofFn, Vector.getElem_ofFn]
      exact assertEq_self _

/-- C67.  `test_compress` and `test_compress_xof` of sse41.rs for all arguments -/
theorem C67_sse41_compress (cv : Vector Word 8) (block : Vector Byte 64) (block_len : Byte) (offset : U64) (flags : Byte) :
    UT.sse41_compress_on cv block block_len offset flags = .ok () ∧
    UT.sse41_compress_xof_on cv block block_len offset flags = .ok () := by
  rw [UT.sse41_compress_on, UT.sse41_compress_xof_on, (C07_sse41_compress ..).1, (C07_sse41_compress ..).2]
  exact ⟨assertEq_self _, assertEq_self _⟩

theorem parents_out_ok (key : Vector Word 8) (flags : Byte) (xs : List Bytes) (hx : ∀ x ∈ xs, x.length = 64) :
    UT.parents_out key flags xs =
      .ok (xs.flatMap fun x => (Spec.cvBytes (Spec.compress ⟨key, Spec.pad x, 64, 0, flags⟩)).toList) := by
  induction xs with
  | nil => rfl
  | cons x xs ih =>
    have := hx x (by simp)
    rw [UT.parents_out]
    simp only [BLOCK_LEN]
    rw [arrayRef_block _ _ (by omega), bind_ok, ih (fun x h => hx x (by simp [h])), bind_ok, List.drop_zero, bytes_from_state_words_eq,
      compress_eq]
    rfl

theorem parents_many (key : Vector Word 8) (flags : Byte) (xs : List Bytes) :
    Spec.manyOut key 0 0 0 flags 0 1 xs.length xs =
      xs.flatMap fun x => (Spec.cvBytes (Spec.compress ⟨key, Spec.pad x, 64, 0, flags⟩)).toList := by
  rw [Spec.manyOut, List.flatMap_def, List.flatMap_def]
  congr 1
  apply List.ext_getElem
  · simp
  · intro i h1 h2
    have hi : i < xs.length := by simpa using h1
    rw [List.getElem_map, List.getElem_map, List.getElem_range, chain_1, show (0 : U64) + BitVec.ofNat 64 i * 0 = 0 by rw [show (0 : U64) = 0#64 from rfl, BitVec.mul_zero]; rfl,
      or_zero8, show (0 : Byte) ||| flags = flags from BitVec.zero_or,
      List.getD_eq_getElem?_getD, List.getElem?_eq_getElem hi]
    rfl

theorem pointers_ok (n : Nat) (xs : List Bytes) (h : xs.length = n) : ∃ v : Vector Bytes n, UT.pointers n xs = .ok v ∧ v.toList = xs := by
  subst h
  rw [UT.pointers, arrayRef, dif_pos (by omega)]
  exact ⟨_, rfl, by simp⟩

/-- C67.  `test_parents` of sse41.rs and avx2.rs for all parents, keys and flags -/
theorem C67_parents (input : Bytes) (key : Vector Word 8) (flags : Byte) :
    (input.length = 256 → UT.sse41_parents_on input key flags = .ok ()) ∧
    (input.length = 512 → UT.avx2_parents_on input key flags = .ok ()) := by
  refine ⟨fun hl => ?_, fun hl => ?_⟩
  · obtain ⟨xs, e, hn, hx, -⟩ := windows_ok input 64 4 0 (by omega)
    obtain ⟨v, ev, hv⟩ := pointers_ok 4 xs hn
    rw [UT.sse41_parents_on]
    simp only [BLOCK_LEN, OUT_LEN]
    rw [e, bind_ok, parents_out_ok _ _ _ hx, bind_ok, ev, bind_ok, C54_rust_hash4 v 1 key 0 0 0 flags 0 _ (fun i hi => hx _ (by
      rw [← hv]; exact Vector.mem_toList_iff.2 (Vector.getElem_mem hi))) List.length_replicate, if_pos (by decide), bind_ok, hv, ← parents_many, hn]
    exact assertEq_self _
  · obtain ⟨xs, e, hn, hx, -⟩ := windows_ok input 64 8 0 (by omega)
    obtain ⟨v, ev, hv⟩ := pointers_ok 8 xs hn
    rw [UT.avx2_parents_on]
    simp only [BLOCK_LEN, OUT_LEN]
    rw [e, bind_ok, parents_out_ok _ _ _ hx, bind_ok, ev, bind_ok, C54_rust_hash8 v 1 key 0 0 0 flags 0 _ (fun i hi => hx _ (by
      rw [← hv]; exact Vector.mem_toList_iff.2 (Vector.getElem_mem hi))) List.length_replicate, if_pos (by decide), bind_ok, hv, ← parents_many, hn]
    exact assertEq_self _

theorem chunk_blocks_ok (offset : U64) (flags : Byte) (chunk : Bytes) (hl : chunk.length = 2048) (n : Nat) :
    ∀ (i : Nat) (cv : Vector Word 8), i + n = 32 →
    UT.chunk_blocks offset flags (chunksExact 64 (chunk.drop (64 * i))) i cv =
      .ok ((List.range' i n).foldl (fun cv b => Spec.compress ⟨cv, Spec.pad (chunk.drop (64 * b)), 64, offset,
        flags ||| (if b = 0 then Spec.chunkStart else 0) ||| (if b + 1 = 32 then Spec.chunkEnd else 0)⟩) cv) := by
  induction n with
  | zero =>
    intro i cv h
    rw [chunksExact_short _ _ (by simp; omega)]; rfl
  | succ n ih =>
    intro i cv h
    rw [chunksExact_step _ _ ⟨by decide, by simp; omega⟩, List.drop_drop, UT.chunk_blocks]
    simp only [BLOCK_LEN, CHUNK_LEN]
    rw [arrayRef_block _ _ (by simp; omega), bind_ok, List.drop_zero, pad_take, compress_eq, show 64 * i + 64 = 64 * (i + 1) by omega,
      ih _ _ (by omega), List.range'_succ, List.foldl_cons]
    have e1 : (i = 2048 / 64 - 1) = (i + 1 = 32) := by
      apply propext; omega
    have e2 : (if i = 2048 / 64 - 1 then (if i = 0 then flags ||| Flags.CHUNK_START else flags) ||| Flags.CHUNK_END else
        if i = 0 then flags ||| Flags.CHUNK_START else flags) =
        flags ||| (if i = 0 then Spec.chunkStart else 0) ||| (if i + 1 = 32 then Spec.chunkEnd else 0) := by
      simp only [e1]
      split <;> split <;> first | rfl | simp only [or_zero8] <;> rfl
    rw [e2]
    rfl

theorem chunks_out_ok (key : Vector Word 8) (offset : U64) (flags : Byte) (xs : List Bytes) (hx : ∀ x ∈ xs, x.length = 2048) :
    ∀ i, offset.toNat + (i + xs.length - 1) * 2048 < 2 ^ 64 →
    UT.chunks_out key offset flags xs i = .ok ((xs.zipIdx i).flatMap fun p =>
      (Spec.cvBytes (Spec.blockChain key (offset + BitVec.ofNat 64 p.2 * 2048) flags Spec.chunkStart Spec.chunkEnd 32 p.1)).toList) := by
  induction xs with
  | nil => intro i _; rfl
  | cons x xs ih =>
    intro i h
    have hl := hx x (by simp)
    rw [List.length_cons] at h
    have h' : (i + (xs.length + 1) - 1) * 2048 = i * 2048 + xs.length * 2048 := by
      rw [show i + (xs.length + 1) - 1 = i + xs.length by omega, Nat.add_mul]
    have hi : BitVec.ofNat 64 (i * 2048) = BitVec.ofNat 64 i * 2048 := by
      apply BitVec.eq_of_toNat_eq
      rw [BitVec.toNat_mul, BitVec.toNat_ofNat, BitVec.toNat_ofNat, show (2048 : U64).toNat = 2048 from rfl, Nat.mod_mul_mod]
    have hs : offset.toNat + i * 2048 < 2 ^ 64 := by
      rw [h'] at h
      exact Nat.lt_of_le_of_lt (by omega) h
    have hs' : (BitVec.ofNat 64 (i * 2048)).toNat = i * 2048 := by
      rw [BitVec.toNat_ofNat]
      exact Nat.mod_eq_of_lt (Nat.lt_of_le_of_lt (Nat.le_add_left _ _) hs)
    rw [UT.chunks_out]
    simp only [BLOCK_LEN, CHUNK_LEN]
    rw [addU64, if_pos (by rw [hs']; exact hs), bind_ok, hi]
    have e := chunk_blocks_ok (offset + BitVec.ofNat 64 i * 2048) flags x hl 32 0 key rfl
    rw [Nat.mul_zero, List.drop_zero] at e
    rw [e, bind_ok, ih (fun x h => hx x (by simp [h])) (i + 1) (by
      rw [show i + 1 + xs.length - 1 = i + (xs.length + 1) - 1 by omega]; exact h), bind_ok, pure_eq, bytes_from_state_words_eq,
      List.zipIdx_cons, List.flatMap_cons, ← List.range_eq_range', Spec.blockChain]

theorem chunks_many (key : Vector Word 8) (offset : U64) (flags fs fe : Byte) (blocks : Nat) (xs : List Bytes) :
    Spec.manyOut key offset 2048 flags fs fe blocks xs.length xs = xs.zipIdx.flatMap fun p =>
      (Spec.cvBytes (Spec.blockChain key (offset + BitVec.ofNat 64 p.2 * 2048) flags fs fe blocks p.1)).toList := by
  rw [Spec.manyOut, List.flatMap_def, List.flatMap_def]
  congr 1
  apply List.ext_getElem
  · simp
  · intro i h1 h2
    have hi : i < xs.length := by simpa using h1
    rw [List.getElem_map, List.getElem_map, List.getElem_range, List.getElem_zipIdx,
      List.getD_eq_getElem?_getD, List.getElem?_eq_getElem hi, Nat.zero_add]
    rfl

/-- C67.  `test_chunks` of sse41.rs and avx2.rs for all chunks, keys, flags, and all offsets that do not overflow -/
theorem C67_chunks (input : Bytes) (key : Vector Word 8) (offset : U64) (flags : Byte) :
    (input.length = 8192 → offset.toNat + 3 * 2048 < 2 ^ 64 → UT.sse41_chunks_on input key offset flags = .ok ()) ∧
    (input.length = 16384 → offset.toNat + 7 * 2048 < 2 ^ 64 → UT.avx2_chunks_on input key offset flags = .ok ()) := by
  refine ⟨fun hl ho => ?_, fun hl ho => ?_⟩
  · obtain ⟨xs, e, hn, hx, -⟩ := windows_ok input 2048 4 0 (by omega)
    obtain ⟨v, ev, hv⟩ := pointers_ok 4 xs hn
    rw [UT.sse41_chunks_on]
    simp only [BLOCK_LEN, CHUNK_LEN, OUT_LEN]
    rw [e, bind_ok, chunks_out_ok _ _ _ _ hx 0 (by rw [hn]; omega), bind_ok, ev, bind_ok,
      C54_rust_hash4 v 32 key offset _ flags _ _ _ (fun i hi => hx _ (by
        rw [← hv]; exact Vector.mem_toList_iff.2 (Vector.getElem_mem hi))) List.length_replicate,
      if_pos (by rw [show (BitVec.ofNat 64 2048).toNat = 2048 from rfl]; exact ho), bind_ok, hv]
    have := chunks_many key offset flags Spec.chunkStart Spec.chunkEnd 32 xs
    rw [hn] at this
    rw [← this]
    exact assertEq_self _
  · obtain ⟨xs, e, hn, hx, -⟩ := windows_ok input 2048 8 0 (by omega)
    obtain ⟨v, ev, hv⟩ := pointers_ok 8 xs hn
    rw [UT.avx2_chunks_on]
    simp only [BLOCK_LEN, CHUNK_LEN, OUT_LEN]
    rw [e, bind_ok, chunks_out_ok _ _ _ _ hx 0 (by rw [hn]; omega), bind_ok, ev, bind_ok,
      C54_rust_hash8 v 32 key offset _ flags _ _ _ (fun i hi => hx _ (by
        rw [← hv]; exact Vector.mem_toList_iff.2 (Vector.getElem_mem hi))) List.length_replicate,
      if_pos (by rw [show (BitVec.ofNat 64 2048).toNat = 2048 from rfl]; exact ho), bind_ok, hv]
    have := chunks_many key offset flags Spec.chunkStart Spec.chunkEnd 32 xs
    rw [hn] at this
    rw [← this]
    exact assertEq_self _

/-- C67.  `test_hash1_1` and `test_hash1_3` of sse41.rs for every number of whole blocks -/
theorem C67_sse41_hash1 (blocks : Bytes) (hl : blocks.length % 64 = 0) (key : Vector Word 8) (offset : U64) (flags fs fe : Byte) :
    UT.sse41_hash1_on blocks key offset flags fs fe = .ok () := by
  rw [UT.sse41_hash1_on, sse41_hash1_eq, hash1_eq _ _ _ _ _ _ hl, bind_ok, bind_ok]
  exact assertEq_self _

/-- C67.  `test_hash_many` of sse41.rs and avx2.rs for any number of inputs of any number of blocks -/
theorem C67_simd_hash_many (blocks num : Nat) (input_buf : Bytes) (hl : num * (blocks * 64) ≤ input_buf.length)
    (key : Vector Word 8) (offset delta : U64) (ho : offset.toNat + num * delta.toNat < 2 ^ 64) (flags fs fe : Byte) :
    UT.simd_hash_many_on Sse41.hash_many blocks num input_buf key offset delta flags fs fe = .ok () ∧
    UT.simd_hash_many_on Avx2.hash_many blocks num input_buf key offset delta flags fs fe = .ok () := by
  obtain ⟨xs, e, hn, hx, -⟩ := windows_ok input_buf (blocks * 64) num 0 (by rwa [Nat.zero_add])
  obtain ⟨h1, h2⟩ := C08_simd_hash_many (blocks * 64) (Nat.mul_mod_left _ _) xs hx key offset delta flags fs fe (List.replicate (32 * num) 0)
  have h3 := C08_chaining_values .portable blocks xs (by rwa [Nat.mul_comm] at hx) key offset delta flags fs fe (List.replicate (32 * num) 0)
  rw [if_neg (by simp [hn]), if_pos (by rw [hn]; exact ho)] at h3
  have h3 : Portable.hash_many xs key offset delta flags fs fe (List.replicate (32 * num) 0) = _ := h3
  rw [h3] at h1 h2
  rw [UT.simd_hash_many_on, UT.simd_hash_many_on]
  simp only [BLOCK_LEN, OUT_LEN]
  rw [e, bind_ok, bind_ok, h3, bind_ok, bind_ok, h1, h2, bind_ok]
  exact ⟨assertEq_self _, assertEq_self _⟩

/-! ## c.rs -/

/-- C67.  The tests of the C compression functions for all arguments -/
theorem C67_c_compress (cv : Vector Word 8) (block : Vector Byte 64) (block_len : Byte) (offset : U64) (flags : Byte) :
    UT.compare_compress_on C.Portable.compress_portable cv block block_len offset flags = .ok () ∧
    UT.compare_compress_on C.Sse41.compress_sse41 cv block block_len offset flags = .ok () ∧
    UT.compare_compress_on C.Avx512.compress_avx512 cv block block_len offset flags = .ok () := by
  obtain ⟨h1, h2, h3⟩ := C31_c_eq_rust cv block block_len offset flags
  rw [(C07_sse41_compress ..).1] at h2
  rw [UT.compare_compress_on, UT.compare_compress_on, UT.compare_compress_on, h1, h2, h3]
  exact ⟨assertEq_self _, assertEq_self _, assertEq_self _⟩

theorem compare_out_ok (num : Nat) (out : Bytes) (h : 32 * num ≤ out.length) : UT.compare_out num out out = .ok () := by
  refine forEach_ok _ _ fun n hn => ?_
  have hn := List.mem_range.1 hn
  simp only [OUT_LEN]
  rw [sliceFrom, if_pos (by omega), bind_ok, sliceTo, if_pos (by simp; omega), bind_ok, bind_ok, sliceTo,
    if_pos (by simp; omega), bind_ok]
  exact assertEq_self (List.take 32 (List.drop (n * 32) out))

theorem chunk_table (i : Nat) (hi : i ≤ 16) : UT.CHUNK_OFFSET_DELTAS[i]? = some (BitVec.ofNat 64 i * 2048) := by
  have : ∀ i : Fin 17, UT.CHUNK_OFFSET_DELTAS[i.val]? = some (BitVec.ofNat 64 i.val * 2048) := by decide
  exact this ⟨i, by omega⟩

theorem parent_table (i : Nat) (hi : i ≤ 16) : UT.PARENT_OFFSET_DELTAS[i]? = some (BitVec.ofNat 64 i * 0) := by
  have : ∀ i : Fin 17, UT.PARENT_OFFSET_DELTAS[i.val]? = some (BitVec.ofNat 64 i.val * 0) := by decide
  exact this ⟨i, by omega⟩

/-- C67.  The tests of the C functions that hash many inputs, for any number of chunks and parents, any bytes, key and
offset, against the Rust function for any machine -/
theorem C67_c_hash_many (cfg : Config) (num : Nat) (input_buf : Bytes) (hl : num * 2048 ≤ input_buf.length)
    (key : Vector Word 8) (offset : U64) (ho : offset.toNat + num * 2048 < 2 ^ 64) :
    UT.compare_hash_many_on cfg C.Portable.hash_many_portable num input_buf key offset = .ok () ∧
    UT.compare_hash_many_on cfg C.Sse41.hash_many_sse41 num input_buf key offset = .ok () ∧
    UT.compare_hash_many_on cfg C.Avx2.hash_many_avx2 num input_buf key offset = .ok () ∧
    UT.compare_hash_many_on cfg C.Avx512.hash_many_avx512 num input_buf key offset = .ok () ∧
    UT.compare_hash_many_on cfg (C.Neon.hash_many_neon .little) num input_buf key offset = .ok () := by
  obtain ⟨xs, ex, hxn, hx, -⟩ := windows_ok input_buf 2048 num 0 (by rwa [Nat.zero_add])
  obtain ⟨ys, ey, hyn, hy, -⟩ := windows_ok input_buf 64 num 0 (by omega)
  have hr := C08_chaining_values (Platform.detect cfg) 32 xs hx key offset 2048 Flags.KEYED_HASH Flags.CHUNK_START Flags.CHUNK_END
    (List.replicate (num * 32) 0)
  rw [if_neg (by rw [List.length_replicate, hxn]; omega), if_pos (by rw [hxn]; exact ho)] at hr
  have hs := C08_chaining_values (Platform.detect cfg) 1 ys hy key 0 0 Flags.PARENT 0 0 (List.replicate (num * 32) 0)
  rw [if_neg (by rw [List.length_replicate, hyn]; omega), if_pos (by
    rw [show (0 : U64).toNat = 0 from rfl, Nat.mul_zero]; decide)] at hs
  obtain ⟨a1, a2, a3, a4, a5⟩ := C32_c_eq_rust (Platform.detect cfg) 32 xs hx key offset 2048 _ chunk_table Flags.KEYED_HASH Flags.CHUNK_START
    Flags.CHUNK_END _ _ hr
  obtain ⟨b1, b2, b3, b4, b5⟩ := C32_c_eq_rust (Platform.detect cfg) 1 ys hy key 0 0 _ parent_table Flags.PARENT 0 0 _ _ hs
  rw [hxn] at a1 a2 a3 a4 a5 hr
  rw [hyn] at b1 b2 b3 b4 b5 hs
  have la : 32 * num ≤ (Spec.manyOut key offset 2048 Flags.KEYED_HASH Flags.CHUNK_START Flags.CHUNK_END 32 num xs ++
      List.drop (32 * num) (List.replicate (num * 32) (0 : Byte))).length := by
    rw [List.length_append, C.length_manyOut]; omega
  have lb : 32 * num ≤ (Spec.manyOut key 0 0 Flags.PARENT 0 0 1 num ys ++
      List.drop (32 * num) (List.replicate (num * 32) (0 : Byte))).length := by
    rw [List.length_append, C.length_manyOut]; omega
  have all : ∀ f : UT.HashManyFn,
      f xs num 32 key offset UT.CHUNK_OFFSET_DELTAS Flags.KEYED_HASH Flags.CHUNK_START Flags.CHUNK_END (List.replicate (num * 32) 0) =
        (.ok (Spec.manyOut key offset 2048 Flags.KEYED_HASH Flags.CHUNK_START Flags.CHUNK_END 32 num xs ++
          List.drop (32 * num) (List.replicate (num * 32) 0)) : R Bytes) →
      f ys num 1 key 0 UT.PARENT_OFFSET_DELTAS Flags.PARENT 0 0 (List.replicate (num * 32) 0) =
        (.ok (Spec.manyOut key 0 0 Flags.PARENT 0 0 1 num ys ++ List.drop (32 * num) (List.replicate (num * 32) 0)) : R Bytes) →
      UT.compare_hash_many_on cfg f num input_buf key offset = .ok () := by
    intro f h1 h2
    rw [UT.compare_hash_many_on]
    simp only [BLOCK_LEN, CHUNK_LEN, OUT_LEN]
    rw [ex, bind_ok, show (Platform.detect cfg).hash_many 2048 xs key offset (BitVec.ofNat 64 2048) _ _ _ _ = _ from hr, bind_ok,
      show 2048 / 64 = 32 from rfl, h1, bind_ok, compare_out_ok num _ la, bind_ok, ey, bind_ok,
      show (Platform.detect cfg).hash_many 64 ys key 0 0 _ _ _ _ = _ from hs, bind_ok, h2, bind_ok, compare_out_ok num _ lb]
  exact ⟨all _ a1 b1, all _ a2 b2, all _ a3 b3, all _ a4 b4, all _ a5 b5⟩

theorem c_chunk_bytes_eq (ccfg : C.Config) (input : Bytes) : ∀ s,
    UT.c_chunk_bytes ccfg input s = chunkCalls ccfg s (input.map fun b => [b]) := by
  induction input with
  | nil => intro s; rfl
  | cons b input ih =>
    intro s
    rw [UT.c_chunk_bytes, List.map_cons, chunkCalls]
    exact congrArg _ (funext fun s => ih s)

theorem flatten_bytes (input : Bytes) : (input.map fun b => [b]).flatten = input := by
  induction input with
  | nil => rfl
  | cons b input ih => rw [List.map_cons, List.flatten_cons, ih]; rfl

/-- C67.  `test_compare_hash_chunk` for every input of at most a chunk, every key and flags, every Rust machine and C build -/
theorem C67_c_chunk (cfg : Config) (ccfg : C.Config) (h16 : 16 ≤ ccfg.bits) (key : Vector Word 8) (flags : Byte) (is_root : IsRoot)
    (input : Bytes) (hl : input.length ≤ 2048) : UT.compare_hash_chunk_on cfg ccfg key flags is_root input = .ok () := by
  obtain ⟨s, e1, hs⟩ := (ChunkOk.fresh key flags (Platform.detect cfg) 0).update input (by simpa using hl)
  obtain ⟨o, e2, -, ho⟩ := hs.finalize is_root (fun _ => rfl)
  have hroot : is_root.flag = if decide (is_root.flag > 0) then Spec.rootFlag else 0 := by cases is_root <;> decide
  have hc : ∀ pieces : List Bytes, pieces.flatten = input →
      ∃ s, chunkCalls ccfg (C.chunk_state_init key flags) pieces = .ok s ∧
        UT.c_chunk_finalize ccfg s (decide (is_root.flag > 0)) = .ok o.to_hash := by
    intro pieces hp
    have h := C55_chunk_state ccfg h16 key flags pieces (decide (is_root.flag > 0)) (List.replicate C.OUT_LEN 0) (by simp [C.OUT_LEN])
    obtain ⟨s, hs, h⟩ := C.bind_inv h
    refine ⟨s, hs, ?_⟩
    rw [UT.c_chunk_finalize]
    have h : C.chunk_state_finalize ccfg s (decide (is_root.flag > 0)) (List.replicate OUT_LEN 0) = _ := h
    rw [h, bind_ok, hp, show (0 : U64) = BitVec.ofNat 64 0 from rfl, C55_chunk_spec _ _ _ _ _ (by omega), to_hash_eq, ho, List.nil_append,
      ← hroot, List.drop_of_length_le (by simp [C.OUT_LEN]), List.append_nil]
    exact arrayRef_toList _
  obtain ⟨s1, f1, g1⟩ := hc [input] (by simp)
  obtain ⟨s2, f2, g2⟩ := hc _ (flatten_bytes input)
  rw [← c_chunk_bytes_eq] at f2
  have f3 : (C.chunk_state_update ccfg (C.chunk_state_init key flags) input input.length >>= fun s => Except.ok s) = .ok s1 := f1
  obtain ⟨s1', f4, f1'⟩ := C.bind_inv f3
  obtain rfl : s1' = s1 := by cases f1'; rfl
  rw [UT.compare_hash_chunk_on, show (ChunkState.new cfg key flags).update input = _ from e1, bind_ok, e2, bind_ok]
  dsimp only
  rw [show UT.c_chunk_update ccfg (UT.c_chunk_new key flags) input = _ from f4, bind_ok, g1, bind_ok, assertEq_self, bind_ok,
    show UT.c_chunk_bytes ccfg input (UT.c_chunk_new key flags) = _ from f2, bind_ok, g2, bind_ok, assertEq_self]

theorem c_hasher_bytes_eq (ccfg : C.Config) (input : Bytes) : ∀ h,
    UT.c_hasher_bytes ccfg input h = feed ccfg h (input.map fun b => ([b], [])) := by
  induction input with
  | nil => intro h; rfl
  | cons b input ih =>
    intro h
    rw [UT.c_hasher_bytes, List.map_cons, feed]
    exact congrArg _ (funext fun h => ih h)

theorem fed_bytes (input : Bytes) : fed (input.map fun b => ([b], [])) = input := by
  induction input with
  | nil => rfl
  | cons b input ih => rw [List.map_cons, fed_cons, ih]; rfl

/-- C67.  `test_compare_hash_tree` for every input below 2^63 bytes, every key and flags, every Rust machine and C build -/
theorem C67_c_tree (cfg : Config) (ccfg : C.Config) (h16 : 16 ≤ ccfg.bits) (hn : NeonLittle ccfg) (mem mem' : Vector Byte 1664)
    (key : Vector Word 8) (flags : Byte) (input : Bytes) (hw : input.length < 2 ^ cfg.usizeBits) (hl : input.length < 2 ^ 63) :
    UT.compare_hash_tree_on cfg ccfg mem mem' key flags input = .ok () := by
  obtain ⟨o, e, -, ho⟩ := hash_internal_eq key flags cfg input hw (by omega)
  have hc : ∀ (mem : Vector Byte 1664) (ss : List (Bytes × Bytes)), fed ss = input →
      ∃ h0 h, C.Ffi.new mem (bytes_from_state_words key) flags = .ok h0 ∧ feed ccfg h0 ss = .ok h ∧
        C.Ffi.finalize ccfg h = .ok o.to_hash := by
    intro mem ss hss
    obtain ⟨h0, e0, hok0⟩ := C.init_ok mem.toList (bytes_from_state_words key) [] flags
    obtain ⟨h1, e1, hok1⟩ := feed_ok ccfg h16 ss [] h0 hok0 ⟨by simp [hss]; omega, Or.inr ⟨by simp, by simpa [hss] using hl⟩, fun _ => by
      left; rw [List.length_nil, hss]; omega, .inl hn⟩
    rw [List.append_nil] at e0
    refine ⟨h0, h1, e0, e1, ?_⟩
    have e2 := C.finalize_sim _ _ h16 _ h1 hok1 (by simp [hss]; omega) (List.replicate C.OUT_LEN 0) (by simp [C.OUT_LEN])
    rw [C.Ffi.finalize, e2, bind_ok, List.nil_append, hss, C34_words_roundtrip, to_hash_eq, ho,
      List.drop_of_length_le (by simp [C.OUT_LEN]), List.append_nil]
    exact arrayRef_toList _
  obtain ⟨h0, h1, e0, e1, e2⟩ := hc mem [(input, [])] (by simp [fed])
  obtain ⟨g0, g1, f0, f1, f2⟩ := hc mem' _ (fed_bytes input)
  rw [← c_hasher_bytes_eq] at f1
  have e3 : (C.hasher_update ccfg h0 (input ++ []) input.length >>= fun h => Except.ok h) = .ok h1 := e1
  obtain ⟨h1', e4, e1'⟩ := C.bind_inv e3
  obtain rfl : h1' = h1 := by cases e1'; rfl
  rw [List.append_nil] at e4
  unfold UT.compare_hash_tree_on
  dsimp only
  rw [e, bind_ok, e0, bind_ok, show C.Ffi.update ccfg h0 input = _ from e4, bind_ok, e2, bind_ok, assertEq_self, bind_ok, f0, bind_ok, f1, bind_ok,
    f2, bind_ok, assertEq_self]

/-! ## portable64.rs -/

theorem chain64_1 (key : Vector U64 4) (offset : U64) (flags fs fe : Byte) (x : Bytes) :
    Spec64.blockChain key offset flags fs fe 1 x = Spec64.compress ⟨key, Spec64.pad x, 128, offset, flags ||| fs ||| fe⟩ := by
  rw [Spec64.blockChain, show List.range 1 = [0] from rfl]
  simp only [List.foldl_cons, List.foldl_nil, Nat.mul_zero, List.drop_zero, if_pos]

theorem chain64_3 (key : Vector U64 4) (offset : U64) (flags fs fe : Byte) (x : Bytes) :
    Spec64.blockChain key offset flags fs fe 3 x =
      Spec64.compress ⟨Spec64.compress ⟨Spec64.compress ⟨key, Spec64.pad x, 128, offset, flags ||| fs⟩,
        Spec64.pad (x.drop 128), 128, offset, flags⟩, Spec64.pad (x.drop 256), 128, offset, flags ||| fe⟩ := by
  rw [Spec64.blockChain, show List.range 3 = [0, 1, 2] from rfl]
  simp [List.foldl_cons, List.foldl_nil]

/-- C67.  `portable64::tests::test_hash1_1` for every block, key, offset and flags -/
theorem C67_portable64_hash1_1 (block : Vector Byte 128) (key : Vector U64 4) (offset : U64) (flags fs fe : Byte) :
    UT.portable64_hash1_1_on block key offset flags fs fe = .ok () := by
  have hl : block.toList.length = 128 := Vector.length_toList
  rw [UT.portable64_hash1_1_on, W64.hash1_eq _ _ _ _ _ _ (by omega), bind_ok]
  have e := W64.cvLoop_chain key flags fs fe offset 1 block.toList (by omega)
  rw [List.take_of_length_le (by omega)] at e
  have hp : Spec64.pad block.toList = block := by
    have := pad64_toList_append block []
    rwa [List.append_nil] at this
  rw [e, W64.compress_eq, chain64_1, hp, show (BitVec.ofNat 8 Portable64.BLOCK_LEN) = (128 : Byte) from rfl]
  exact assertEq_self _

/-- C67.  `portable64::tests::test_hash1_3` for every three blocks, key, offset and flags -/
theorem C67_portable64_hash1_3 (blocks : Bytes) (hl : blocks.length = 384) (key : Vector U64 4) (offset : U64)
    (flags fs fe : Byte) : UT.portable64_hash1_3_on blocks key offset flags fs fe = .ok () := by
  rw [UT.portable64_hash1_3_on]
  simp only [Portable64.BLOCK_LEN]
  rw [W64.arrayRef_block _ _ (by omega), bind_ok, W64.arrayRef_block _ _ (by omega), bind_ok, W64.arrayRef_block _ _ (by omega),
    bind_ok, W64.hash1_eq _ _ _ _ _ _ (by omega), bind_ok]
  have e := W64.cvLoop_chain key flags fs fe offset 3 blocks (by omega)
  rw [List.take_of_length_le (by omega)] at e
  rw [e, W64.compress_eq, W64.compress_eq, W64.compress_eq]
  rw [chain64_3, List.drop_zero, show (BitVec.ofNat 8 128) = (128 : Byte) from rfl, show 2 * 128 = 256 from rfl]
  exact assertEq_self _

/-- C67.  `portable64::tests::test_hash_many` for every nine blocks, key, flags, and all offsets that do not overflow -/
theorem C67_portable64_hash_many (input_buf : Bytes) (hl : input_buf.length = 1152) (key : Vector U64 4) (offset delta : U64)
    (ho : offset.toNat + 3 * delta.toNat < 2 ^ 64) (flags fs fe : Byte) :
    UT.portable64_hash_many_on input_buf key offset delta flags fs fe = .ok () := by
  rw [UT.portable64_hash_many_on]
  simp only [Portable64.BLOCK_LEN, Portable64.OUT_LEN]
  rw [window_ok _ _ _ (by omega), bind_ok, window_ok _ _ _ (by omega), bind_ok, window_ok _ _ _ (by omega), bind_ok]
  generalize h0 : List.take (3 * 128) (List.drop (0 * 128) input_buf) = x0
  generalize h1 : List.take (3 * 128) (List.drop (3 * 128) input_buf) = x1
  generalize h2 : List.take (3 * 128) (List.drop (6 * 128) input_buf) = x2
  have l0 : x0.length = 384 := by rw [← h0]; simp; omega
  have l1 : x1.length = 384 := by rw [← h1]; simp; omega
  have l2 : x2.length = 384 := by rw [← h2]; simp; omega
  have hh : ∀ (x : Bytes) (off : U64), x.length = 384 →
      Portable64.hash1 x key off flags fs fe =
        .ok (Portable64.bytes_from_state_words (Spec64.blockChain key off flags fs fe 3 x)) := by
    intro x off hx
    have e := W64.cvLoop_chain key flags fs fe off 3 x (by omega)
    rw [List.take_of_length_le (by omega)] at e
    rw [W64.hash1_eq _ _ _ _ _ _ (by omega), e]
  have lc : ∀ cv, (Spec64.cvBytes cv).length = 32 := W64.length_cvBytes
  have m : ∀ k, k < 3 → mulU64 (BitVec.ofNat 64 k) delta = .ok (BitVec.ofNat 64 k * delta) := by
    intro k hk
    have : (BitVec.ofNat 64 k).toNat = k := by rw [BitVec.toNat_ofNat]; omega
    rw [mulU64, if_pos]
    rw [this]
    have : k * delta.toNat ≤ 3 * delta.toNat := Nat.mul_le_mul_right _ (by omega)
    omega
  have a : ∀ k, k < 3 → addU64 offset (BitVec.ofNat 64 k * delta) = .ok (offset + BitVec.ofNat 64 k * delta) := by
    intro k hk
    have e : (BitVec.ofNat 64 k).toNat = k := by rw [BitVec.toNat_ofNat]; omega
    have : k * delta.toNat ≤ 3 * delta.toNat := Nat.mul_le_mul_right _ (by omega)
    rw [addU64, if_pos]
    rw [BitVec.toNat_mul, e, Nat.mod_eq_of_lt (by omega)]
    omega
  have hz1 : writeAt (List.replicate (3 * 32) (0 : Byte)) = writeAt
      ([] ++ (List.replicate 32 0 ++ (List.replicate 32 0 ++ (List.replicate 32 0 ++ [])))) := rfl
  have e0 := m 0 (by omega); have e1 := m 1 (by omega); have e2 := m 2 (by omega)
  have f0 := a 0 (by omega); have f1 := a 1 (by omega); have f2 := a 2 (by omega)
  have many' := C40_hash_many [x0, x1, x2] 3 (by simp [l0, l1, l2]) key offset delta flags fs fe (List.replicate (32 * 3) 0)
  rw [if_neg (by simp), if_pos (by simpa using ho)] at many'
  have lb : ∀ cv, (Portable64.bytes_from_state_words cv).toList.length = 32 := fun cv => Vector.length_toList
  rw [show mulU64 0 delta = _ from e0, bind_ok, f0, bind_ok, hh _ _ l0, bind_ok, hz1, write_front [] _ _ (0 * 32) rfl 32 (lb _), bind_ok,
    show mulU64 1 delta = _ from e1, bind_ok, f1, bind_ok, hh _ _ l1, bind_ok, List.nil_append,
    write_front _ _ _ _ (by rw [lb]) 32 (lb _), bind_ok,
    show mulU64 2 delta = _ from e2, bind_ok, f2, bind_ok, hh _ _ l2, bind_ok, ← List.append_assoc,
    write_front _ _ _ _ (by rw [List.length_append, lb, lb]) 32 (lb _), bind_ok,
    many', bind_ok]
  have : Spec64.manyOut key offset delta flags fs fe 3 [x0, x1, x2].length [x0, x1, x2] ++
      List.drop (32 * [x0, x1, x2].length) (List.replicate (32 * 3) (0 : Byte)) =
      Spec64.cvBytes (Spec64.blockChain key (offset + BitVec.ofNat 64 0 * delta) flags fs fe 3 x0) ++
        (Spec64.cvBytes (Spec64.blockChain key (offset + BitVec.ofNat 64 1 * delta) flags fs fe 3 x1) ++
        (Spec64.cvBytes (Spec64.blockChain key (offset + BitVec.ofNat 64 2 * delta) flags fs fe 3 x2) ++ [])) := by
    rw [show List.drop (32 * [x0, x1, x2].length) (List.replicate (32 * 3) (0 : Byte)) = [] from rfl, List.append_nil, Spec64.manyOut,
      show List.range [x0, x1, x2].length = [0, 1, 2] from rfl]
    simp only [List.flatMap_cons, List.flatMap_nil]
    rfl
  rw [RT.assertEq, if_pos (by rw [this]; simp only [W64.bytes_from_state_words_eq, List.append_assoc, List.append_nil])]

/-! ## c64.rs -/

/-- C67.  The tests of the C compression functions of the 64-bit variant for all arguments -/
theorem C67_c64_compress (cv : Vector U64 4) (block : Vector Byte 128) (block_len : Byte) (offset : U64) (flags : Byte) :
    UT.compare_compress_on64 C64.Portable.compress_portable cv block block_len offset flags = .ok () ∧
    UT.compare_compress_on64 C64.Avx2.compress_avx2 cv block block_len offset flags = .ok () ∧
    UT.compare_compress_on64 C64.Avx512.compress_avx512 cv block block_len offset flags = .ok () := by
  obtain ⟨h1, h2, h3⟩ := C41_c_eq_rust cv block block_len offset flags
  rw [UT.compare_compress_on64, UT.compare_compress_on64, UT.compare_compress_on64, h1, h2, h3, bind_ok, assertEq_self]
  exact ⟨rfl, rfl, rfl⟩

theorem chunk_table64 (i : Nat) (hi : i ≤ 8) : UT.CHUNK_OFFSET_DELTAS64[i]? = some (BitVec.ofNat 64 i * 4096) := by
  have : ∀ i : Fin 9, UT.CHUNK_OFFSET_DELTAS64[i.val]? = some (BitVec.ofNat 64 i.val * 4096) := by decide
  exact this ⟨i, by omega⟩

theorem parent_table64 (i : Nat) (hi : i ≤ 8) : UT.PARENT_OFFSET_DELTAS64[i]? = some (BitVec.ofNat 64 i * 0) := by
  have : ∀ i : Fin 9, UT.PARENT_OFFSET_DELTAS64[i.val]? = some (BitVec.ofNat 64 i.val * 0) := by decide
  exact this ⟨i, by omega⟩

/-- C67.  The tests of the C functions of the 64-bit variant that hash many inputs, for any number of chunks and parents,
any bytes, key and offset -/
theorem C67_c64_hash_many (num : Nat) (input_buf : Bytes) (hl : num * 4096 ≤ input_buf.length)
    (key : Vector U64 4) (offset : U64) (ho : offset.toNat + num * 4096 < 2 ^ 64) :
    UT.compare_hash_many_on64 C64.Portable.hash_many_portable num input_buf key offset = .ok () ∧
    UT.compare_hash_many_on64 C64.Sse41.hash_many_sse41 num input_buf key offset = .ok () ∧
    UT.compare_hash_many_on64 C64.Avx2.hash_many_avx2 num input_buf key offset = .ok () ∧
    UT.compare_hash_many_on64 C64.Avx512.hash_many_avx512 num input_buf key offset = .ok () ∧
    UT.compare_hash_many_on64 (C64.Neon.hash_many_neon .little) num input_buf key offset = .ok () := by
  obtain ⟨xs, ex, hxn, hx, -⟩ := windows_ok input_buf 4096 num 0 (by rwa [Nat.zero_add])
  obtain ⟨ys, ey, hyn, hy, -⟩ := windows_ok input_buf 128 num 0 (by omega)
  have hr := C40_hash_many xs 32 hx key offset 4096 Flags.KEYED_HASH Flags.CHUNK_START Flags.CHUNK_END
    (List.replicate (num * 32) 0)
  rw [if_neg (by rw [List.length_replicate, hxn]; omega), if_pos (by rw [hxn, show (4096 : U64).toNat = 4096 from rfl]; exact ho)] at hr
  have hs := C40_hash_many ys 1 hy key 0 0 Flags.PARENT 0 0 (List.replicate (num * 32) 0)
  rw [if_neg (by rw [List.length_replicate, hyn]; omega), if_pos (by
    rw [show (0 : U64).toNat = 0 from rfl, Nat.mul_zero]; decide)] at hs
  obtain ⟨a1, a2, a3, a4, a5⟩ := C42_c_eq_rust xs 32 hx key offset 4096 _ chunk_table64 Flags.KEYED_HASH Flags.CHUNK_START
    Flags.CHUNK_END _ _ hr
  obtain ⟨b1, b2, b3, b4, b5⟩ := C42_c_eq_rust ys 1 hy key 0 0 _ parent_table64 Flags.PARENT 0 0 _ _ hs
  rw [hxn] at a1 a2 a3 a4 a5 hr
  rw [hyn] at b1 b2 b3 b4 b5 hs
  have la : 32 * num ≤ (Spec64.manyOut key offset 4096 Flags.KEYED_HASH Flags.CHUNK_START Flags.CHUNK_END 32 num xs ++
      List.drop (32 * num) (List.replicate (num * 32) (0 : Byte))).length := by
    rw [List.length_append, W64.length_manyOut]; omega
  have lb : 32 * num ≤ (Spec64.manyOut key 0 0 Flags.PARENT 0 0 1 num ys ++
      List.drop (32 * num) (List.replicate (num * 32) (0 : Byte))).length := by
    rw [List.length_append, W64.length_manyOut]; omega
  have all : ∀ f : UT.HashManyFn64,
      f xs num 32 key offset UT.CHUNK_OFFSET_DELTAS64 Flags.KEYED_HASH Flags.CHUNK_START Flags.CHUNK_END (List.replicate (num * 32) 0) =
        (.ok (Spec64.manyOut key offset 4096 Flags.KEYED_HASH Flags.CHUNK_START Flags.CHUNK_END 32 num xs ++
          List.drop (32 * num) (List.replicate (num * 32) 0)) : R Bytes) →
      f ys num 1 key 0 UT.PARENT_OFFSET_DELTAS64 Flags.PARENT 0 0 (List.replicate (num * 32) 0) =
        (.ok (Spec64.manyOut key 0 0 Flags.PARENT 0 0 1 num ys ++ List.drop (32 * num) (List.replicate (num * 32) 0)) : R Bytes) →
      UT.compare_hash_many_on64 f num input_buf key offset = .ok () := by
    intro f h1 h2
    rw [UT.compare_hash_many_on64]
    simp only [Portable64.BLOCK_LEN, Portable64.CHUNK_LEN, OUT_LEN]
    rw [ex, bind_ok, show BitVec.ofNat 64 4096 = (4096 : U64) from rfl, hr, bind_ok,
      show 4096 / 128 = 32 from rfl, h1, bind_ok, compare_out_ok num _ la, bind_ok, ey, bind_ok, hs, bind_ok, h2, bind_ok,
      compare_out_ok num _ lb]
  exact ⟨all _ a1 b1, all _ a2 b2, all _ a3 b3, all _ a4 b4, all _ a5 b5⟩

/-! ## the comparisons can fail -/

theorem assertEq_iff {α} [DecidableEq α] (a b : α) : RT.assertEq a b = .ok () ↔ a = b := by
  rw [RT.assertEq]
  split
  · next h => exact ⟨fun _ => h, fun _ => rfl⟩
  · next h => exact ⟨fun e => (by cases e), fun e => absurd e h⟩

theorem forEach_iff {α} (body : α → R Unit) (l : List α) : RT.forEach body l = .ok () ↔ ∀ a ∈ l, body a = .ok () := by
  refine ⟨fun h => ?_, forEach_ok body l⟩
  induction l with
  | nil => simp
  | cons a l ih =>
    rw [RT.forEach] at h
    obtain ⟨u, h1, h2⟩ := C.bind_inv h
    intro b hb
    rcases List.mem_cons.1 hb with rfl | hb
    · exact h1
    · exact ih h2 b hb

/-- C67.  The comparison of a compression function passes only if that function returns the state of `portable::compress`
without undefined behaviour. -/
theorem C67_compress_detects (f : UT.CompressFn) (g : UT.CompressFn64) (cv : Vector Word 8) (block : Vector Byte 64)
    (cv' : Vector U64 4) (block' : Vector Byte 128) (block_len : Byte) (offset : U64) (flags : Byte) :
    (UT.compare_compress_on f cv block block_len offset flags = .ok () ↔
      f cv block.toList block_len offset flags = .ok (Spec.compress ⟨cv, block, block_len, offset, flags⟩)) ∧
    (UT.compare_compress_on64 g cv' block' block_len offset flags = .ok () ↔
      g cv' block'.toList block_len offset flags = .ok (Spec64.compress ⟨cv', block', block_len, offset, flags⟩)) := by
  rw [UT.compare_compress_on, UT.compare_compress_on64]
  constructor
  · cases h : f cv block.toList block_len offset flags with
    | error e => exact ⟨fun h => (by cases h), fun h => (by cases h)⟩
    | ok x =>
      rw [bind_ok, assertEq_iff, compress_eq]
      exact ⟨fun h => congrArg _ h.symm, fun h => (Except.ok.inj h).symm⟩
  · cases h : g cv' block'.toList block_len offset flags with
    | error e => exact ⟨fun h => (by cases h), fun h => (by cases h)⟩
    | ok x =>
      rw [bind_ok, assertEq_iff, W64.compress_eq]
      exact ⟨fun h => congrArg _ h.symm, fun h => (Except.ok.inj h).symm⟩

/-- C67.  The comparison of the outputs piece by piece passes only if all the bytes compared are equal. -/
theorem C67_compare_out_detects (num : Nat) (a b : Bytes) (ha : 32 * num ≤ a.length) (hb : 32 * num ≤ b.length) :
    UT.compare_out num a b = .ok () ↔ a.take (32 * num) = b.take (32 * num) := by
  rw [UT.compare_out, forEach_iff]
  have step : ∀ n, n < num → ((sliceFrom a (n * OUT_LEN) >>= fun a => sliceTo a OUT_LEN >>= fun a => sliceFrom b (n * OUT_LEN) >>= fun b =>
      sliceTo b OUT_LEN >>= fun b => RT.assertEq a b) = .ok () ↔ (a.drop (n * 32)).take 32 = (b.drop (n * 32)).take 32) := by
    intro n hn
    simp only [OUT_LEN]
    rw [sliceFrom, if_pos (by omega), bind_ok, sliceTo, if_pos (by simp; omega), bind_ok, sliceFrom, if_pos (by omega), bind_ok, sliceTo,
      if_pos (by simp; omega), bind_ok]
    exact assertEq_iff _ _
  constructor
  · intro h
    apply List.ext_getElem?
    intro i
    rw [List.getElem?_take, List.getElem?_take]
    split
    · next hi =>
      have e := (step (i / 32) (by omega)).1 (h _ (List.mem_range.2 (by omega)))
      have e := congrArg (fun l => l[i % 32]?) e
      simp only [List.getElem?_take, List.getElem?_drop, if_pos (Nat.mod_lt i (show 0 < 32 by decide))] at e
      rwa [show i / 32 * 32 + i % 32 = i by omega] at e
    · rfl
  · intro h n hn
    have hn := List.mem_range.1 hn
    refine (step n hn).2 ?_
    have e : ∀ l : Bytes, (l.drop (n * 32)).take 32 = ((l.take (32 * num)).drop (n * 32)).take 32 := fun l => by
      rw [List.drop_take, List.take_take, Nat.min_eq_left (by omega)]
    rw [e a, e b, h]

-- two outputs that differ in the last byte compared
example : ¬ (rep 64 0).take (32 * 2) = (rep 63 0 ++ [1]).take (32 * 2) := by decide

/-! ## the tests themselves -/

theorem painted (n : Nat) (h : n ≤ 4 * (2 ^ 32 - 2)) :
    ∃ b, RT.paint_test_input (List.replicate n 0) = .ok b ∧ b.length = n :=
  ⟨_, C64_paint _ (by rwa [List.length_replicate]), by rw [length_pattern, List.length_replicate]⟩

theorem painted_block_ok (len block_len : Nat) (h : block_len ≤ len) (hb : block_len ≤ 4 * (2 ^ 32 - 2)) :
    ∃ b, UT.painted_block len block_len = .ok b ∧ b.length = len := by
  obtain ⟨p, e, hl⟩ := painted block_len hb
  rw [UT.painted_block, e, bind_ok, writeAt, if_pos (by rw [List.length_replicate]; omega)]
  refine ⟨_, rfl, ?_⟩
  simp only [List.length_append, List.length_take, List.length_drop, List.length_replicate]
  omega

theorem arrayRef_all {α} (xs : List α) (n : Nat) (h : xs.length = n) : ∃ v, arrayRef xs 0 n = .ok v := by
  rw [arrayRef, dif_pos (by omega)]
  exact ⟨_, rfl⟩

/-- five chunks into the upper word, six into the lower -/
theorem wide_offset_ok : UT.wide_offset = .ok 0x0000280000003000 := by decide

/-- C67.  The tests of portable.rs -/
theorem C67_portable_tests : UT.portable_test_hash1_1 = .ok () ∧ UT.portable_test_hash1_3 = .ok () ∧
    UT.portable_test_hash_many = .ok () := by
  refine ⟨C67_portable_hash1_1 _ _ _ _ _ _, ?_, ?_⟩
  · obtain ⟨b, e, hl⟩ := painted (BLOCK_LEN * 3) (by decide)
    rw [UT.portable_test_hash1_3, e, bind_ok]
    exact C67_portable_hash1_3 b hl _ _ _ _ _
  · obtain ⟨b, e, hl⟩ := painted (BLOCK_LEN * 9) (by decide)
    rw [UT.portable_test_hash_many, e, bind_ok]
    exact C67_portable_hash_many b hl _ _ _ (by decide) _ _ _

/-- C67.  The tests of sse41.rs and avx2.rs, on every machine -/
theorem C67_simd_tests (cfg : Config) :
    UT.sse41_test_transpose cfg = .ok () ∧ UT.sse41_test_compress cfg = .ok () ∧ UT.sse41_test_compress_xof cfg = .ok () ∧
    UT.sse41_test_parents cfg = .ok () ∧ UT.sse41_test_chunks cfg = .ok () ∧ UT.sse41_test_hash1_1 cfg = .ok () ∧
    UT.sse41_test_hash1_3 cfg = .ok () ∧ UT.sse41_test_hash_many cfg = .ok () ∧
    UT.avx2_test_transpose cfg = .ok () ∧ UT.avx2_test_parents cfg = .ok () ∧ UT.avx2_test_chunks cfg = .ok () ∧
    UT.avx2_test_hash_many cfg = .ok () := by
  obtain ⟨pb, epb, hpb⟩ := painted_block_ok BLOCK_LEN 27 (by decide) (by decide)
  obtain ⟨blk, eblk⟩ := arrayRef_all pb BLOCK_LEN hpb
  refine ⟨(C67_test_transpose cfg).1, ?_, ?_, ?_, ?_, ?_, ?_, ?_, (C67_test_transpose cfg).2, ?_, ?_, ?_⟩
  · rw [UT.sse41_test_compress]
    split
    · rfl
    · rw [epb, bind_ok, eblk, bind_ok, wide_offset_ok, bind_ok]
      exact (C67_sse41_compress _ _ _ _ _).1
  · rw [UT.sse41_test_compress_xof]
    split
    · rfl
    · rw [epb, bind_ok, eblk, bind_ok, wide_offset_ok, bind_ok]
      exact (C67_sse41_compress _ _ _ _ _).2
  · rw [UT.sse41_test_parents]
    split
    · rfl
    · obtain ⟨b, e, hl⟩ := painted (4 * BLOCK_LEN) (by decide)
      rw [e, bind_ok]
      exact (C67_parents b _ _).1 hl
  · rw [UT.sse41_test_chunks]
    split
    · rfl
    · obtain ⟨b, e, hl⟩ := painted (4 * CHUNK_LEN) (by decide)
      rw [e, bind_ok, wide_offset_ok, bind_ok]
      exact (C67_chunks b _ _ _).1 hl (by decide)
  · rw [UT.sse41_test_hash1_1]
    split
    · rfl
    · exact C67_sse41_hash1 _ (by rw [List.length_replicate]; rfl) _ _ _ _ _
  · rw [UT.sse41_test_hash1_3]
    split
    · rfl
    · obtain ⟨b, e, hl⟩ := painted (BLOCK_LEN * 3) (by decide)
      rw [e, bind_ok]
      exact C67_sse41_hash1 b (by rw [hl]; rfl) _ _ _ _ _
  · rw [UT.sse41_test_hash_many]
    split
    · rfl
    · obtain ⟨b, e, hl⟩ := painted (31 * (3 * BLOCK_LEN)) (by decide)
      rw [e, bind_ok]
      exact (C67_simd_hash_many 3 31 b (by rw [hl]; decide) _ _ _ (by decide) _ _ _).1
  · rw [UT.avx2_test_parents]
    split
    · rfl
    · obtain ⟨b, e, hl⟩ := painted (8 * BLOCK_LEN) (by decide)
      rw [e, bind_ok]
      exact (C67_parents b _ _).2 hl
  · rw [UT.avx2_test_chunks]
    split
    · rfl
    · obtain ⟨b, e, hl⟩ := painted (8 * CHUNK_LEN) (by decide)
      rw [e, bind_ok, wide_offset_ok, bind_ok]
      exact (C67_chunks b _ _ _).2 hl (by decide)
  · rw [UT.avx2_test_hash_many]
    split
    · rfl
    · obtain ⟨b, e, hl⟩ := painted (31 * (3 * BLOCK_LEN)) (by decide)
      rw [e, bind_ok]
      exact (C67_simd_hash_many 3 31 b (by rw [hl]; decide) _ _ _ (by decide) _ _ _).2

/-- C67.  The tests of c.rs, on every machine with a word size that can hold the largest case, for every build of the C code,
whatever the memory of the hashers held before -/
theorem C67_c_tests (cfg : Config) (hb : 17 ≤ cfg.usizeBits) (ccfg : C.Config) (h16 : 16 ≤ ccfg.bits) (hn : NeonLittle ccfg)
    (mem mem' : Nat → Vector Byte C.Ffi.SUBTREE_HASHES_LEN) :
    UT.c_test_compress_portable = .ok () ∧ UT.c_test_compress_sse41 = .ok () ∧ UT.c_test_compress_avx512 = .ok () ∧
    UT.c_test_hash_many_portable cfg = .ok () ∧ UT.c_test_hash_many_sse41 cfg = .ok () ∧ UT.c_test_hash_many_avx2 cfg = .ok () ∧
    UT.c_test_hash_many_avx512 cfg = .ok () ∧ UT.c_test_hash_many_neon .little cfg = .ok () ∧
    UT.test_compare_hash_chunk cfg ccfg = .ok () ∧ UT.test_compare_hash_tree cfg ccfg mem mem' = .ok () := by
  obtain ⟨pb, epb, hpb⟩ := painted_block_ok BLOCK_LEN 27 (by decide) (by decide)
  obtain ⟨blk, eblk⟩ := arrayRef_all pb BLOCK_LEN hpb
  have hc : ∀ f : UT.CompressFn, UT.compare_compress_fn f =
      UT.compare_compress_on f #v[1, 2, 3, 4, 5, 6, 7, 8] blk 27 0x0000280000003000 (Flags.CHUNK_END ||| Flags.ROOT) := fun f => by
    rw [UT.compare_compress_fn, epb, bind_ok, eblk, bind_ok, wide_offset_ok, bind_ok]
  obtain ⟨c1, c2, c3⟩ := C67_c_compress #v[1, 2, 3, 4, 5, 6, 7, 8] blk 27 0x0000280000003000 (Flags.CHUNK_END ||| Flags.ROOT)
  obtain ⟨b, e, hl⟩ := painted (CHUNK_LEN * 31) (by decide)
  have hm : ∀ f : UT.HashManyFn, UT.compare_hash_many_fn cfg f =
      UT.compare_hash_many_on cfg f 31 b #v[21, 22, 23, 24, 25, 26, 27, 28] (99 * BitVec.ofNat 64 CHUNK_LEN) := fun f => by
    rw [UT.compare_hash_many_fn, e, bind_ok]
  obtain ⟨m1, m2, m3, m4, m5⟩ := C67_c_hash_many cfg 31 b (by rw [hl]; decide) #v[21, 22, 23, 24, 25, 26, 27, 28]
    (99 * BitVec.ofNat 64 CHUNK_LEN) (by decide)
  refine ⟨(hc _).trans c1, (hc _).trans c2, (hc _).trans c3, (hm _).trans m1, (hm _).trans m2, (hm _).trans m3, (hm _).trans m4,
    (hm _).trans m5, ?_, ?_⟩
  · obtain ⟨b, e, hl⟩ := painted CHUNK_LEN (by decide)
    rw [UT.test_compare_hash_chunk, e, bind_ok]
    refine forEach_ok _ _ fun r _ => forEach_ok _ _ fun n hn => ?_
    have hn : n ≤ 2048 := by
      have : ∀ n ∈ [0, 1, BLOCK_LEN - 1, BLOCK_LEN, BLOCK_LEN + 1, CHUNK_LEN - 1, CHUNK_LEN], n ≤ 2048 := by decide
      exact this n hn
    have hl : b.length = 2048 := hl
    rw [sliceTo, if_pos (by omega), bind_ok]
    exact C67_c_chunk cfg ccfg h16 _ _ _ _ (by rw [List.length_take]; omega)
  · obtain ⟨b, e, hl⟩ := painted RT.TEST_CASES_MAX (by decide)
    rw [UT.test_compare_hash_tree, e, bind_ok]
    refine forEach_ok _ _ fun n hn' => ?_
    have hn' : n ≤ RT.TEST_CASES_MAX := by
      have : ∀ n ∈ RT.TEST_CASES, n ≤ RT.TEST_CASES_MAX := by decide
      exact this n hn'
    have hm : RT.TEST_CASES_MAX < 2 ^ 17 := by decide
    have hlt : (b.take n).length < 2 ^ 17 := by rw [List.length_take]; omega
    rw [sliceTo, if_pos (by omega), bind_ok]
    exact C67_c_tree cfg ccfg h16 hn _ _ _ _ _ (Nat.lt_of_lt_of_le hlt (Nat.pow_le_pow_right (by decide) hb))
      (Nat.lt_of_lt_of_le hlt (by decide))

/-- C67.  The tests of portable64.rs and c64.rs -/
theorem C67_tests64 :
    UT.portable64_test_hash1_1 = .ok () ∧ UT.portable64_test_hash1_3 = .ok () ∧ UT.portable64_test_hash_many = .ok () ∧
    UT.c64_test_compress_portable = .ok () ∧ UT.c64_test_compress_avx2 = .ok () ∧ UT.c64_test_compress_avx512 = .ok () ∧
    UT.c64_test_hash_many_portable = .ok () ∧ UT.c64_test_hash_many_sse41 = .ok () ∧ UT.c64_test_hash_many_avx2 = .ok () ∧
    UT.c64_test_hash_many_avx512 = .ok () ∧ UT.c64_test_hash_many_neon .little = .ok () := by
  obtain ⟨pb, epb, hpb⟩ := painted_block_ok Portable64.BLOCK_LEN 27 (by decide) (by decide)
  obtain ⟨blk, eblk⟩ := arrayRef_all pb Portable64.BLOCK_LEN hpb
  have hc : ∀ f : UT.CompressFn64, UT.compare_compress_fn64 f =
      UT.compare_compress_on64 f #v[1, 2, 3, 4] blk 27 5 (Flags.CHUNK_END ||| Flags.ROOT) := fun f => by
    rw [UT.compare_compress_fn64, epb, bind_ok, eblk, bind_ok]
  obtain ⟨c1, c2, c3⟩ := C67_c64_compress #v[1, 2, 3, 4] blk 27 5 (Flags.CHUNK_END ||| Flags.ROOT)
  obtain ⟨b, e, hl⟩ := painted (Portable64.CHUNK_LEN * 31) (by decide)
  have hm : ∀ f : UT.HashManyFn64, UT.compare_hash_many_fn64 f =
      UT.compare_hash_many_on64 f 31 b #v[21, 22, 23, 24] (99 * BitVec.ofNat 64 Portable64.CHUNK_LEN) := fun f => by
    rw [UT.compare_hash_many_fn64, e, bind_ok]
  obtain ⟨m1, m2, m3, m4, m5⟩ := C67_c64_hash_many 31 b (by rw [hl]; decide) #v[21, 22, 23, 24]
    (99 * BitVec.ofNat 64 Portable64.CHUNK_LEN) (by decide)
  refine ⟨C67_portable64_hash1_1 _ _ _ _ _ _, ?_, ?_, (hc _).trans c1, (hc _).trans c2, (hc _).trans c3, (hm _).trans m1,
    (hm _).trans m2, (hm _).trans m3, (hm _).trans m4, (hm _).trans m5⟩
  · obtain ⟨b, e, hl⟩ := painted (Portable64.BLOCK_LEN * 3) (by decide)
    rw [UT.portable64_test_hash1_3, e, bind_ok]
    exact C67_portable64_hash1_3 b hl _ _ _ _ _
  · obtain ⟨b, e, hl⟩ := painted (Portable64.BLOCK_LEN * 9) (by decide)
    rw [UT.portable64_test_hash_many, e, bind_ok]
    exact C67_portable64_hash_many b hl _ _ _ (by decide) _ _ _

-- the arguments of the repository's tests
example : (3 * 2048 : U64).toNat + 3 * (2048 : U64).toNat < 2 ^ 64 ∧ (rep 576 1).length = 576 := by simp
example : (0x0000280000003000 : U64).toNat + 7 * 2048 < 2 ^ 64 ∧ (rep 16384 1).length = 16384 := by simp
example : (99 * 2048 : U64).toNat + 31 * 2048 < 2 ^ 64 ∧ 31 * 2048 ≤ (rep 63488 1).length := by simp
example : (rep 2048 1).length ≤ 2048 ∧ 16 ≤ exC.bits ∧ NeonLittle exC := by
  exact ⟨by simp, by decide, fun _ => rfl⟩

end Baokeshed.Props
