import Verif.Model.Release
import Verif.Proofs.HashMany

/-! # Whatever the checked code returns, the unchecked code returns too -/

set_option linter.unusedVariables false
set_option linter.unusedSimpArgs false

namespace Baokeshed.Proofs
open Baokeshed.Model

/-- if the first returns, the second returns the same -/
structure Le {α} (x y : R α) : Prop where
  imp : ∀ a, x = .ok a → y = .ok a

namespace Le

theorem refl {α} (x : R α) : Le x x := ⟨fun _ h => h⟩

theorem error {α} (e : Panic) (y : R α) : Le (.error e) y := ⟨fun _ h => by cases h⟩

theorem bind {α β} {x y : R α} {f g : α → R β} (h : Le x y) (hf : ∀ a, x = .ok a → Le (f a) (g a)) :
    Le (x >>= f) (y >>= g) := by
  refine ⟨fun b hb => ?_⟩
  cases x with
  | error e => cases hb
  | ok a => rw [h.imp a rfl]; exact (hf a rfl).imp b hb

/-- the release code computes the same without a chance of failure -/
theorem bind_pure {α β} {x : R α} {a : α} {f : α → R β} {y : R β} (h : Le x (.ok a)) (hf : x = .ok a → Le (f a) y) :
    Le (x >>= f) y := by
  refine ⟨fun b hb => ?_⟩
  cases x with
  | error e => cases hb
  | ok a' => have := h.imp a' rfl; cases this; exact (hf rfl).imp b hb

theorem assert {β} {c : Prop} [Decidable c] {f : Unit → R β} {y : R β} (h : c → Le (f ()) y) :
    Le (assertR c >>= f) y := by
  unfold assertR
  split
  next hc => exact h hc
  next => exact error ..

theorem addU64 (a b : U64) : Le (Baokeshed.addU64 a b) (.ok (a + b)) := by
  unfold Baokeshed.addU64; split
  · exact refl _
  · exact error ..

theorem mulU64 (a b : U64) : Le (Baokeshed.mulU64 a b) (.ok (a * b)) := by
  unfold Baokeshed.mulU64; split
  · exact refl _
  · exact error ..

theorem addN (w a b : Nat) : Le (Baokeshed.addN w a b) (.ok (Rel.addW w a b)) := by
  unfold Baokeshed.addN Rel.addW; split
  next h => rw [Nat.mod_eq_of_lt h]; exact refl _
  next => exact error ..

theorem mulN (w a b : Nat) : Le (Baokeshed.mulN w a b) (.ok (Rel.mulW w a b)) := by
  unfold Baokeshed.mulN Rel.mulW; split
  next h => rw [Nat.mod_eq_of_lt h]; exact refl _
  next => exact error ..

theorem subN (w a b : Nat) : Le (Baokeshed.subN a b) (.ok (Rel.subW w a b)) := by
  unfold Baokeshed.subN Rel.subW; split
  · exact refl _
  · exact error ..

theorem nextPowerOfTwo (w n : Nat) : Le (Baokeshed.nextPowerOfTwo w n) (.ok (Rel.nextPowerOfTwo w n)) := by
  unfold Baokeshed.nextPowerOfTwo Rel.nextPowerOfTwo
  dsimp only
  generalize (if n ≤ 1 then 1 else 2 ^ ((n - 1).log2 + 1)) = p
  split
  · exact refl _
  · exact error ..

theorem offset_plus (off i d : U64) : Le (Model.Sse41.offset_plus off i d) (.ok (off + i * d)) := by
  unfold Sse41.offset_plus
  exact bind_pure (mulU64 _ _) fun _ => addU64 _ _

end Le

/-! ## hash_many -/

theorem le_hash1 (input : Bytes) (key : Vector Word 8) (off : U64) (flags fs fe : Byte) :
    Le (Portable.hash1 input key off flags fs fe) (Rel.Portable.hash1 input key off flags fs fe) :=
  Le.assert fun _ => Le.refl _

theorem le_portable_loop (key : Vector Word 8) (d : U64) (flags fs fe : Byte) (xs : List Bytes) (off : U64) (out : Bytes) :
    Le (Portable.hash_many_loop key d flags fs fe xs off out) (Rel.Portable.hash_many_loop key d flags fs fe xs off out) := by
  induction xs generalizing off out with
  | nil => exact Le.refl _
  | cons x xs ih =>
    rw [Portable.hash_many_loop, Rel.Portable.hash_many_loop]
    split
    · exact Le.refl _
    · exact Le.bind (le_hash1 ..) fun h _ => Le.bind_pure (Le.addU64 _ _) fun _ => Le.bind (ih _ _) fun _ _ => Le.refl _

theorem le_portable_hash_many (xs : List Bytes) (key : Vector Word 8) (off d : U64) (flags fs fe : Byte) (out : Bytes) :
    Le (Portable.hash_many xs key off d flags fs fe out) (Rel.Portable.hash_many xs key off d flags fs fe out) :=
  Le.assert fun _ => le_portable_loop ..

theorem le_hash1_64 (input : Bytes) (key : Vector U64 4) (off : U64) (flags fs fe : Byte) :
    Le (Portable64.hash1 input key off flags fs fe) (Rel.Portable64.hash1 input key off flags fs fe) :=
  Le.assert fun _ => Le.refl _

theorem le_portable64_hash_many (xs : List Bytes) (key : Vector U64 4) (off d : U64) (flags fs fe : Byte) (out : Bytes) :
    Le (Portable64.hash_many xs key off d flags fs fe out) (Rel.Portable64.hash_many xs key off d flags fs fe out) := by
  refine Le.assert fun _ => ?_
  induction xs generalizing off out with
  | nil => exact Le.refl _
  | cons x xs ih =>
    rw [Portable64.hash_many_loop, Rel.Portable64.hash_many, Rel.Portable64.hash_many_loop]
    split
    next => exact Le.refl _
    next h =>
      rename_i hl
      refine Le.bind (le_hash1_64 ..) fun h _ => Le.bind_pure (Le.addU64 _ _) fun _ =>
        Le.bind (ih _ _ ?_) fun _ _ => Le.refl _
      simp only [List.length_cons, List.length_drop, OUT_LEN, Portable64.OUT_LEN] at *; omega

theorem le_sse41_hash1 (input : Bytes) (key : Vector Word 8) (off : U64) (flags fs fe : Byte) :
    Le (Sse41.hash1 input key off flags fs fe) (Rel.Sse41.hash1 input key off flags fs fe) :=
  Le.assert fun _ => Le.refl _

theorem le_sse41_load_offsets (off d : U64) : Le (Sse41.load_offsets off d) (.ok (Rel.Sse41.load_offsets off d)) := by
  unfold Sse41.load_offsets Rel.Sse41.load_offsets
  exact Le.bind_pure (Le.offset_plus ..) fun _ => Le.bind_pure (Le.offset_plus ..) fun _ =>
    Le.bind_pure (Le.offset_plus ..) fun _ => Le.bind_pure (Le.offset_plus ..) fun _ => Le.refl _

theorem le_hash4 (inputs : Vector Bytes 4) (blocks : Nat) (key : Vector Word 8) (off d : U64) (flags fs fe : Byte) (out : Bytes) :
    Le (Sse41.hash4 inputs blocks key off d flags fs fe out) (Rel.Sse41.hash4 inputs blocks key off d flags fs fe out) :=
  Le.bind_pure (le_sse41_load_offsets off d) fun _ => Le.refl _

theorem le_sse41_tail (key : Vector Word 8) (d : U64) (flags fs fe : Byte) (xs : List Bytes) (off : U64) (out : Bytes) :
    Le (Sse41.hash_many_tail key d flags fs fe xs off out) (Rel.Sse41.hash_many_tail key d flags fs fe xs off out) := by
  induction xs generalizing off out with
  | nil => exact Le.refl _
  | cons x xs ih =>
    rw [Sse41.hash_many_tail, Rel.Sse41.hash_many_tail]
    split
    · exact Le.refl _
    · exact Le.bind (le_sse41_hash1 ..) fun h _ => Le.bind_pure (Le.addU64 _ _) fun _ => Le.bind (ih _ _) fun _ _ => Le.refl _

theorem le_sse41_loop (cap : Nat) (key : Vector Word 8) (d : U64) (flags fs fe : Byte) (xs : List Bytes) (off : U64) (out : Bytes) :
    Le (Sse41.hash_many_loop cap key d flags fs fe xs off out) (Rel.Sse41.hash_many_loop cap key d flags fs fe xs off out) := by
  induction hn : xs.length using Nat.strongRecOn generalizing xs off out with
  | ind n ih =>
  rw [Sse41.hash_many_loop, Rel.Sse41.hash_many_loop]
  split
  next h =>
    refine Le.bind (Le.refl _) fun v _ => Le.bind (le_hash4 ..) fun o _ => Le.bind_pure (Le.offset_plus ..) fun _ => ?_
    refine Le.bind (ih _ ?_ _ _ _ rfl) fun _ _ => Le.refl _
    simp only [Sse41.DEGREE, List.length_drop] at *; omega
  next h => exact le_sse41_tail ..

theorem le_sse41_hash_many (cap : Nat) (xs : List Bytes) (key : Vector Word 8) (off d : U64) (flags fs fe : Byte) (out : Bytes) :
    Le (Sse41.hash_many cap xs key off d flags fs fe out) (Rel.Sse41.hash_many cap xs key off d flags fs fe out) :=
  Le.assert fun _ => le_sse41_loop ..

theorem le_avx2_load_offsets (off d : U64) : Le (Avx2.load_offsets off d) (.ok (Rel.Avx2.load_offsets off d)) := by
  unfold Avx2.load_offsets Rel.Avx2.load_offsets
  exact Le.bind_pure (Le.offset_plus ..) fun _ => Le.bind_pure (Le.offset_plus ..) fun _ =>
    Le.bind_pure (Le.offset_plus ..) fun _ => Le.bind_pure (Le.offset_plus ..) fun _ =>
    Le.bind_pure (Le.offset_plus ..) fun _ => Le.bind_pure (Le.offset_plus ..) fun _ =>
    Le.bind_pure (Le.offset_plus ..) fun _ => Le.bind_pure (Le.offset_plus ..) fun _ => Le.refl _

theorem le_hash8 (inputs : Vector Bytes 8) (blocks : Nat) (key : Vector Word 8) (off d : U64) (flags fs fe : Byte) (out : Bytes) :
    Le (Avx2.hash8 inputs blocks key off d flags fs fe out) (Rel.Avx2.hash8 inputs blocks key off d flags fs fe out) :=
  Le.bind_pure (le_avx2_load_offsets off d) fun _ => Le.refl _

theorem le_avx2_loop (cap : Nat) (key : Vector Word 8) (d : U64) (flags fs fe : Byte) (xs : List Bytes) (off : U64) (out : Bytes) :
    Le (Avx2.hash_many_loop cap key d flags fs fe xs off out) (Rel.Avx2.hash_many_loop cap key d flags fs fe xs off out) := by
  induction hn : xs.length using Nat.strongRecOn generalizing xs off out with
  | ind n ih =>
  rw [Avx2.hash_many_loop, Rel.Avx2.hash_many_loop]
  split
  next h =>
    refine Le.bind (Le.refl _) fun v _ => Le.bind (le_hash8 ..) fun o _ => Le.bind_pure (Le.offset_plus ..) fun _ => ?_
    refine Le.bind (ih _ ?_ _ _ _ rfl) fun _ _ => Le.refl _
    simp only [Avx2.DEGREE, List.length_drop] at *; omega
  next h => exact le_sse41_hash_many ..

theorem le_hash_many (p : Platform) (cap : Nat) (xs : List Bytes) (key : Vector Word 8) (off d : U64) (flags fs fe : Byte)
    (out : Bytes) : Le (p.hash_many cap xs key off d flags fs fe out) (Rel.hash_many p cap xs key off d flags fs fe out) := by
  cases p
  · exact le_portable_hash_many ..
  · exact le_sse41_hash_many ..
  · exact Le.assert fun _ => le_avx2_loop ..

/-! ## The recursive implementation -/

theorem le_hash_one_chunk_loop (w : Nat) (p : Platform) (chunk : Bytes) (off : U64) (r : IsRoot) (flags : Byte)
    (cv : Vector Word 8) (bf : Byte) (bo : Nat) :
    Le (hash_one_chunk_loop p chunk off r flags cv bf bo) (Rel.hash_one_chunk_loop w p chunk off r flags cv bf bo) := by
  induction hn : chunk.length - bo using Nat.strongRecOn generalizing cv bf bo with
  | ind n ih =>
  rw [hash_one_chunk_loop, Rel.hash_one_chunk_loop]
  split
  next h =>
    split
    · exact Le.refl _
    · refine Le.bind (Le.refl _) fun b _ => ih _ ?_ _ _ _ rfl
      simp only [BLOCK_LEN] at *; omega
  next h => exact Le.bind_pure (Le.subN w _ _) fun _ => Le.refl _

theorem le_hash_one_chunk (w : Nat) (chunk : Bytes) (key : Vector Word 8) (off : U64) (r : IsRoot) (flags : Byte) (p : Platform) :
    Le (hash_one_chunk chunk key off r flags p) (Rel.hash_one_chunk w chunk key off r flags p) :=
  Le.assert fun _ => le_hash_one_chunk_loop ..

theorem le_hash_chunks_parallel (cfg : Config) (input : Bytes) (key : Vector Word 8) (off : U64) (flags : Byte) (p : Platform)
    (out : Bytes) :
    Le (hash_chunks_parallel cfg input key off flags p out) (Rel.hash_chunks_parallel cfg input key off flags p out) := by
  refine Le.assert fun _ => Le.assert fun _ => Le.assert fun _ => Le.bind (Le.refl _) fun xs _ =>
    Le.bind (le_hash_many ..) fun o _ => ?_
  dsimp only
  split
  · exact Le.bind_pure (Le.mulU64 ..) fun _ => Le.bind_pure (Le.addU64 ..) fun _ => Le.bind (le_hash_one_chunk ..) fun _ _ => Le.refl _
  · exact Le.refl _

theorem le_hash_parents_parallel (cfg : Config) (cs : Bytes) (key : Vector Word 8) (flags : Byte) (p : Platform) (out : Bytes) :
    Le (hash_parents_parallel cfg cs key flags p out) (Rel.hash_parents_parallel cfg cs key flags p out) := by
  refine Le.assert fun _ => Le.assert fun _ => Le.assert fun _ => Le.bind (Le.refl _) fun xs _ =>
    Le.bind (le_hash_many ..) fun o _ => ?_
  dsimp only
  split
  · exact Le.assert fun h => by rw [if_pos h]; exact Le.refl _
  · exact Le.refl _

theorem le_left_len (w n : Nat) : Le (left_len w n) (.ok (Rel.left_len w n)) := by
  unfold left_len Rel.left_len
  refine Le.assert fun h => ?_
  have e : Rel.subW w n 1 = n - 1 := by unfold Rel.subW; rw [if_pos (by simp only [CHUNK_LEN] at h; omega)]
  rw [e]
  unfold largest_power_of_two_leq Rel.largest_power_of_two_leq
  refine Le.bind_pure (a := Rel.nextPowerOfTwo w (Rel.addW w ((n - 1) / CHUNK_LEN / 2) 1)) ?_ fun _ => Le.mulN ..
  exact Le.bind_pure (Le.addN ..) fun _ => Le.nextPowerOfTwo ..

theorem le_hash_recurse (cfg : Config) (n : Nat) (input : Bytes) (key : Vector Word 8) (off : U64) (flags : Byte) (p : Platform)
    (out : Bytes) (hn : input.length < n) :
    Le (hash_recurse cfg input key off flags p out) (Rel.hash_recurse cfg n input key off flags p out) := by
  induction n generalizing input off out with
  | zero => omega
  | succ n ih =>
    rw [hash_recurse, Rel.hash_recurse]
    split
    · exact le_hash_chunks_parallel ..
    · split
      next e _ => exact Le.error ..
      next l hl =>
        have hl' := (le_left_len _ _).imp _ hl
        cases hl'
        have h1 := left_len_lt hl
        have h2 := left_len_pos hl
        rw [splitAtR, if_pos (by omega), bind_ok]
        refine Le.bind_pure (Le.addU64 ..) fun _ => Le.assert fun _ => Le.bind (Le.refl _) fun lr _ => ?_
        refine Le.bind (ih _ _ _ (by rw [List.length_take]; omega)) fun a _ =>
          Le.bind (ih _ _ _ (by rw [List.length_drop]; omega)) fun b _ => ?_
        refine Le.assert fun _ => Le.assert fun _ => ?_
        split
        · exact Le.refl _
        · exact Le.bind (Le.refl _) fun c _ => le_hash_parents_parallel ..

theorem le_condense_loop (cfg : Config) (key : Vector Word 8) (flags : Byte) (p : Platform) (n : Nat) (cs out : Bytes) :
    Le (condense_loop cfg key flags p n cs out) (Rel.condense_loop cfg key flags p n cs out) := by
  induction n generalizing cs out with
  | zero => exact Le.error ..
  | succ n ih =>
    rw [condense_loop, Rel.condense_loop]
    split
    · exact Le.bind (le_hash_parents_parallel ..) fun a _ => Le.bind (Le.refl _) fun _ _ => Le.bind (Le.refl _) fun _ _ =>
        Le.bind (Le.refl _) fun _ _ => ih _ _
    · exact Le.refl _

theorem le_condense_root (cfg : Config) (cs : Bytes) (key : Vector Word 8) (flags : Byte) (p : Platform) :
    Le (condense_root cfg cs key flags p) (Rel.condense_root cfg cs key flags p) :=
  Le.assert fun _ => Le.assert fun _ => Le.bind (le_condense_loop ..) fun _ _ => Le.refl _

theorem le_hash_internal (cfg : Config) (input : Bytes) (key : Vector Word 8) (flags : Byte) :
    Le (hash_internal cfg input key flags) (Rel.hash_internal cfg input key flags) := by
  unfold hash_internal Rel.hash_internal
  dsimp only
  split
  · exact le_hash_one_chunk ..
  · exact Le.bind (le_hash_recurse _ _ _ _ _ _ _ _ (by omega)) fun _ _ => Le.bind (Le.refl _) fun _ _ => le_condense_root ..

/-! ## The incremental implementation -/

theorem le_reset (s : ChunkState) (off : U64) : Le (s.reset off) (.ok (Rel.ChunkState.reset s off)) :=
  Le.assert fun _ => Le.refl _

theorem le_fill_buf (w : Nat) (s : ChunkState) (input : Bytes) : Le (s.fill_buf input) (Rel.ChunkState.fill_buf w s input) := by
  unfold ChunkState.fill_buf Rel.ChunkState.fill_buf
  exact Le.bind_pure (Le.subN w _ _) fun _ => Le.bind (Le.refl _) fun _ _ => Le.bind (Le.refl _) fun _ _ =>
    Le.bind_pure (Le.addN ..) fun _ => Le.refl _

theorem le_update_blocks (s : ChunkState) (input : Bytes) : Le (s.update_blocks input) (Rel.ChunkState.update_blocks s input) := by
  induction hn : input.length using Nat.strongRecOn generalizing s input with
  | ind n ih =>
  rw [ChunkState.update_blocks, Rel.ChunkState.update_blocks]
  split
  next h =>
    refine Le.assert fun _ => Le.bind (Le.refl _) fun _ _ => Le.bind_pure (Le.addN ..) fun _ => ih _ ?_ _ _ rfl
    simp only [BLOCK_LEN, List.length_drop] at *; omega
  next h => exact Le.refl _

theorem le_update_first (w : Nat) (s : ChunkState) (input : Bytes) :
    Le (s.update_first input) (Rel.ChunkState.update_first w s input) := by
  unfold ChunkState.update_first Rel.ChunkState.update_first
  split
  · refine Le.bind (le_fill_buf ..) fun a _ => ?_
    obtain ⟨s, i⟩ := a
    dsimp only
    split
    · exact Le.assert fun _ => Le.bind_pure (Le.addN ..) fun _ => Le.refl _
    · exact Le.refl _
  · exact Le.refl _

theorem le_chunk_update (w : Nat) (s : ChunkState) (input : Bytes) : Le (s.update input) (Rel.ChunkState.update w s input) :=
  Le.bind (le_update_first ..) fun _ _ => Le.bind (le_update_blocks ..) fun _ _ => Le.bind (le_fill_buf ..) fun _ _ =>
    Le.assert fun _ => Le.assert fun _ => Le.refl _

theorem le_chunk_finalize (s : ChunkState) (r : IsRoot) : Le (s.finalize r) (.ok (Rel.ChunkState.finalize s r)) :=
  Le.assert fun _ => Le.refl _

theorem le_merge_parent (h : Hasher) : Le h.merge_parent (Rel.Hasher.merge_parent h) := by
  unfold Hasher.merge_parent Rel.Hasher.merge_parent
  split
  next e => rw [e]; exact Le.refl _
  next => exact Le.error ..

theorem le_merge_loop (h : Hasher) (off : U64) : Le (h.merge_loop off) (Rel.Hasher.merge_loop h off) := by
  induction hn : h.subtree_hashes.length using Nat.strongRecOn generalizing h with
  | ind n ih =>
  rw [Hasher.merge_loop, Rel.Hasher.merge_loop]
  split
  · split
    · exact Le.error ..
    next h' e =>
      have e' := (le_merge_parent h).imp h' e
      split
      next e'' he => rw [e'] at he; cases he
      next h'' he =>
        rw [e'] at he; cases he
        exact ih _ (hn ▸ Hasher.merge_parent_length e) h' rfl
  · exact Le.refl _

theorem le_push_chunk_hash (h : Hasher) (hash : Vector Byte 32) (off : U64) :
    Le (h.push_chunk_hash hash off) (Rel.Hasher.push_chunk_hash h hash off) :=
  Le.bind (le_merge_loop ..) fun _ _ => Le.refl _

theorem le_push_hashes (cs : List Bytes) (h : Hasher) : Le (Hasher.push_hashes cs h) (Rel.Hasher.push_hashes cs h) := by
  induction cs generalizing h with
  | nil => exact Le.refl _
  | cons c cs ih =>
    exact Le.bind (Le.refl _) fun _ _ => Le.bind (le_push_chunk_hash ..) fun _ _ => Le.bind_pure (Le.addU64 ..) fun _ => ih _

theorem le_update_loop (cfg : Config) (cs : List Bytes) (out : Bytes) (h : Hasher) :
    Le (Hasher.update_loop cfg cs out h) (Rel.Hasher.update_loop cfg cs out h) := by
  induction hn : cs.length using Nat.strongRecOn generalizing cs out h with
  | ind n ih =>
  rw [Hasher.update_loop, Rel.Hasher.update_loop]
  split
  · exact Le.refl _
  next h0 =>
    refine Le.bind (le_hash_many ..) fun _ _ => Le.bind (le_push_hashes ..) fun _ _ => ih _ ?_ _ _ _ rfl
    have h1 : 0 < cs.length := by
      cases cs with
      | nil => exact absurd List.take_nil h0
      | cons c cs => simp
    have h2 : 0 < MAX_SIMD_DEGREE cfg := by unfold MAX_SIMD_DEGREE; split <;> decide
    rw [List.length_drop]; omega

theorem le_update_rest (cfg : Config) (h : Hasher) (input : Bytes) :
    Le (Hasher.update_rest cfg h input) (Rel.Hasher.update_rest cfg h input) := by
  refine Le.assert fun _ => Le.bind (le_update_loop ..) fun _ _ => Le.assert fun _ => Le.assert fun _ => ?_
  dsimp only
  split
  · exact Le.bind (le_merge_loop ..) fun _ _ => Le.bind (le_chunk_update ..) fun _ _ => Le.refl _
  · exact Le.refl _

theorem le_update (cfg : Config) (h : Hasher) (input : Bytes) : Le (h.update cfg input) (Rel.Hasher.update cfg h input) := by
  unfold Hasher.update Rel.Hasher.update
  dsimp only
  split
  · refine Le.bind_pure (Le.subN cfg.usizeBits _ _) fun _ => Le.bind (le_chunk_update ..) fun _ _ => ?_
    split
    · exact Le.assert fun _ => Le.bind_pure (le_chunk_finalize ..) fun _ => Le.bind (le_push_chunk_hash ..) fun _ _ =>
        Le.bind_pure (Le.addU64 ..) fun _ => Le.bind_pure (le_reset ..) fun _ => le_update_rest ..
    · exact Le.refl _
  · exact le_update_rest ..

theorem le_finalize_xof (h : Hasher) : Le h.finalize_xof (Rel.Hasher.finalize_xof h) := by
  unfold Hasher.finalize_xof Rel.Hasher.finalize_xof
  split
  · exact le_chunk_finalize ..
  · split
    · exact Le.assert fun _ => Le.bind_pure (le_chunk_finalize ..) fun _ => Le.refl _
    · exact Le.assert fun _ => Le.refl _

theorem le_finalize (h : Hasher) : Le h.finalize (Rel.Hasher.finalize h) :=
  Le.bind (le_finalize_xof h) fun _ _ => Le.refl _

/-! ## copy.rs -/

theorem le_copy_loop {W : Type} {wa wa' : W → Bytes → R (Except IoError Unit × W)} (hw : ∀ w b, Le (wa w b) (wa' w b))
    (buffer : Bytes) (total : U64) (w : W) (es : List ReadEvent) :
    Le (copy_loop wa buffer total w es) (Rel.copy_loop wa' buffer total w es) := by
  induction es generalizing buffer total w with
  | nil => exact Le.refl _
  | cons e es ih =>
    match e with
    | .ok n data =>
      rw [copy_loop, Rel.copy_loop]
      dsimp only
      split
      · exact Le.refl _
      · refine Le.bind (Le.refl _) fun s _ => Le.bind (hw _ _) fun a _ => ?_
        obtain ⟨r, w'⟩ := a
        cases r with
        | error e => exact Le.refl _
        | ok u => exact Le.bind_pure (Le.addU64 ..) fun _ => ih _ _ _
    | .err e =>
      by_cases he : e = .interrupted
      · subst he; exact ih _ _ _
      · rw [copy_loop, Rel.copy_loop]
        · exact Le.refl _
        · exact he
        · exact he

/-! ## reference_impl.rs -/

theorem le_root_output_loop (o : Ref.Output) (off : U64) (out : Bytes) :
    Le (o.root_output_loop off out) (.ok (Rel.Ref.root_output_loop o off out)) := by
  induction hn : out.length using Nat.strongRecOn generalizing off out with
  | ind n ih =>
  rw [Ref.Output.root_output_loop, Rel.Ref.root_output_loop]
  split
  · exact Le.refl _
  next h =>
    refine Le.bind_pure (Le.addU64 ..) fun _ => Le.bind_pure (ih _ ?_ _ _ rfl) fun _ => Le.refl _
    have : 0 < out.length := List.length_pos_iff.2 h
    simp only [List.length_drop, Ref.OUT_LEN]; omega

theorem le_compress_full (s : Ref.ChunkState) : Le s.compress_full (.ok (Rel.Ref.ChunkState.compress_full s)) := by
  unfold Ref.ChunkState.compress_full Rel.Ref.ChunkState.compress_full
  split
  · exact Le.bind_pure (Le.addN ..) fun _ => Le.refl _
  · exact Le.refl _

theorem le_fill (w : Nat) (s : Ref.ChunkState) (input : Bytes) : Le (s.fill input) (Rel.Ref.ChunkState.fill w s input) := by
  unfold Ref.ChunkState.fill Rel.Ref.ChunkState.fill
  exact Le.bind_pure (Le.subN w _ _) fun _ => Le.bind (Le.refl _) fun _ _ => Le.bind (Le.refl _) fun _ _ =>
    Le.bind_pure (Le.addN ..) fun _ => Le.refl _

theorem le_ref_chunk_loop (w n : Nat) (s : Ref.ChunkState) (input : Bytes) :
    Le (Ref.ChunkState.update_loop n s input) (Rel.Ref.ChunkState.update_loop w n s input) := by
  induction n generalizing s input with
  | zero => exact Le.refl _
  | succ n ih =>
    rw [Ref.ChunkState.update_loop, Rel.Ref.ChunkState.update_loop]
    split
    · exact Le.refl _
    · exact Le.bind_pure (le_compress_full s) fun _ => Le.bind (le_fill ..) fun _ _ => ih _ _

theorem le_pop_stack (h : Ref.Hasher) : Le h.pop_stack (Rel.Ref.Hasher.pop_stack h) := by
  unfold Ref.Hasher.pop_stack Rel.Ref.Hasher.pop_stack
  split
  next => exact Le.error ..
  next e => rw [e]; exact Le.refl _

theorem le_ref_merge_loop (h : Ref.Hasher) (cv : Vector Word 8) (n : Nat) :
    Le (h.merge_loop cv n) (Rel.Ref.Hasher.merge_loop h cv n) := by
  induction hn : h.subtree_stack.length using Nat.strongRecOn generalizing h cv with
  | ind k ih =>
  rw [Ref.Hasher.merge_loop, Rel.Ref.Hasher.merge_loop]
  split
  · split
    · exact Le.error ..
    next l h' e =>
      have e' := (le_pop_stack h).imp _ e
      split
      next e'' he => rw [e'] at he; cases he
      next l'' h'' he =>
        rw [e'] at he; cases he
        exact ih _ (hn ▸ Ref.Hasher.pop_stack_length e) h' _ rfl
  · exact Le.refl _

theorem le_finish_chunk (h : Ref.Hasher) : Le h.finish_chunk (Rel.Ref.Hasher.finish_chunk h) := by
  unfold Ref.Hasher.finish_chunk Rel.Ref.Hasher.finish_chunk
  split
  · refine Le.bind_pure (Le.addU64 ..) fun _ => Le.bind ?_ fun _ _ => Le.refl _
    exact Le.bind (le_ref_merge_loop ..) fun _ _ => Le.refl _
  · exact Le.refl _

theorem le_ref_update_loop (w n : Nat) (h : Ref.Hasher) (input : Bytes) :
    Le (Ref.Hasher.update_loop n h input) (Rel.Ref.Hasher.update_loop w n h input) := by
  induction n generalizing h input with
  | zero => exact Le.refl _
  | succ n ih =>
    rw [Ref.Hasher.update_loop, Rel.Ref.Hasher.update_loop]
    split
    · exact Le.refl _
    · exact Le.bind (le_finish_chunk h) fun _ _ => Le.bind_pure (Le.subN w _ _) fun _ =>
        Le.bind (le_ref_chunk_loop ..) fun _ _ => ih _ _

theorem le_ref_finalize (h : Ref.Hasher) (out : Bytes) : Le (h.finalize out) (.ok (Rel.Ref.Hasher.finalize h out)) :=
  le_root_output_loop ..

end Baokeshed.Proofs
