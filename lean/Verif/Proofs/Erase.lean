import Verif.Model.Trace
import Verif.Model.World

/-! # Without the record of compressions, Model/Trace.lean is Model/Lib.lean and Model/Hasher.lean -/

set_option linter.unusedVariables false
set_option linter.unusedSimpArgs false

namespace Baokeshed.Proofs.T
open Baokeshed.Model Baokeshed.Model.T

theorem res_bind {α β} (x : TR α) (f : α → TR β) : (x >>= f).res = x.res >>= fun a => (f a).res := by
  obtain ⟨r, l⟩ := x
  cases r <;> rfl

@[simp] theorem res_pure {α} (a : α) : (pure a : TR α).res = .ok a := rfl
@[simp] theorem res_lift {α} (r : R α) : (liftM r : TR α).res = r := rfl
@[simp] theorem res_mk {α} (r : R α) (l : List Spec.Input) : (TR.mk r l).res = r := rfl

theorem rbind_ok {α β} (a : α) (f : α → R β) : (Except.ok a >>= f) = f a := rfl

theorem rbind_err {α β} (e : Panic) (f : α → R β) : (Except.error e >>= f) = .error e := rfl

theorem res_ite {α} {c : Prop} [Decidable c] (x y : TR α) :
    (if c then x else y).res = if c then x.res else y.res := by split <;> rfl

theorem res_dite {α} {c : Prop} [Decidable c] (x : c → TR α) (y : ¬c → TR α) :
    (dite c x y).res = dite c (fun h => (x h).res) (fun h => (y h).res) := by split <;> rfl

theorem compress_res (p : Platform) (cv : Vector Word 8) (b : Vector Byte 64) (l : Byte) (o : U64) (f : Byte) :
    (T.compress p cv b l o f).res = .ok (p.compress cv b l o f) := rfl

theorem compress_xof_res (p : Platform) (cv : Vector Word 8) (b : Vector Byte 64) (l : Byte) (o : U64) (f : Byte) :
    (T.compress_xof p cv b l o f).res = .ok (p.compress_xof cv b l o f) := rfl

theorem hash1_loop_res (flags fe : Byte) (off : U64) (cv : Vector Word 8) (bf : Byte) (s : Bytes) :
    (T.hash1_loop flags fe off cv bf s).res = Portable.hash1_loop flags fe off cv bf s := by
  fun_induction Portable.hash1_loop flags fe off cv bf s with
  | case1 cv bf s h bf' ih =>
    rw [T.hash1_loop, dif_pos h, res_bind]
    refine congrArg (Bind.bind _) (funext fun b => ?_)
    rw [res_bind, compress_res, rbind_ok]
    exact ih b
  | case2 cv bf s h => rw [T.hash1_loop, dif_neg h]; rfl

theorem hash1_res (input : Bytes) (key : Vector Word 8) (off : U64) (f fs fe : Byte) :
    (T.hash1 input key off f fs fe).res = Portable.hash1 input key off f fs fe := by
  simp only [T.hash1, Portable.hash1, res_bind, res_lift, hash1_loop_res, res_pure]
  rfl

theorem hash_many_loop_res (key : Vector Word 8) (d : U64) (f fs fe : Byte) (xs : List Bytes) (off : U64)
    (out : Bytes) :
    (T.hash_many_loop key d f fs fe xs off out).res = Portable.hash_many_loop key d f fs fe xs off out := by
  induction xs generalizing off out with
  | nil => rfl
  | cons x xs ih =>
    rw [T.hash_many_loop, Portable.hash_many_loop, res_ite]
    simp only [res_bind, res_lift, hash1_res, ih]
    rfl

/-- the record kept for `hash_many` is that of a computation of the same result as `portable::hash_many` -/
theorem hash_many_portable_res (xs : List Bytes) (key : Vector Word 8) (off d : U64) (f fs fe : Byte)
    (out : Bytes) :
    (T.hash_many_portable xs key off d f fs fe out).res = Portable.hash_many xs key off d f fs fe out := by
  simp only [T.hash_many_portable, Portable.hash_many, res_bind, res_lift, hash_many_loop_res]

theorem hash_many_res (p : Platform) (cap : Nat) (xs : List Bytes) (key : Vector Word 8) (off d : U64)
    (f fs fe : Byte) (out : Bytes) :
    (T.hash_many p cap xs key off d f fs fe out).res = p.hash_many cap xs key off d f fs fe out := rfl

theorem read_res (prof : Profile) (o : Output) : (T.Output.read prof o).res = o.read prof := by
  simp only [T.Output.read, Model.Output.read, res_bind, res_lift, compress_xof_res, rbind_ok, res_pure]
  cases prof <;> rfl

theorem to_hash_res (o : Output) : (T.Output.to_hash o).res = .ok o.to_hash := rfl

theorem run_res (prof : Profile) (cs : List OutCall) (o : Output) :
    (T.Output.run prof cs o).res = o.run prof cs := by
  induction cs generalizing o with
  | nil => rfl
  | cons c cs ih =>
    cases c <;> simp only [T.Output.run, Model.Output.run, res_bind, read_res, to_hash_res, ih, rbind_ok] <;> rfl

theorem hash_one_chunk_loop_res (p : Platform) (chunk : Bytes) (off : U64) (r : IsRoot) (flags : Byte)
    (cv : Vector Word 8) (bf : Byte) (bo : Nat) :
    (T.hash_one_chunk_loop p chunk off r flags cv bf bo).res =
      Model.hash_one_chunk_loop p chunk off r flags cv bf bo := by
  induction hn : chunk.length - bo using Nat.strongRecOn generalizing cv bf bo with
  | ind n ih =>
  rw [T.hash_one_chunk_loop, Model.hash_one_chunk_loop, res_dite]
  split
  next h =>
    rw [res_ite]
    simp only [BLOCK_LEN] at h
    split
    · simp only [res_bind, res_lift, res_pure]; rfl
    · rw [res_bind]
      refine congrArg (Bind.bind _) (funext fun b => ?_)
      rw [res_bind, compress_res, rbind_ok, ih (chunk.length - (bo + BLOCK_LEN))
        (by simp only [BLOCK_LEN]; omega) _ _ _ rfl]
  next h => simp only [res_bind, res_lift, res_pure]; rfl

theorem hash_one_chunk_res (chunk : Bytes) (key : Vector Word 8) (off : U64) (r : IsRoot) (flags : Byte)
    (p : Platform) :
    (T.hash_one_chunk chunk key off r flags p).res = Model.hash_one_chunk chunk key off r flags p := by
  simp only [T.hash_one_chunk, Model.hash_one_chunk, res_bind, res_lift, hash_one_chunk_loop_res]

theorem hash_chunks_parallel_res (cfg : Config) (input : Bytes) (key : Vector Word 8) (off : U64) (flags : Byte)
    (p : Platform) (out : Bytes) :
    (T.hash_chunks_parallel cfg input key off flags p out).res =
      Model.hash_chunks_parallel cfg input key off flags p out := by
  simp only [T.hash_chunks_parallel, Model.hash_chunks_parallel, res_bind, res_lift, hash_many_res, res_ite,
    hash_one_chunk_res, to_hash_res, rbind_ok, res_pure]
  rfl

theorem hash_parents_parallel_res (cfg : Config) (cs : Bytes) (key : Vector Word 8) (flags : Byte)
    (p : Platform) (out : Bytes) :
    (T.hash_parents_parallel cfg cs key flags p out).res =
      Model.hash_parents_parallel cfg cs key flags p out := by
  simp only [T.hash_parents_parallel, Model.hash_parents_parallel, res_bind, res_lift, hash_many_res, res_ite,
    res_pure]
  rfl

theorem hash_recurse_res (cfg : Config) (input : Bytes) (key : Vector Word 8) (off : U64) (flags : Byte)
    (p : Platform) (out : Bytes) :
    (T.hash_recurse cfg input key off flags p out).res = Model.hash_recurse cfg input key off flags p out := by
  induction hn : input.length using Nat.strongRecOn generalizing input off out with
  | ind n ih =>
  rw [T.hash_recurse, Model.hash_recurse, res_ite, hash_chunks_parallel_res]
  refine congrArg (ite _ _) ?_
  split
  next e he => rw [he]
  next l hl =>
    rw [hl]
    have h1 := left_len_lt hl
    have h2 := left_len_pos hl
    simp only [res_bind, res_lift, res_ite, res_pure, hash_parents_parallel_res,
      fun o ou => ih (input.take l).length (by simp; omega) (input.take l) o ou rfl,
      fun o ou => ih (input.drop l).length (by simp; omega) (input.drop l) o ou rfl]
    rfl

theorem condense_loop_res (cfg : Config) (key : Vector Word 8) (flags : Byte) (p : Platform) (n : Nat)
    (cs out : Bytes) :
    (T.condense_loop cfg key flags p n cs out).res = Model.condense_loop cfg key flags p n cs out := by
  induction n generalizing cs out with
  | zero => rfl
  | succ n ih =>
    rw [T.condense_loop, Model.condense_loop, res_ite]
    simp only [res_bind, res_lift, hash_parents_parallel_res, ih]
    rfl

theorem condense_root_res (cfg : Config) (cs : Bytes) (key : Vector Word 8) (flags : Byte) (p : Platform) :
    (T.condense_root cfg cs key flags p).res = Model.condense_root cfg cs key flags p := by
  simp only [T.condense_root, Model.condense_root, res_bind, res_lift, condense_loop_res, res_pure]
  rfl

theorem hash_internal_res (cfg : Config) (input : Bytes) (key : Vector Word 8) (flags : Byte) :
    (T.hash_internal cfg input key flags).res = Model.hash_internal cfg input key flags := by
  simp only [T.hash_internal, Model.hash_internal, res_bind, res_lift, res_ite, hash_one_chunk_res,
    hash_recurse_res, condense_root_res]

theorem oneShotXof_res (cfg : Config) (m : Spec.Mode) (input : Bytes) :
    (T.oneShotXof cfg m input).res = Model.oneShotXof cfg m input := by
  cases m <;> exact hash_internal_res ..

theorem oneShot_res (cfg : Config) (m : Spec.Mode) (input : Bytes) :
    (T.oneShot cfg m input).res = Model.oneShot cfg m input := by
  rw [T.oneShot, res_bind, oneShotXof_res]
  cases m <;> rfl

/-! ## Incremental hashing -/

theorem update_blocks_res (s : ChunkState) (input : Bytes) :
    (T.ChunkState.update_blocks s input).res = s.update_blocks input := by
  induction hn : input.length using Nat.strongRecOn generalizing s input with
  | ind n ih =>
  rw [T.ChunkState.update_blocks, Model.ChunkState.update_blocks, res_dite]
  split
  next h =>
    simp only [BLOCK_LEN] at h
    simp only [res_bind, res_lift, compress_res, rbind_ok,
      fun s => ih (input.drop BLOCK_LEN).length (by simp [BLOCK_LEN]; omega) s (input.drop BLOCK_LEN) rfl]
  next h => rfl

theorem update_first_res (s : ChunkState) (input : Bytes) :
    (T.ChunkState.update_first s input).res = s.update_first input := by
  simp only [T.ChunkState.update_first, Model.ChunkState.update_first, res_ite, res_bind, res_lift, compress_res,
    rbind_ok, res_pure]
  rfl

theorem cs_update_res (s : ChunkState) (input : Bytes) :
    (T.ChunkState.update s input).res = s.update input := by
  simp only [T.ChunkState.update, Model.ChunkState.update, res_bind, res_lift, update_first_res,
    update_blocks_res, res_pure]
  rfl

theorem merge_loop_res (h : Hasher) (off : U64) : (T.Hasher.merge_loop h off).res = h.merge_loop off := by
  induction hn : h.subtree_hashes.length using Nat.strongRecOn generalizing h with
  | ind n ih =>
  rw [T.Hasher.merge_loop, Model.Hasher.merge_loop, res_ite]
  refine congrArg (fun x => ite _ x _) ?_
  have e0 := T.Hasher.merge_parent_res h
  split
  next e he =>
    rw [e0] at he
    rw [he]
  next h' he =>
    rw [e0] at he
    rw [he]
    exact ih _ (by have := Model.Hasher.merge_parent_length he; omega) h' rfl

theorem push_chunk_hash_res (h : Hasher) (x : Vector Byte 32) (off : U64) :
    (T.Hasher.push_chunk_hash h x off).res = h.push_chunk_hash x off := by
  simp only [T.Hasher.push_chunk_hash, Model.Hasher.push_chunk_hash, res_bind, merge_loop_res, res_ite, res_pure]

set_option maxRecDepth 4000 in
theorem push_hashes_cons (c : Bytes) (cs : List Bytes) (h : Hasher) : T.Hasher.push_hashes (c :: cs) h = (do
    let hash ← arrayRef c 0 OUT_LEN
    let h ← T.Hasher.push_chunk_hash h hash h.chunk.offset
    let offset ← addU64 h.chunk.offset (BitVec.ofNat 64 CHUNK_LEN)
    T.Hasher.push_hashes cs { h with chunk := { h.chunk with offset } }) := rfl

theorem push_hashes_res (cs : List Bytes) (h : Hasher) :
    (T.Hasher.push_hashes cs h).res = Model.Hasher.push_hashes cs h := by
  induction cs generalizing h with
  | nil => rfl
  | cons c cs ih =>
    rw [push_hashes_cons, Model.Hasher.push_hashes, res_bind, res_lift]
    cases arrayRef c 0 OUT_LEN with
    | error e => rw [rbind_err, rbind_err]
    | ok b =>
      rw [rbind_ok, rbind_ok, res_bind, push_chunk_hash_res]
      cases h.push_chunk_hash b h.chunk.offset with
      | error e => rw [rbind_err, rbind_err]
      | ok h =>
        rw [rbind_ok, rbind_ok, res_bind, res_lift]
        cases addU64 h.chunk.offset (BitVec.ofNat 64 CHUNK_LEN) with
        | error e => rw [rbind_err, rbind_err]
        | ok o => rw [rbind_ok, rbind_ok, ih]

theorem update_loop_res (cfg : Config) (cs : List Bytes) (out : Bytes) (h : Hasher) :
    (T.Hasher.update_loop cfg cs out h).res = Model.Hasher.update_loop cfg cs out h := by
  induction hn : cs.length using Nat.strongRecOn generalizing cs out h with
  | ind n ih =>
  rw [T.Hasher.update_loop, Model.Hasher.update_loop, res_dite]
  split
  next he => rfl
  next he =>
    have h1 : 0 < cs.length := by
      cases cs with
      | nil => exact absurd List.take_nil he
      | cons c cs => simp
    have h2 : 0 < MAX_SIMD_DEGREE cfg := by unfold MAX_SIMD_DEGREE; split <;> decide
    simp only [res_bind, hash_many_res, push_hashes_res,
      fun o h => ih (cs.drop (MAX_SIMD_DEGREE cfg)).length (by simp only [List.length_drop]; omega) _ o h rfl]

theorem update_rest_res (cfg : Config) (h : Hasher) (input : Bytes) :
    (T.Hasher.update_rest cfg h input).res = h.update_rest cfg input := by
  simp only [T.Hasher.update_rest, Model.Hasher.update_rest, res_bind, res_lift, update_loop_res, res_ite,
    merge_loop_res, cs_update_res, res_pure]
  rfl

theorem update_res (cfg : Config) (h : Hasher) (input : Bytes) :
    (T.Hasher.update cfg h input).res = h.update cfg input := by
  simp only [T.Hasher.update, Model.Hasher.update, res_bind, res_lift, res_ite, cs_update_res, to_hash_res,
    rbind_ok, push_chunk_hash_res, update_rest_res, res_pure]
  rfl

theorem finalize_loop_res (h : Hasher) (w : Vector Byte 32) (l : List (Vector Byte 32)) :
    (T.Hasher.finalize_loop h w l).res = h.finalize_loop w l := by
  induction l generalizing w with
  | nil => rfl
  | cons s l ih =>
    cases l with
    | nil => rfl
    | cons s' l =>
      rw [T.Hasher.finalize_loop, res_bind, to_hash_res, rbind_ok, ih]
      · rfl
      · simp

theorem finalize_xof_res (h : Hasher) : (T.Hasher.finalize_xof h).res = h.finalize_xof := by
  simp only [T.Hasher.finalize_xof, Model.Hasher.finalize_xof, res_ite, res_bind, res_lift, to_hash_res, rbind_ok,
    finalize_loop_res]
  rcases h.subtree_hashes with _ | ⟨a, l⟩
  · rfl
  · simp only [finalize_loop_res]

theorem finalize_res (h : Hasher) : (T.Hasher.finalize h).res = h.finalize := by
  rw [T.Hasher.finalize, res_bind, finalize_xof_res]
  rfl

theorem updates_res (cfg : Config) (h : Hasher) (ss : List Bytes) :
    (T.Hasher.updates cfg h ss).res = h.updates cfg ss := by
  induction ss generalizing h with
  | nil => rfl
  | cons s ss ih => simp only [T.Hasher.updates, Model.Hasher.updates, res_bind, update_res, ih]

theorem session_res (cfg : Config) (prof : Profile) (cs : List HCall) (h : Hasher) :
    (T.Hasher.session cfg prof cs h).res = h.session cfg prof cs := by
  induction cs generalizing h with
  | nil => rfl
  | cons c cs ih =>
    cases c <;> simp only [T.Hasher.session, Model.Hasher.session, res_bind, update_res, finalize_xof_res, run_res, ih] <;> rfl

end Baokeshed.Proofs.T
