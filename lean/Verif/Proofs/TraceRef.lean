import Verif.SpecCallsRef
import Verif.Proofs.TraceHasher
import Verif.Proofs.Python

/-! # The compressions of reference_impl.rs and baokeshed.py -/

set_option linter.unusedVariables false
set_option linter.unusedSimpArgs false

namespace Baokeshed.Proofs.RT
open Baokeshed.Model Baokeshed.Proofs

/-! ## The monad -/

section
variable {ι α β : Type}

theorem res_bind (x : Rec ι α) (f : α → Rec ι β) : (x >>= f).res = x.res >>= fun a => (f a).res := by
  obtain ⟨r, l⟩ := x
  cases r <;> rfl

theorem res_pure (a : α) : (pure a : Rec ι α).res = .ok a := rfl
theorem res_lift (r : R α) : (liftM r : Rec ι α).res = r := rfl

theorem rbind_ok (a : α) (f : α → R β) : (Except.ok a >>= f) = f a := rfl

theorem res_ite {c : Prop} [Decidable c] (x y : Rec ι α) :
    (if c then x else y).res = if c then x.res else y.res := by split <;> rfl

theorem lift_ok (a : α) (f : α → Rec ι β) : ((liftM (Except.ok a : R α) : Rec ι α) >>= f) = f a := rfl

theorem rec_bind {x : Rec ι α} {a : α} {l : List ι} (f : α → Rec ι β) (h : x = ⟨.ok a, l⟩) :
    x >>= f = ⟨(f a).res, l ++ (f a).log⟩ := by
  subst h; rfl

theorem rec_bind' {x : Rec ι α} {a : α} {l l' : List ι} {r : R β} {f : α → Rec ι β} (h : x = ⟨.ok a, l⟩) (h' : f a = ⟨r, l'⟩) :
    x >>= f = ⟨r, l ++ l'⟩ := by
  rw [rec_bind f h, h']

theorem rec_pure (a : α) : (pure a : Rec ι α) = ⟨.ok a, []⟩ := rfl

end

/-! ## Without the record, the original definitions -/

namespace Ref
open Baokeshed.Model.RefT

theorem chaining_value_res (o : Ref.Output) : (RefT.Output.chaining_value o).res = .ok o.chaining_value := rfl

theorem root_output_loop_res (o : Ref.Output) (off : U64) (out : Bytes) :
    (RefT.Output.root_output_loop o off out).res = o.root_output_loop off out := by
  induction hl : out.length using Nat.strongRecOn generalizing out off with
  | ind l ih =>
  rw [RefT.Output.root_output_loop, Ref.Output.root_output_loop]
  by_cases h : out = []
  · rw [dif_pos h, dif_pos h]; rfl
  · have hp : 0 < out.length := List.length_pos_iff.2 h
    rw [dif_neg h, dif_neg h, res_bind]
    show (_ : R Bytes) = _
    simp only [RefT.compress]
    show ((_ : RefT.TR Bytes).res) = _
    rw [res_bind]
    refine congrArg (Bind.bind _) (funext fun off' => ?_)
    rw [res_bind, ih _ (by simp only [List.length_drop, Ref.OUT_LEN]; omega) _ _ rfl]
    rfl

theorem compress_full_res (s : Ref.ChunkState) : (RefT.ChunkState.compress_full s).res = s.compress_full := by
  rw [RefT.ChunkState.compress_full, Ref.ChunkState.compress_full, res_ite]
  refine ite_congr rfl (fun _ => ?_) (fun _ => rfl)
  cases e : addN 8 s.blocks_compressed 1 <;> rfl

theorem chunk_update_loop_res (n : Nat) (s : Ref.ChunkState) (input : Bytes) :
    (RefT.ChunkState.update_loop n s input).res = Ref.ChunkState.update_loop n s input := by
  induction n generalizing s input with
  | zero => rw [RefT.ChunkState.update_loop, Ref.ChunkState.update_loop, res_ite]; rfl
  | succ n ih =>
    rw [RefT.ChunkState.update_loop, Ref.ChunkState.update_loop, res_ite]
    simp only [res_bind, compress_full_res, res_lift, ih, res_pure]

theorem merge_loop_res (h : Ref.Hasher) (cv : Vector Word 8) (n : Nat) :
    (RefT.Hasher.merge_loop h cv n).res = h.merge_loop cv n := by
  induction hl : h.subtree_stack.length using Nat.strongRecOn generalizing h cv with
  | ind l ih =>
  rw [RefT.Hasher.merge_loop, Ref.Hasher.merge_loop, res_ite]
  refine ite_congr rfl (fun _ => ?_) (fun _ => rfl)
  split
  next e he =>
    split
    next e' he' => rw [he] at he'; cases he'; rfl
    next he' => rw [he] at he'; cases he'
  next left h' he =>
    split
    next e he' => rw [he] at he'; cases he'
    next left' h'' he' =>
      rw [he] at he'
      cases he'
      rw [res_bind, chaining_value_res]
      exact ih _ (by rw [← hl]; exact Ref.Hasher.pop_stack_length he) _ _ rfl

theorem push_res (h : Ref.Hasher) (cv : Vector Word 8) (t : U64) :
    (RefT.Hasher.push_chunk_chaining_value h cv t).res = h.push_chunk_chaining_value cv t := by
  simp only [RefT.Hasher.push_chunk_chaining_value, Ref.Hasher.push_chunk_chaining_value, res_bind, merge_loop_res, res_lift]

theorem finish_chunk_res (h : Ref.Hasher) : (RefT.Hasher.finish_chunk h).res = h.finish_chunk := by
  rw [RefT.Hasher.finish_chunk, Ref.Hasher.finish_chunk, res_ite]
  refine ite_congr rfl (fun _ => ?_) (fun _ => rfl)
  rw [res_bind, chaining_value_res, rbind_ok, res_bind, res_lift]
  dsimp only
  cases addU64 h.chunk_state.offset (BitVec.ofNat 64 Ref.CHUNK_LEN) with
  | error e => rfl
  | ok off =>
    rw [rbind_ok, rbind_ok, res_bind, push_res]
    rfl

theorem update_loop_res (n : Nat) (h : Ref.Hasher) (input : Bytes) :
    (RefT.Hasher.update_loop n h input).res = Ref.Hasher.update_loop n h input := by
  induction n generalizing h input with
  | zero => rw [RefT.Hasher.update_loop, Ref.Hasher.update_loop, res_ite]; rfl
  | succ n ih =>
    rw [RefT.Hasher.update_loop, Ref.Hasher.update_loop, res_ite]
    simp only [res_bind, finish_chunk_res, res_lift, ih, res_pure, RefT.ChunkState.update, chunk_update_loop_res]
    rfl

theorem update_res (h : Ref.Hasher) (input : Bytes) : (RefT.Hasher.update h input).res = h.update input :=
  update_loop_res ..

theorem finalize_loop_res (h : Ref.Hasher) (S : List (Vector Word 8)) : ∀ o : Ref.Output,
    (RefT.Hasher.finalize_loop h o S).res = .ok (h.finalize_loop o S) := by
  induction S with
  | nil => intro o; rfl
  | cons s S ih => intro o; rw [RefT.Hasher.finalize_loop, res_bind, chaining_value_res]; exact ih _

theorem finalize_res (h : Ref.Hasher) (out : Bytes) : (RefT.Hasher.finalize h out).res = h.finalize out := by
  rw [RefT.Hasher.finalize, res_bind, finalize_loop_res]
  exact root_output_loop_res ..

end Ref

namespace Py

theorem compress_res (cv : List Nat) (b : Bytes) (l o f : Nat) : (PyT.compress cv b l o f).res = Py.compress cv b l o f := rfl

theorem chaining_value_res (o : Py.Output) : (PyT.Output.chaining_value o).res = o.chaining_value := by
  rw [PyT.Output.chaining_value, Py.Output.chaining_value, res_bind]; rfl

theorem root_output_loop_res (o : Py.Output) (len n : Nat) : ∀ (buf : Bytes) (off : Nat),
    (PyT.Output.root_output_loop o len n buf off).res = o.root_output_loop len n buf off := by
  induction n with
  | zero => intro buf off; rw [PyT.Output.root_output_loop, Py.Output.root_output_loop, res_ite]; rfl
  | succ n ih =>
    intro buf off
    rw [PyT.Output.root_output_loop, Py.Output.root_output_loop, res_ite]
    simp only [res_bind, compress_res, res_lift, ih, res_pure]

theorem hash_chunk_loop_res (chunk : Bytes) (off flags : Nat) (cv : List Nat) (bf pos : Nat) :
    (PyT.hash_chunk_loop chunk off flags cv bf pos).res = Py.hash_chunk_loop chunk off flags cv bf pos := by
  induction hl : chunk.length - pos using Nat.strongRecOn generalizing cv bf pos with
  | ind l ih =>
  rw [PyT.hash_chunk_loop, Py.hash_chunk_loop]
  by_cases h : Py.BLOCK_LEN < chunk.length - pos
  · rw [dif_pos h, dif_pos h, res_bind, compress_res]
    refine congrArg (Bind.bind _) (funext fun a => ?_)
    exact ih _ (by simp only [Py.BLOCK_LEN] at *; omega) _ _ _ rfl
  · rw [dif_neg h, dif_neg h]; rfl

theorem hash_chunk_res (chunk : Bytes) (kw : List Nat) (off flags : Nat) :
    (PyT.hash_chunk chunk kw off flags).res = Py.hash_chunk chunk kw off flags := by
  rw [PyT.hash_chunk, Py.hash_chunk, res_bind, hash_chunk_loop_res]; rfl

theorem hash_parent_res (l r : Py.Output) (kw : List Nat) (flags : Nat) :
    (PyT.hash_parent l r kw flags).res = Py.hash_parent l r kw flags := by
  simp only [PyT.hash_parent, Py.hash_parent, res_bind, chaining_value_res]; rfl

theorem hash_recurse_res (n : Nat) : ∀ (input : Bytes) (kw : List Nat) (off flags : Nat),
    (PyT.hash_recurse n input kw off flags).res = Py.hash_recurse n input kw off flags := by
  induction n with
  | zero => intros; rfl
  | succ n ih =>
    intro input kw off flags
    rw [PyT.hash_recurse, Py.hash_recurse, res_ite]
    simp only [res_bind, hash_chunk_res, hash_parent_res, ih]

theorem hash_internal_res (input : Bytes) (kw : List Nat) (flags len : Nat) :
    (PyT.hash_internal input kw flags len).res = Py.hash_internal input kw flags len := by
  rw [PyT.hash_internal, Py.hash_internal, res_bind, hash_recurse_res]
  refine congrArg (Bind.bind _) (funext fun o => ?_)
  exact root_output_loop_res ..

end Py
end Baokeshed.Proofs.RT
