import Verif.Proofs.EraseIsa
import Verif.Proofs.Lib
import Verif.SpecCost

/-! # How many bytes are copied into block buffers -/

set_option linter.unusedVariables false

namespace Baokeshed.Proofs.I
open Baokeshed.Model Baokeshed.Model.I Baokeshed.Spec

theorem copied_append (l l' : List Ev) : copied (l ++ l') = copied l + copied l' := by
  unfold copied; rw [List.map_append, List.sum_append]

/-- `x` copies at most `n` bytes, and `Q a` less than that if it succeeds with the result `a`. -/
structure Cp {α : Type} (n : Nat) (Q : α → Nat) (x : IR α) : Prop where
  le : copied x.log ≤ n
  ok : ∀ a, x.res = .ok a → copied x.log + Q a ≤ n

/-- `x` copies nothing. -/
abbrev Free {α : Type} (x : IR α) : Prop := ∀ n, Cp n (fun _ => n) x

theorem Cp.bind {α β : Type} {n : Nat} {Q : α → Nat} {Q' : β → Nat} {x : IR α} {f : α → IR β} (hx : Cp n Q x)
    (hf : ∀ a, x.res = .ok a → Cp (Q a) Q' (f a)) : Cp n Q' (x >>= f) := by
  obtain ⟨r, l⟩ := x
  cases r with
  | error e => exact ⟨hx.le, fun a ha => by cases ha⟩
  | ok a =>
    have h1 : copied l + Q a ≤ n := hx.ok a rfl
    obtain ⟨h2, h3⟩ := hf a rfl
    constructor
    · show copied (l ++ (f a).log) ≤ n
      rw [copied_append]; omega
    · intro b hb
      have : copied (f a).log + Q' b ≤ Q a := h3 b hb
      show copied (l ++ (f a).log) + _ ≤ n
      rw [copied_append]; omega

theorem Cp.pure {α : Type} {n : Nat} {Q : α → Nat} {a : α} (h : Q a ≤ n) : Cp n Q (Pure.pure a : IR α) :=
  ⟨Nat.zero_le _, fun b hb => by cases hb; show 0 + _ ≤ n; omega⟩

theorem Cp.lift {α : Type} {n : Nat} (r : R α) : Cp n (fun _ => n) (liftM r : IR α) :=
  ⟨Nat.zero_le _, fun b hb => by show 0 + n ≤ n; omega⟩

theorem Cp.error {α : Type} {n : Nat} {Q : α → Nat} (e : Panic) : Cp n Q (⟨.error e, []⟩ : IR α) :=
  ⟨Nat.zero_le _, fun b hb => by cases hb⟩

theorem Cp.ev {α : Type} {n : Nat} {r : R α} {c : Ev} (h : weight c = 0) : Cp n (fun _ => n) (⟨r, [c]⟩ : IR α) := by
  have e : copied [c] = 0 := by simp [copied, h]
  refine ⟨?_, fun b hb => ?_⟩
  · show copied [c] ≤ n; omega
  · show copied [c] + n ≤ n; omega

theorem free_compress (p : Platform) (cv : Vector Word 8) (b : Vector Byte 64) (l : Byte) (o : U64) (f : Byte) :
    Free (I.compress p cv b l o f) := fun n => by cases p <;> exact Cp.ev rfl

theorem free_compress_xof (p : Platform) (cv : Vector Word 8) (b : Vector Byte 64) (l : Byte) (o : U64) (f : Byte) :
    Free (I.compress_xof p cv b l o f) := fun n => by cases p <;> exact Cp.ev rfl

theorem free_to_hash (o : Output) : Free (I.Output.to_hash o) :=
  fun n => (free_compress _ _ _ _ _ _ n).bind fun _ _ => Cp.pure (Nat.le_refl _)

theorem free_read (prof : Profile) (o : Output) : Free (I.Output.read prof o) :=
  fun n => (free_compress_xof _ _ _ _ _ _ n).bind fun _ _ => (Cp.lift _).bind fun _ _ => Cp.pure (Nat.le_refl _)

theorem free_run (prof : Profile) (os : List OutCall) : ∀ o, Free (I.Output.run prof os o) := by
  induction os with
  | nil => intro o n; exact Cp.pure (Nat.le_refl _)
  | cons c os ih =>
    intro o n
    cases c
    · exact (free_read prof o n).bind fun _ _ => (ih _ n).bind fun _ _ => Cp.pure (Nat.le_refl _)
    · exact (free_to_hash o n).bind fun _ _ => (ih _ n).bind fun _ _ => Cp.pure (Nat.le_refl _)

/-! ## `hash_many` -/

theorem free_portable_loop (key : Vector Word 8) (d : U64) (f fs fe : Byte) (xs : List Bytes) :
    ∀ off out, Free (I.Portable.hash_many_loop key d f fs fe xs off out) := by
  induction xs with
  | nil => intro off out n; exact Cp.pure (Nat.le_refl _)
  | cons x xs ih =>
    intro off out n
    rw [I.Portable.hash_many_loop]
    split
    · exact Cp.pure (Nat.le_refl _)
    · exact Cp.bind (Cp.ev rfl : Cp n _ (I.enter _)) fun _ _ => (Cp.lift _).bind fun _ _ => (Cp.lift _).bind fun _ _ =>
        (ih _ _ n).bind fun _ _ => Cp.pure (Nat.le_refl _)

theorem free_sse41_tail (key : Vector Word 8) (d : U64) (f fs fe : Byte) (xs : List Bytes) :
    ∀ off out, Free (I.Sse41.hash_many_tail key d f fs fe xs off out) := by
  induction xs with
  | nil => intro off out n; exact Cp.pure (Nat.le_refl _)
  | cons x xs ih =>
    intro off out n
    rw [I.Sse41.hash_many_tail]
    split
    · exact Cp.pure (Nat.le_refl _)
    · exact Cp.bind (Cp.ev rfl : Cp n _ (I.enter _)) fun _ _ => (Cp.lift _).bind fun _ _ => (Cp.lift _).bind fun _ _ =>
        (ih _ _ n).bind fun _ _ => Cp.pure (Nat.le_refl _)

theorem free_sse41_loop (cap : Nat) (key : Vector Word 8) (d : U64) (f fs fe : Byte) (xs : List Bytes) :
    ∀ off out, Free (I.Sse41.hash_many_loop cap key d f fs fe xs off out) := by
  induction hn : xs.length using Nat.strongRecOn generalizing xs with
  | ind k ih =>
    intro off out n
    subst hn
    rw [I.Sse41.hash_many_loop]
    split
    next h =>
      have h' : 4 ≤ xs.length := h.1
      exact (Cp.lift _).bind fun _ _ => Cp.bind (Cp.ev rfl : Cp n _ (I.enter _)) fun _ _ => (Cp.lift _).bind fun _ _ =>
        (Cp.lift _).bind fun _ _ => (ih _ (by simp only [List.length_drop, Sse41.DEGREE]; omega) _ rfl _ _ n).bind fun _ _ =>
        Cp.pure (Nat.le_refl _)
    next => exact free_sse41_tail _ _ _ _ _ _ _ _ n

theorem free_sse41_many (cap : Nat) (xs : List Bytes) (key : Vector Word 8) (off d : U64) (f fs fe : Byte) (out : Bytes) :
    Free (I.Sse41.hash_many cap xs key off d f fs fe out) :=
  fun n => Cp.bind (Cp.ev rfl : Cp n _ (I.enter _)) fun _ _ => (Cp.lift _).bind fun _ _ => free_sse41_loop _ _ _ _ _ _ _ _ _ n

theorem free_avx2_loop (cap : Nat) (key : Vector Word 8) (d : U64) (f fs fe : Byte) (xs : List Bytes) :
    ∀ off out, Free (I.Avx2.hash_many_loop cap key d f fs fe xs off out) := by
  induction hn : xs.length using Nat.strongRecOn generalizing xs with
  | ind k ih =>
    intro off out n
    subst hn
    rw [I.Avx2.hash_many_loop]
    split
    next h =>
      have h' : 8 ≤ xs.length := h.1
      exact (Cp.lift _).bind fun _ _ => Cp.bind (Cp.ev rfl : Cp n _ (I.enter _)) fun _ _ => (Cp.lift _).bind fun _ _ =>
        (Cp.lift _).bind fun _ _ => (ih _ (by simp only [List.length_drop, Avx2.DEGREE]; omega) _ rfl _ _ n).bind fun _ _ =>
        Cp.pure (Nat.le_refl _)
    next => exact free_sse41_many _ _ _ _ _ _ _ _ _ n

theorem free_hash_many (p : Platform) (cap : Nat) (xs : List Bytes) (key : Vector Word 8) (off d : U64) (f fs fe : Byte)
    (out : Bytes) : Free (I.hash_many p cap xs key off d f fs fe out) := by
  intro n
  cases p
  · exact (Cp.lift _).bind fun _ _ => free_portable_loop _ _ _ _ _ _ _ _ n
  · exact free_sse41_many _ _ _ _ _ _ _ _ _ n
  · exact Cp.bind (Cp.ev rfl : Cp n _ (I.enter _)) fun _ _ => (Cp.lift _).bind fun _ _ => free_avx2_loop _ _ _ _ _ _ _ _ _ n

/-! ## One-shot functions -/

/-- `x` copies `n` bytes if it succeeds and at most as many if it does not. -/
structure Cx {α : Type} (n : Nat) (x : IR α) : Prop where
  le : copied x.log ≤ n
  eq : ∀ a, x.res = .ok a → copied x.log = n

theorem Free.zero {α : Type} {x : IR α} (h : Free x) : copied x.log = 0 := Nat.le_zero.1 (h 0).le

theorem Cx.free {α : Type} {x : IR α} (h : Cx 0 x) : Free x :=
  fun n => ⟨by have := h.le; omega, fun a _ => by have := h.le; omega⟩

theorem Cx.of_free {α : Type} {x : IR α} (h : Free x) : Cx 0 x := ⟨(h 0).le, fun _ _ => h.zero⟩

theorem Cx.after {α β : Type} {n : Nat} {x : IR α} {f : α → IR β} (hx : Free x) (hf : ∀ a, x.res = .ok a → Cx n (f a)) :
    Cx n (x >>= f) := by
  have h0 := hx.zero
  obtain ⟨r, l⟩ := x
  cases r with
  | error e => exact ⟨by show copied l ≤ n; have : copied l = 0 := h0; omega, fun a ha => by cases ha⟩
  | ok a =>
    have h0 : copied l = 0 := h0
    obtain ⟨h2, h3⟩ := hf a rfl
    refine ⟨?_, fun b hb => ?_⟩
    · show copied (l ++ (f a).log) ≤ n
      rw [copied_append]; omega
    · have := h3 b hb
      show copied (l ++ (f a).log) = n
      rw [copied_append]; omega

theorem Cx.before {α β : Type} {n : Nat} {x : IR α} {f : α → IR β} (hx : Cx n x) (hf : ∀ a, x.res = .ok a → Free (f a)) :
    Cx n (x >>= f) := by
  obtain ⟨r, l⟩ := x
  cases r with
  | error e => exact ⟨hx.le, fun a ha => by cases ha⟩
  | ok a =>
    have h1 : copied l = n := hx.eq a rfl
    have h2 := (hf a rfl).zero
    have e : copied (l ++ (f a).log) = n := by rw [copied_append]; omega
    exact ⟨Nat.le_of_eq e, fun b hb => e⟩

theorem Free.lift {α : Type} (r : R α) : Free (liftM r : IR α) := fun _ => Cp.lift r

theorem Free.pure {α : Type} (a : α) : Free (Pure.pure a : IR α) := fun _ => Cp.pure (Nat.le_refl _)

theorem Free.bind {α β : Type} {x : IR α} {f : α → IR β} (hx : Free x) (hf : ∀ a, x.res = .ok a → Free (f a)) :
    Free (x >>= f) := fun n => (hx n).bind fun a ha => hf a ha n

theorem Cx.error {α : Type} {n : Nat} (e : Panic) : Cx n (⟨.error e, []⟩ : IR α) := ⟨Nat.zero_le _, fun b hb => by cases hb⟩

theorem cx_hash_one_chunk_loop (p : Platform) (c : Bytes) (off : U64) (r : IsRoot) (f : Byte) :
    ∀ (cv : Vector Word 8) (bf : Byte) (bo : Nat), bo % 64 = 0 → Cx (c.length % 64) (I.hash_one_chunk_loop p c off r f cv bf bo) := by
  intro cv bf bo
  induction hn : c.length - bo using Nat.strongRecOn generalizing cv bf bo with
  | ind k ih =>
    intro hb
    subst hn
    rw [I.hash_one_chunk_loop]
    split
    next h =>
      have h' : bo + 64 ≤ c.length := h
      split
      next he =>
        have he' : bo + 64 = c.length := he
        rw [show c.length % 64 = 0 by omega]
        exact Cx.of_free ((Free.lift _).bind fun _ _ => Free.pure _)
      next =>
        exact Cx.after (Free.lift _) fun _ _ => Cx.after (free_compress _ _ _ _ _ _) fun _ _ =>
          ih _ (by simp only [BLOCK_LEN]; omega) _ _ _ rfl (by simp only [BLOCK_LEN]; omega)
    next h =>
      have h' : ¬ bo + 64 ≤ c.length := h
      refine Cx.after (Free.lift _) fun l hl => ?_
      have hl' : l = c.length - bo ∧ bo ≤ c.length := by
        have : subN c.length bo = .ok l := hl
        unfold subN at this
        split at this
        · cases this; exact ⟨rfl, by assumption⟩
        · cases this
      refine Cx.before (n := c.length % 64) (x := I.enter (.copy l)) ?_ fun _ _ => (Free.lift _).bind fun _ _ => (Free.lift _).bind fun _ _ => Free.pure _
      have e : copied (I.enter (.copy l)).log = c.length % 64 := by
        show copied [Ev.copy l] = _
        simp only [copied, weight, List.map_cons, List.map_nil, List.sum_cons, List.sum_nil]
        omega
      exact ⟨Nat.le_of_eq e, fun _ _ => e⟩

theorem cx_hash_one_chunk (c : Bytes) (key : Vector Word 8) (off : U64) (r : IsRoot) (f : Byte) (p : Platform) :
    Cx (c.length % 64) (I.hash_one_chunk c key off r f p) :=
  Cx.after (Free.lift _) fun _ _ => cx_hash_one_chunk_loop _ _ _ _ _ _ _ _ rfl

theorem cx_hash_chunks_parallel (cfg : Config) (x : Bytes) (key : Vector Word 8) (off : U64) (f : Byte) (p : Platform)
    (out : Bytes) : Cx (x.length % 64) (I.hash_chunks_parallel cfg x key off f p out) := by
  refine Cx.after (Free.lift _) fun _ _ => Cx.after (Free.lift _) fun _ _ => Cx.after (Free.lift _) fun _ _ =>
    Cx.after (Free.lift _) fun _ _ => Cx.after (free_hash_many _ _ _ _ _ _ _ _ _ _) fun _ _ => ?_
  have hr : (chunksRemainder CHUNK_LEN x).length % 64 = x.length % 64 := by
    unfold chunksRemainder
    rw [List.length_drop]
    simp only [CHUNK_LEN]
    omega
  dsimp only
  split
  · refine Cx.after (Free.lift _) fun _ _ => Cx.after (Free.lift _) fun _ _ => Cx.before (hr ▸ cx_hash_one_chunk _ _ _ _ _ _) fun _ _ =>
      (free_to_hash _).bind fun _ _ => (Free.lift _).bind fun _ _ => Free.pure _
  next h0 =>
    have h0 : chunksRemainder CHUNK_LEN x = [] := Classical.not_not.1 h0
    rw [h0] at hr
    rw [← hr]
    exact Cx.of_free (Free.pure _)

theorem free_hash_parents_parallel (cfg : Config) (x : Bytes) (key : Vector Word 8) (f : Byte) (p : Platform)
    (out : Bytes) : Free (I.hash_parents_parallel cfg x key f p out) := by
  intro n
  refine (Cp.lift _).bind fun _ _ => (Cp.lift _).bind fun _ _ => (Cp.lift _).bind fun _ _ => (Cp.lift _).bind fun _ _ =>
    (free_hash_many _ _ _ _ _ _ _ _ _ _ n).bind fun _ _ => ?_
  dsimp only
  split
  · exact (Cp.lift _).bind fun _ _ => (Cp.lift _).bind fun _ _ => Cp.pure (Nat.le_refl _)
  · exact Cp.pure (Nat.le_refl _)

theorem cx_hash_recurse (cfg : Config) (key : Vector Word 8) (f : Byte) (p : Platform) (x : Bytes) :
    ∀ off out, Cx (x.length % 64) (I.hash_recurse cfg x key off f p out) := by
  induction hn : x.length using Nat.strongRecOn generalizing x with
  | ind k ih =>
    intro off out
    subst hn
    rw [I.hash_recurse]
    split
    · exact cx_hash_chunks_parallel _ _ _ _ _ _ _
    · split
      · exact Cx.error _
      next l hl =>
        have l1 := left_len_lt hl
        have l2 := left_len_pos hl
        have l3 : l % 64 = 0 := by
          rw [(left_len_val hl).2, show CHUNK_LEN = 32 * 64 from rfl, ← Nat.mul_assoc]
          exact Nat.mul_mod_left _ _
        have hL : ∀ off out, Free (I.hash_recurse cfg (x.take l) key off f p out) := fun off out => by
          have := ih _ (by simp only [List.length_take]; omega) (x.take l) rfl off out
          rw [List.length_take, Nat.min_eq_left (by omega), l3] at this
          exact this.free
        have hR : ∀ off out, Cx (x.length % 64) (I.hash_recurse cfg (x.drop l) key off f p out) := fun off out => by
          have := ih _ (by simp only [List.length_drop]; omega) (x.drop l) rfl off out
          rw [List.length_drop, show (x.length - l) % 64 = x.length % 64 by omega] at this
          exact this
        refine Cx.after (Free.lift _) fun _ _ => Cx.after (Free.lift _) fun _ _ => Cx.after (Free.lift _) fun _ _ =>
          Cx.after (hL _ _) fun _ _ => Cx.before (hR _ _) fun _ _ => (Free.lift _).bind fun _ _ => (Free.lift _).bind fun _ _ => ?_
        dsimp only
        split
        · exact (Free.lift _).bind fun _ _ => (Free.lift _).bind fun _ _ => Free.pure _
        · exact (Free.lift _).bind fun _ _ => free_hash_parents_parallel _ _ _ _ _ _

theorem free_condense_loop (cfg : Config) (key : Vector Word 8) (f : Byte) (p : Platform) (k : Nat) :
    ∀ c out, Free (I.condense_loop cfg key f p k c out) := by
  induction k with
  | zero => intro c out n; exact Cp.error _
  | succ k ih =>
    intro c out n
    rw [I.condense_loop]
    split
    · exact (free_hash_parents_parallel _ _ _ _ _ _ n).bind fun _ _ => (Cp.lift _).bind fun _ _ => (Cp.lift _).bind fun _ _ =>
        (Cp.lift _).bind fun _ _ => ih _ _ n
    · exact Cp.pure (Nat.le_refl _)

theorem cx_hash_internal (cfg : Config) (x : Bytes) (key : Vector Word 8) (f : Byte) :
    Cx (x.length % 64) (I.hash_internal cfg x key f) := by
  unfold I.hash_internal
  dsimp only
  split
  · exact cx_hash_one_chunk _ _ _ _ _ _
  · exact Cx.before (cx_hash_recurse _ _ _ _ _ _ _) fun _ _ => (Free.lift _).bind fun _ _ => (Free.lift _).bind fun _ _ =>
      (Free.lift _).bind fun _ _ => (free_condense_loop _ _ _ _ _ _ _).bind fun _ _ => (Free.lift _).bind fun _ _ =>
      Free.pure _

theorem cx_oneShotXof (cfg : Config) (m : Mode) (x : Bytes) : Cx (x.length % 64) (I.oneShotXof cfg m x) := by
  cases m <;> exact cx_hash_internal _ _ _ _

theorem cx_oneShotRun (cfg : Config) (prof : Profile) (m : Mode) (x : Bytes) (os : List OutCall) :
    Cx (x.length % 64) (I.oneShotRun cfg prof m x os) :=
  Cx.before (cx_oneShotXof cfg m x) fun _ _ => (free_run _ _ _).bind fun _ _ => Free.pure _

/-! ## Incremental hashing -/

theorem Cp.mono {α : Type} {n n' : Nat} {Q : α → Nat} {x : IR α} (h : Cp n Q x) (hn : n ≤ n') : Cp n' Q x :=
  ⟨Nat.le_trans h.le hn, fun a ha => Nat.le_trans (h.ok a ha) hn⟩

theorem Cp.weaken {α : Type} {n : Nat} {Q Q' : α → Nat} {x : IR α} (h : Cp n Q x) (hq : ∀ a, Q' a ≤ Q a) : Cp n Q' x :=
  ⟨h.le, fun a ha => Nat.le_trans (Nat.add_le_add_left (hq a) _) (h.ok a ha)⟩

theorem fill_buf_ok {s : ChunkState} {x : Bytes} {a : ChunkState × Bytes} (h : s.fill_buf x = .ok a) :
    a.2 = x.drop (min (BLOCK_LEN - s.buf_len) x.length) := by
  unfold Model.ChunkState.fill_buf at h
  cases hw : subN BLOCK_LEN s.buf_len with
  | error e => rw [hw] at h; cases h
  | ok w =>
    have hw' : w = BLOCK_LEN - s.buf_len := by
      unfold subN at hw
      split at hw <;> cases hw <;> rfl
    subst hw'
    rw [hw] at h
    simp only [bind, Except.bind] at h
    split at h
    · cases h
    · split at h
      · cases h
      · split at h
        · cases h
        · cases h; rfl

theorem cp_fill_buf (s : ChunkState) (x : Bytes) : Cp x.length (fun a => a.2.length) (I.ChunkState.fill_buf s x) := by
  have e : ∀ r : R (ChunkState × Bytes), copied ((I.enter (.copy (min (BLOCK_LEN - s.buf_len) x.length))) >>= fun _ => (liftM r : IR _)).log =
      min (BLOCK_LEN - s.buf_len) x.length := by
    intro r
    show copied ([Ev.copy _] ++ []) = _
    simp [copied, weight]
  refine ⟨?_, fun a ha => ?_⟩
  · rw [I.ChunkState.fill_buf, e]; omega
  · rw [I.fill_buf_res] at ha
    rw [I.ChunkState.fill_buf, e, fill_buf_ok ha, List.length_drop]
    omega

theorem cp_update_blocks (x : Bytes) : ∀ s, Cp x.length (fun a => a.2.length) (I.ChunkState.update_blocks s x) := by
  induction hn : x.length using Nat.strongRecOn generalizing x with
  | ind k ih =>
    intro s
    subst hn
    rw [I.ChunkState.update_blocks]
    split
    next h =>
      have h' : 64 < x.length := h
      refine (Cp.lift _).bind fun _ _ => (Cp.lift _).bind fun _ _ => (free_compress _ _ _ _ _ _ x.length).bind fun _ _ =>
        (Cp.lift _).bind fun _ _ => ?_
      exact (ih _ (by simp only [List.length_drop, BLOCK_LEN]; omega) _ rfl _).mono (by rw [List.length_drop]; omega)
    next => exact Cp.pure (Nat.le_refl _)

theorem cp_update_first (s : ChunkState) (x : Bytes) : Cp x.length (fun a => a.2.length) (I.ChunkState.update_first s x) := by
  unfold I.ChunkState.update_first
  split
  · refine (cp_fill_buf s x).bind fun a _ => ?_
    dsimp only
    split
    · exact (Cp.lift _).bind fun _ _ => (free_compress _ _ _ _ _ _ _).bind fun _ _ => (Cp.lift _).bind fun _ _ =>
        Cp.pure (Nat.le_refl _)
    · exact Cp.pure (Nat.le_refl _)
  · exact Cp.pure (Nat.le_refl _)

/-- A chunk state copies each byte at most once. -/
theorem cp_chunk_update (s : ChunkState) (x : Bytes) : Cp x.length (fun _ => 0) (I.ChunkState.update s x) :=
  (cp_update_first s x).bind fun _ _ => (cp_update_blocks _ _).bind fun _ _ => (cp_fill_buf _ _).bind fun _ _ =>
    (Cp.lift _).bind fun _ _ => (Cp.lift _).bind fun _ _ => Cp.pure (Nat.zero_le _)

theorem free_merge_parent (h : Hasher) : Free (I.Hasher.merge_parent h) := by
  intro n
  unfold I.Hasher.merge_parent
  split
  · exact (free_to_hash _ n).bind fun _ _ => Cp.pure (Nat.le_refl _)
  · exact Cp.error _

theorem free_merge_loop (h : Hasher) (off : U64) : Free (I.Hasher.merge_loop h off) := by
  induction hn : h.subtree_hashes.length using Nat.strongRecOn generalizing h with
  | ind k ih =>
    intro n
    subst hn
    have hm := free_merge_parent h n
    rw [I.Hasher.merge_loop]
    split
    · split
      next e he => exact ⟨hm.le, fun b hb => by cases hb⟩
      next h' he =>
        have hl : h'.subtree_hashes.length < h.subtree_hashes.length :=
          Model.Hasher.merge_parent_length (by rw [← I.Hasher.merge_parent_res]; exact he)
        have hi := ih _ hl h' rfl n
        have h0 : copied (I.Hasher.merge_parent h).log = 0 := by have := hm.ok _ he; omega
        refine ⟨?_, fun a ha => ?_⟩
        · show copied (_ ++ _) ≤ n
          rw [copied_append, h0]; have := hi.le; omega
        · show copied (_ ++ _) + n ≤ n
          rw [copied_append, h0]; have := hi.ok a ha; omega
    · exact Cp.pure (Nat.le_refl _)

theorem free_push_chunk_hash (h : Hasher) (x : Vector Byte 32) (off : U64) : Free (I.Hasher.push_chunk_hash h x off) := by
  intro n
  refine (free_merge_loop h off n).bind fun _ _ => ?_
  split
  · exact Cp.pure (Nat.le_refl _)
  · exact Cp.error _

set_option maxRecDepth 8000 in
theorem free_push_hashes (cs : List Bytes) : ∀ h, Free (I.Hasher.push_hashes cs h) := by
  induction cs with
  | nil => intro h n; exact Cp.pure (Nat.le_refl _)
  | cons c cs ih =>
    intro h n
    rw [push_hashes_cons]
    exact (Cp.lift _).bind fun _ _ => (free_push_chunk_hash _ _ _ n).bind fun _ _ => (Cp.lift _).bind fun _ _ => ih _ n

theorem free_update_loop (cfg : Config) (cs : List Bytes) : ∀ out h, Free (I.Hasher.update_loop cfg cs out h) := by
  induction hn : cs.length using Nat.strongRecOn generalizing cs with
  | ind k ih =>
    intro out h n
    subst hn
    rw [I.Hasher.update_loop]
    split
    · exact Cp.pure (Nat.le_refl _)
    next he =>
      have h1 : 0 < cs.length := by
        cases cs with
        | nil => exact absurd List.take_nil he
        | cons c cs => simp
      have h2 : 0 < MAX_SIMD_DEGREE cfg := by unfold MAX_SIMD_DEGREE; split <;> decide
      exact (free_hash_many _ _ _ _ _ _ _ _ _ _ n).bind fun _ _ => (free_push_hashes _ _ n).bind fun _ _ =>
        ih _ (by simp only [List.length_drop]; omega) _ rfl _ _ n

theorem cp_update_rest (cfg : Config) (h : Hasher) (x : Bytes) : Cp x.length (fun _ => 0) (I.Hasher.update_rest cfg h x) := by
  refine (Cp.lift _).bind fun _ _ => (free_update_loop _ _ _ _ _).bind fun _ _ => (Cp.lift _).bind fun _ _ =>
    (Cp.lift _).bind fun _ _ => ?_
  split
  · refine (free_merge_loop _ _ _).bind fun _ _ => ?_
    exact ((cp_chunk_update _ _).mono (by unfold chunksRemainder; rw [List.length_drop]; omega)).bind fun _ _ => Cp.pure (Nat.zero_le _)
  · exact Cp.pure (Nat.zero_le _)

set_option maxRecDepth 8000 in
theorem cp_update (cfg : Config) (h : Hasher) (x : Bytes) : Cp x.length (fun _ => 0) (I.Hasher.update cfg h x) := by
  unfold I.Hasher.update
  dsimp only
  split
  · refine (Cp.lift _).bind fun w _ => ?_
    have hl : (x.take (min w x.length)).length + (x.drop (min w x.length)).length = x.length := by
      simp only [List.length_take, List.length_drop]; omega
    refine Cp.bind (Q := fun _ => (x.drop (min w x.length)).length) ?_ fun c _ => ?_
    · have := cp_chunk_update h.chunk (x.take (min w x.length))
      refine ⟨by have := this.le; omega, fun a ha => ?_⟩
      have := this.ok a ha
      omega
    split
    · exact (Cp.lift _).bind fun _ _ => (Cp.lift _).bind fun _ _ => (free_to_hash _ _).bind fun _ _ =>
        (free_push_chunk_hash _ _ _ _).bind fun _ _ => (Cp.lift _).bind fun _ _ => (Cp.lift _).bind fun _ _ =>
        cp_update_rest _ _ _
    · exact Cp.pure (Nat.zero_le _)
  · exact cp_update_rest _ _ _

theorem free_finalize_loop (h : Hasher) (S : List (Vector Byte 32)) : ∀ w, Free (I.Hasher.finalize_loop h w S) := by
  induction S with
  | nil => intro w n; exact Cp.error _
  | cons s S ih =>
    intro w n
    cases S with
    | nil => exact Cp.pure (Nat.le_refl _)
    | cons t S =>
      rw [I.Hasher.finalize_loop]
      · exact (free_to_hash _ n).bind fun _ _ => ih _ n
      · simp

theorem free_finalize_xof (h : Hasher) : Free (I.Hasher.finalize_xof h) := by
  intro n
  unfold I.Hasher.finalize_xof
  split
  · exact Cp.lift _
  · split
    · exact (Cp.lift _).bind fun _ _ => (Cp.lift _).bind fun _ _ => (free_to_hash _ n).bind fun _ _ => free_finalize_loop _ _ _ n
    · refine (Cp.lift _).bind fun _ _ => ?_
      split
      · exact free_finalize_loop _ _ _ n
      · exact Cp.error _

end Baokeshed.Proofs.I
