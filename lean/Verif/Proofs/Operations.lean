import Verif.Proofs.StepsLib
import Verif.Proofs.Trace

/-!
# Operations and compressions

`Lk Q x y`: the run `x` recording steps and the run `y` recording compressions return the same, a result satisfying `Q` if any,
and `x` executes 336 additions and 224 rotations of words per compression of `y`.
-/

namespace Baokeshed.Proofs.Steps
open Baokeshed.Model
open Baokeshed.Model.Steps (Run Try Step)
open Baokeshed.Model.T (TR)
set_option linter.unusedVariables false
set_option linter.unusedSimpArgs false

/-- additions and rotations of words -/
def tally (l : List Step) : Nat × Nat :=
  ((l.filter fun x => x.what == "wrapping_add").length, (l.filter fun x => x.what == "rotate_right").length)

theorem tally_append (l l' : List Step) : tally (l ++ l') = ((tally l).1 + (tally l').1, (tally l).2 + (tally l').2) := by
  simp only [tally, List.filter_append, List.length_append]

/-- neither an addition nor a rotation of words -/
def Free (s : String) : Prop := (s == "wrapping_add") = false ∧ (s == "rotate_right") = false

theorem tally_free {s : String} (h : Free s) (i : List Nat) : tally [⟨s, i⟩] = (0, 0) := by
  simp only [tally, List.filter_cons, List.filter_nil, h.1, h.2]
  rfl

def Lk {α} (Q : α → Prop) (x : Try α) (y : TR α) : Prop :=
  x.res = y.res ∧ tally x.log = (336 * y.log.length, 224 * y.log.length) ∧ ∀ a, x.res = .ok a → Q a

theorem Lk.bind {α β} {Q : α → Prop} {Q' : β → Prop} {x : Try α} {y : TR α} {f : α → Try β} {g : α → TR β}
    (h : Lk Q x y) (hf : ∀ a, Q a → Lk Q' (f a) (g a)) : Lk Q' (x >>= f) (y >>= g) := by
  obtain ⟨rx, lx⟩ := x
  obtain ⟨ry, ly⟩ := y
  obtain ⟨h1, h2, h3⟩ := h
  dsimp only at h1 h2 h3
  subst h1
  cases rx with
  | error e => exact ⟨rfl, h2, fun a ha => by cases ha⟩
  | ok a =>
    obtain ⟨k1, k2, k3⟩ := hf a (h3 a rfl)
    refine ⟨k1, ?_, k3⟩
    show tally (lx ++ _) = (336 * (ly ++ _).length, 224 * (ly ++ _).length)
    rw [tally_append, h2, k2, List.length_append, Nat.mul_add, Nat.mul_add]

theorem Lk.pure {α} {Q : α → Prop} {a : α} (h : Q a) : Lk Q (Pure.pure a : Try α) (Pure.pure a : TR α) :=
  ⟨rfl, rfl, fun b hb => by cases hb; exact h⟩

theorem Lk.error {α} {Q : α → Prop} (e : Panic) : Lk Q (⟨.error e, []⟩ : Try α) (⟨.error e, []⟩ : TR α) :=
  ⟨rfl, rfl, fun b hb => by cases hb⟩

theorem Lk.prim {α β} {Q' : β → Prop} {s : String} (hs : Free s) {i : List Nat} {r : R α} {f : α → Try β} {g : α → TR β}
    (hf : ∀ a, Lk Q' (f a) (g a)) : Lk Q' (Steps.tryOp s i r >>= f) ((liftM r : TR α) >>= g) :=
  Lk.bind (Q := fun _ => True) ⟨rfl, tally_free hs i, fun _ _ => trivial⟩ fun a _ => hf a

/-- steps that are not recorded by the other run -/
theorem Lk.skip {α β} {Q : β → Prop} {x : Try α} {v : α} (h : x.res = .ok v) (ht : tally x.log = (0, 0)) {f : α → Try β} {y : TR β}
    (hf : Lk Q (f v) y) : Lk Q (x >>= f) y := by
  obtain ⟨rx, lx⟩ := x
  dsimp only at h ht
  subst h
  obtain ⟨k1, k2, k3⟩ := hf
  refine ⟨k1, ?_, k3⟩
  show tally (lx ++ _) = _
  rw [tally_append, ht, k2, Nat.zero_add, Nat.zero_add]

theorem Lk.test {β} {Q : β → Prop} {s : String} (hs : Free s) {b : Bool} {f : Unit → Try β} {y : TR β} (hf : Lk Q (f ()) y) :
    Lk Q (Steps.test s b >>= f) y := Lk.skip rfl (tally_free hs _) hf

theorem Lk.op {α β} {Q : β → Prop} {s : String} (hs : Free s) {i : List Nat} {v : α} {f : α → Try β} {y : TR β} (hf : Lk Q (f v) y) :
    Lk Q ((liftM (Steps.op s i v) : Try α) >>= f) y := Lk.skip rfl (tally_free hs _) hf

theorem Lk.ite {α} {Q : α → Prop} {c : Prop} [Decidable c] {x y : Try α} {x' y' : TR α}
    (h : c → Lk Q x x') (h' : ¬ c → Lk Q y y') : Lk Q (if c then x else y) (if c then x' else y') := by
  by_cases k : c
  · rw [if_pos k, if_pos k]; exact h k
  · rw [if_neg k, if_neg k]; exact h' k

theorem Lk.mono {α} {Q Q' : α → Prop} (h : ∀ a, Q a → Q' a) {x : Try α} {y : TR α} (k : Lk Q x y) : Lk Q' x y :=
  ⟨k.1, k.2.1, fun a ha => h a (k.2.2 a ha)⟩

/-- the name of a step is neither of the two -/
macro "fr" : term => `(by constructor <;> simp)

abbrev Tr {α : Type} (_ : α) : Prop := True

theorem tally_compress (cv : Vector Word 8) (b : Vector Byte 64) (l : Byte) (t : U64) (f : Byte) :
    tally (Steps.Portable.compress cv b l t f).log = (336, 224) := by
  rw [show (Steps.Portable.compress cv b l t f).log = _ from
    Steps.p_compress_eqv cv b l t f (Vector.replicate 8 0) (Vector.replicate 64 0) 0 0 0]
  decide +kernel

theorem tally_compress_xof (cv : Vector Word 8) (b : Vector Byte 64) (l : Byte) (t : U64) (f : Byte) :
    tally (Steps.Portable.compress_xof cv b l t f).log = (336, 224) := by
  rw [show (Steps.Portable.compress_xof cv b l t f).log = _ from
    Steps.p_compress_xof_eqv cv b l t f (Vector.replicate 8 0) (Vector.replicate 64 0) 0 0 0]
  decide +kernel

theorem tally_bytes (cv : Vector Word 8) : tally (Steps.Portable.bytes_from_state_words cv).log = (0, 0) := by
  rw [show (Steps.Portable.bytes_from_state_words cv).log = _ from
    Steps.p_bytes_from_state_words_eqv cv (Vector.replicate 8 0)]
  decide +kernel

theorem lk_portable_compress (cv : Vector Word 8) (b : Vector Byte 64) (l : Byte) (t : U64) (f : Byte) :
    Lk Tr (liftM (Steps.Portable.compress cv b l t f) : Try _) (T.compress .portable cv b l t f) :=
  ⟨congrArg Except.ok (p_compress_val ..), tally_compress .., fun _ _ => trivial⟩

theorem lk_compress (cv : Vector Word 8) (b : Vector Byte 64) (l : Byte) (t : U64) (f : Byte) :
    Lk Tr (Steps.compress .portable cv b l t f) (T.compress .portable cv b l t f) := by
  unfold Steps.compress
  exact Lk.op fr (lk_portable_compress ..)

theorem lk_compress_xof (cv : Vector Word 8) (b : Vector Byte 64) (l : Byte) (t : U64) (f : Byte) :
    Lk Tr (Steps.compress_xof .portable cv b l t f) (T.compress_xof .portable cv b l t f) := by
  unfold Steps.compress_xof
  exact Lk.op fr ⟨congrArg Except.ok (p_compress_xof_val ..), tally_compress_xof .., fun _ _ => trivial⟩

theorem lk_bytes (cv : Vector Word 8) :
    Lk Tr (liftM (Steps.Portable.bytes_from_state_words cv) : Try _) (pure (bytes_from_state_words cv)) :=
  ⟨rfl, tally_bytes cv, fun _ _ => trivial⟩

theorem lk_hash1_loop (f fe : Byte) (off : U64) (s : Bytes) : ∀ (cv : Vector Word 8) (bf : Byte),
    Lk Tr (Steps.Portable.hash1_loop f fe off cv bf s) (T.hash1_loop f fe off cv bf s) := by
  induction hn : s.length using Nat.strongRecOn generalizing s with
  | _ n ih =>
    intro cv bf
    subst hn
    rw [Steps.Portable.hash1_loop, T.hash1_loop]
    by_cases k : BLOCK_LEN ≤ s.length
    · rw [dif_pos k, dif_pos k]
      refine Lk.test fr ?_
      refine Lk.test fr ?_
      dsimp only
      refine Lk.prim fr fun b => ?_
      refine Lk.bind (lk_portable_compress ..) fun c _ => ?_
      have k' : 64 ≤ s.length := k
      exact ih _ (by simp only [List.length_drop, BLOCK_LEN]; omega) _ rfl _ _
    · rw [dif_neg k, dif_neg k]
      refine Lk.test fr ?_
      exact Lk.pure trivial

theorem lk_hash1 (s : Bytes) (k : Vector Word 8) (off : U64) (f fs fe : Byte) :
    Lk Tr (Steps.Portable.hash1 s k off f fs fe) (T.hash1 s k off f fs fe) := by
  unfold Steps.Portable.hash1 T.hash1
  refine Lk.prim fr fun _ => ?_
  refine Lk.bind (lk_hash1_loop ..) fun c _ => ?_
  exact lk_bytes c

theorem lk_hash_many_loop (k : Vector Word 8) (d : U64) (f fs fe : Byte) (xs : List Bytes) : ∀ (off : U64) (out : Bytes),
    Lk Tr (Steps.Portable.hash_many_loop k d f fs fe xs off out) (T.hash_many_loop k d f fs fe xs off out) := by
  induction xs with
  | nil => intro off out; exact Lk.test fr (Lk.pure trivial)
  | cons x xs ih =>
    intro off out
    rw [Steps.Portable.hash_many_loop, T.hash_many_loop]
    refine Lk.ite (fun _ => Lk.test fr (Lk.pure trivial)) (fun _ => ?_)
    refine Lk.test fr ?_
    refine Lk.bind (lk_hash1 ..) fun a _ => ?_
    refine Lk.prim fr fun o => ?_
    refine Lk.bind (ih ..) fun r _ => ?_
    exact Lk.pure trivial

theorem lk_hash_many (cap : Nat) (xs : List Bytes) (k : Vector Word 8) (off d : U64) (f fs fe : Byte) (out : Bytes) :
    Lk Tr (Steps.hash_many .portable cap xs k off d f fs fe out) (T.hash_many .portable cap xs k off d f fs fe out) := by
  have h : Lk Tr (Steps.Portable.hash_many xs k off d f fs fe out) (T.hash_many_portable xs k off d f fs fe out) := by
    unfold Steps.Portable.hash_many T.hash_many_portable
    exact Lk.prim fr fun _ => lk_hash_many_loop ..
  unfold Steps.hash_many
  refine Lk.op fr ?_
  exact ⟨p_hash_many_res .., h.2.1, fun _ _ => trivial⟩

/-! ## Output -/

/-- an output on the portable platform -/
abbrev PO (o : Output) : Prop := o.platform = .portable

theorem lk_advance (prof : Profile) (o : U64) : Lk Tr (Steps.advance prof o) (liftM (match prof with
    | .debug => addU64 o (BitVec.ofNat 64 (2 * OUT_LEN))
    | .release => .ok (o + BitVec.ofNat 64 (2 * OUT_LEN)) : R U64)) := by
  cases prof
  · exact ⟨rfl, tally_free fr _, fun _ _ => trivial⟩
  · exact ⟨rfl, tally_free fr _, fun _ _ => trivial⟩

theorem lk_read (prof : Profile) {o : Output} (h : PO o) :
    Lk (fun a => PO a.2) (Steps.Output.read prof o) (T.Output.read prof o) := by
  unfold Steps.Output.read T.Output.read
  rw [show o.platform = .portable from h]
  refine Lk.bind (lk_compress_xof ..) fun c _ => ?_
  refine Lk.bind (lk_advance prof o.offset) fun a _ => ?_
  exact Lk.pure rfl

theorem lk_to_hash {o : Output} (h : PO o) : Lk Tr (Steps.Output.to_hash o) (T.Output.to_hash o) := by
  unfold Steps.Output.to_hash T.Output.to_hash
  rw [show o.platform = .portable from h]
  exact Lk.bind (lk_compress ..) fun c _ => lk_bytes c

theorem lk_run (prof : Profile) (os : List OutCall) : ∀ {o : Output}, PO o →
    Lk Tr (Steps.Output.run prof os o) (T.Output.run prof os o) := by
  induction os with
  | nil => intro o h; exact Lk.pure trivial
  | cons c cs ih =>
    intro o h
    cases c with
    | read =>
      refine Lk.bind (lk_read prof h) fun a ha => ?_
      exact Lk.bind (ih ha) fun _ _ => Lk.pure trivial
    | toHash =>
      refine Lk.bind (lk_to_hash h) fun a ha => ?_
      exact Lk.bind (ih h) fun _ _ => Lk.pure trivial

/-! ## One-shot functions -/

theorem lk_hash_one_chunk_loop (c : Bytes) (off : U64) (r : IsRoot) (f : Byte) :
    ∀ (cv : Vector Word 8) (bf : Byte) (bo : Nat),
      Lk PO (Steps.hash_one_chunk_loop .portable c off r f cv bf bo) (T.hash_one_chunk_loop .portable c off r f cv bf bo) := by
  intro cv bf bo
  induction hn : c.length - bo using Nat.strongRecOn generalizing cv bf bo with
  | _ n ih =>
    subst hn
    rw [Steps.hash_one_chunk_loop, T.hash_one_chunk_loop]
    refine Lk.test fr ?_
    by_cases k : bo + BLOCK_LEN ≤ c.length
    · rw [dif_pos k, dif_pos k]
      refine Lk.test fr ?_
      refine Lk.ite (fun _ => ?_) (fun _ => ?_)
      · exact Lk.prim fr fun _ => Lk.pure rfl
      · refine Lk.prim fr fun _ => ?_
        refine Lk.bind (lk_compress ..) fun _ _ => ?_
        have k' : bo + 64 ≤ c.length := k
        exact ih _ (by simp only [BLOCK_LEN]; omega) _ _ _ rfl
    · rw [dif_neg k, dif_neg k]
      refine Lk.prim fr fun _ => ?_
      refine Lk.prim fr fun _ => ?_
      exact Lk.prim fr fun _ => Lk.pure rfl

theorem lk_hash_one_chunk (c : Bytes) (k : Vector Word 8) (off : U64) (r : IsRoot) (f : Byte) :
    Lk PO (Steps.hash_one_chunk c k off r f .portable) (T.hash_one_chunk c k off r f .portable) := by
  unfold Steps.hash_one_chunk T.hash_one_chunk
  exact Lk.prim fr fun _ => lk_hash_one_chunk_loop ..

theorem lk_hash_chunks_parallel (cfg : Config) (x : Bytes) (k : Vector Word 8) (off : U64) (f : Byte) (out : Bytes) :
    Lk Tr (Steps.hash_chunks_parallel cfg x k off f .portable out) (T.hash_chunks_parallel cfg x k off f .portable out) := by
  unfold Steps.hash_chunks_parallel T.hash_chunks_parallel
  refine Lk.prim fr fun _ => ?_
  refine Lk.prim fr fun _ => ?_
  refine Lk.prim fr fun _ => ?_
  refine Lk.prim fr fun a => ?_
  refine Lk.bind (lk_hash_many ..) fun o _ => ?_
  refine Lk.test fr ?_
  refine Lk.ite (fun _ => ?_) (fun _ => Lk.pure trivial)
  refine Lk.prim fr fun _ => ?_
  refine Lk.prim fr fun _ => ?_
  refine Lk.bind (lk_hash_one_chunk ..) fun _ e => ?_
  refine Lk.bind (lk_to_hash e) fun _ _ => ?_
  exact Lk.prim fr fun _ => Lk.pure trivial

theorem lk_hash_parents_parallel (cfg : Config) (x : Bytes) (k : Vector Word 8) (f : Byte) (out : Bytes) :
    Lk Tr (Steps.hash_parents_parallel cfg x k f .portable out) (T.hash_parents_parallel cfg x k f .portable out) := by
  unfold Steps.hash_parents_parallel T.hash_parents_parallel
  dsimp only
  refine Lk.prim fr fun _ => ?_
  refine Lk.prim fr fun _ => ?_
  refine Lk.prim fr fun _ => ?_
  refine Lk.prim fr fun a => ?_
  refine Lk.bind (lk_hash_many ..) fun o _ => ?_
  refine Lk.test fr ?_
  refine Lk.ite (fun _ => ?_) (fun _ => Lk.pure trivial)
  refine Lk.prim fr fun _ => ?_
  exact Lk.prim fr fun _ => Lk.pure trivial

theorem lk_hash_recurse (cfg : Config) (f : Byte) (k : Vector Word 8) (x : Bytes) : ∀ (off : U64) (out : Bytes),
    Lk Tr (Steps.hash_recurse cfg x k off f .portable out) (T.hash_recurse cfg x k off f .portable out) := by
  induction hn : x.length using Nat.strongRecOn generalizing x with
  | _ n ih =>
    intro off out
    subst hn
    rw [Steps.hash_recurse, T.hash_recurse]
    refine Lk.test fr ?_
    refine Lk.ite (fun _ => lk_hash_chunks_parallel ..) (fun _ => ?_)
    refine Lk.op fr ?_
    split
    · rename_i e he
      split
      · rename_i e' he'
        rw [he] at he'
        cases he'
        exact Lk.error _
      · rename_i l' he'
        rw [he] at he'
        cases he'
    · rename_i l he
      split
      · rename_i e' he'
        rw [he] at he'
        cases he'
      rename_i l' he'
      rw [he] at he'
      cases he'
      have l1 := left_len_lt he
      have l2 := left_len_pos he
      dsimp only
      refine Lk.prim fr fun _ => ?_
      refine Lk.prim fr fun _ => ?_
      refine Lk.test fr ?_
      refine Lk.prim fr fun s => ?_
      refine Lk.bind (ih _ (by simp only [List.length_take]; omega) _ rfl _ _) fun u _ => ?_
      refine Lk.bind (ih _ (by simp only [List.length_drop]; omega) _ rfl _ _) fun v _ => ?_
      refine Lk.prim fr fun _ => ?_
      refine Lk.prim fr fun _ => ?_
      refine Lk.test fr ?_
      refine Lk.ite (fun _ => ?_) (fun _ => ?_)
      · refine Lk.prim fr fun _ => ?_
        exact Lk.prim fr fun _ => Lk.pure trivial
      · refine Lk.prim fr fun _ => ?_
        exact lk_hash_parents_parallel ..

theorem lk_condense_loop (cfg : Config) (f : Byte) (k : Vector Word 8) (n : Nat) : ∀ (x out : Bytes),
    Lk Tr (Steps.condense_loop cfg k f .portable n x out) (T.condense_loop cfg k f .portable n x out) := by
  induction n with
  | zero => intro x out; exact Lk.error _
  | succ n ih =>
    intro x out
    rw [Steps.condense_loop, T.condense_loop]
    refine Lk.test fr ?_
    refine Lk.ite (fun _ => ?_) (fun _ => Lk.pure trivial)
    refine Lk.bind (lk_hash_parents_parallel ..) fun a _ => ?_
    refine Lk.prim fr fun _ => ?_
    refine Lk.prim fr fun _ => ?_
    refine Lk.prim fr fun _ => ?_
    exact ih ..

theorem lk_condense_root (cfg : Config) (f : Byte) (k : Vector Word 8) (x : Bytes) :
    Lk PO (Steps.condense_root cfg x k f .portable) (T.condense_root cfg x k f .portable) := by
  unfold Steps.condense_root T.condense_root
  refine Lk.prim fr fun _ => ?_
  refine Lk.prim fr fun _ => ?_
  refine Lk.bind (lk_condense_loop ..) fun _ _ => ?_
  exact Lk.prim fr fun _ => Lk.pure rfl

theorem lk_hash_internal (cfg : Config) (hp : Platform.detect cfg = .portable) (f : Byte) (k : Vector Word 8) (x : Bytes) :
    Lk PO (Steps.hash_internal cfg x k f) (T.hash_internal cfg x k f) := by
  unfold Steps.hash_internal T.hash_internal
  dsimp only
  rw [hp]
  refine Lk.test fr ?_
  refine Lk.ite (fun _ => lk_hash_one_chunk ..) (fun _ => ?_)
  refine Lk.bind (lk_hash_recurse ..) fun a _ => ?_
  refine Lk.prim fr fun _ => ?_
  exact lk_condense_root ..

theorem key_res (k : Vector Byte 32) : (Steps.words_from_key_bytes k).res = .ok (words_from_key_bytes k) := rfl

theorem key_tally (k : Vector Byte 32) : tally (Steps.words_from_key_bytes k).log = (0, 0) := by
  rw [show (Steps.words_from_key_bytes k).log = (Steps.words_from_key_bytes (Vector.replicate 32 0)).log from (rec_key ..).1]
  decide +kernel

theorem lk_oneShotXof (cfg : Config) (hp : Platform.detect cfg = .portable) (m : Spec.Mode) (x : Bytes) :
    Lk PO (Steps.oneShotXof cfg m x) (T.oneShotXof cfg m x) := by
  cases m with
  | hash => exact lk_hash_internal cfg hp _ _ _
  | keyedHash k => exact Lk.skip (key_res k) (key_tally k) (lk_hash_internal cfg hp _ _ _)
  | deriveKey k => exact Lk.skip (key_res k) (key_tally k) (lk_hash_internal cfg hp _ _ _)

theorem lk_oneShotRun (cfg : Config) (hp : Platform.detect cfg = .portable) (prof : Profile) (m : Spec.Mode) (x : Bytes)
    (os : List OutCall) : Lk Tr (Steps.oneShotRun cfg prof m x os) (T.oneShotRun cfg prof m x os) := by
  unfold Steps.oneShotRun T.oneShotRun
  refine Lk.bind (lk_oneShotXof cfg hp m x) fun o ho => ?_
  exact Lk.bind (lk_run prof os ho) fun _ _ => Lk.pure trivial

/-! ## Incremental hashing -/

/-- a chunk state on the portable platform -/
abbrev PC (s : ChunkState) : Prop := s.platform = .portable

theorem lk_start {s : ChunkState} {β} {Q : β → Prop} {f : Byte → Try β} {y : TR β} (h : Lk Q (f s.maybe_chunk_start_flag) y) :
    Lk Q (Steps.ChunkState.maybe_chunk_start_flag s >>= f) y := by
  refine Lk.skip (start_res s) ?_ h
  unfold Steps.ChunkState.maybe_chunk_start_flag
  by_cases k : s.count = 0
  · rw [if_pos k]
    exact tally_free fr _
  · rw [if_neg k]
    exact tally_free fr _

/-- no addition and no rotation, and a result satisfying `Q` if any -/
def Quiet {α} (Q : α → Prop) (x : Try α) : Prop := tally x.log = (0, 0) ∧ ∀ a, x.res = .ok a → Q a

theorem Quiet.bind {α β} {Q : β → Prop} {x : Try α} {f : α → Try β} (hx : Quiet Tr x) (hf : ∀ a, Quiet Q (f a)) :
    Quiet Q (x >>= f) := by
  obtain ⟨rx, lx⟩ := x
  cases rx with
  | error e => exact ⟨hx.1, fun a ha => by cases ha⟩
  | ok a =>
    refine ⟨?_, (hf a).2⟩
    show tally (lx ++ _) = _
    rw [tally_append, show tally lx = (0, 0) from hx.1, (hf a).1]
    rfl

theorem Quiet.prim {α β} {Q : β → Prop} {s : String} (hs : Free s) {i : List Nat} {r : R α} {f : α → Try β} (hf : ∀ a, Quiet Q (f a)) :
    Quiet Q (Steps.tryOp s i r >>= f) := Quiet.bind ⟨tally_free hs i, fun _ _ => trivial⟩ hf

theorem Quiet.pure {α} {Q : α → Prop} {a : α} (h : Q a) : Quiet Q (Pure.pure a : Try α) := ⟨rfl, fun b hb => by cases hb; exact h⟩

theorem Quiet.lk {α} {Q : α → Prop} {x : Try α} {r : R α} (h : Quiet Q x) (k : x.res = r) : Lk Q x (liftM r : TR α) :=
  ⟨k, h.1, h.2⟩

theorem lk_fill_buf {s : ChunkState} (h : PC s) (x : Bytes) :
    Lk (fun a => PC a.1) (Steps.ChunkState.fill_buf s x) (liftM (s.fill_buf x) : TR _) := by
  refine Quiet.lk ?_ (fill_buf_res s x)
  unfold Steps.ChunkState.fill_buf
  refine Quiet.prim fr fun _ => ?_
  refine Quiet.prim fr fun _ => ?_
  refine Quiet.prim fr fun _ => ?_
  exact Quiet.prim fr fun _ => Quiet.pure h

theorem start_quiet (s : ChunkState) : Quiet Tr (Steps.ChunkState.maybe_chunk_start_flag s) := by
  unfold Steps.ChunkState.maybe_chunk_start_flag
  refine Quiet.bind ⟨tally_free fr _, fun _ _ => trivial⟩ fun _ => ?_
  by_cases k : s.count = 0
  · rw [if_pos k]
    exact Quiet.pure trivial
  · rw [if_neg k]
    exact Quiet.pure trivial

theorem lk_finalize_chunk {s : ChunkState} (h : PC s) (r : IsRoot) :
    Lk PO (Steps.ChunkState.finalize s r) (liftM (s.finalize r) : TR _) := by
  refine Quiet.lk ?_ (chunk_finalize_res s r)
  unfold Steps.ChunkState.finalize
  refine Quiet.prim fr fun _ => ?_
  refine Quiet.bind (start_quiet s) fun _ => ?_
  exact Quiet.pure h

theorem lk_reset {s : ChunkState} (h : PC s) (o : U64) :
    Lk PC (Steps.ChunkState.reset s o) (liftM (s.reset o) : TR _) := by
  refine Quiet.lk ?_ (reset_res s o)
  unfold Steps.ChunkState.reset
  exact Quiet.prim fr fun _ => Quiet.pure h

theorem lk_update_blocks (x : Bytes) : ∀ {s : ChunkState}, PC s →
    Lk (fun a => PC a.1) (Steps.ChunkState.update_blocks s x) (T.ChunkState.update_blocks s x) := by
  induction hn : x.length using Nat.strongRecOn generalizing x with
  | _ n ih =>
    intro s h
    subst hn
    rw [Steps.ChunkState.update_blocks, T.ChunkState.update_blocks]
    refine Lk.test fr ?_
    by_cases k : BLOCK_LEN < x.length
    · rw [dif_pos k, dif_pos k]
      refine Lk.prim fr fun _ => ?_
      refine lk_start ?_
      dsimp only
      refine Lk.prim fr fun _ => ?_
      rw [show s.platform = .portable from h]
      refine Lk.bind (lk_compress ..) fun _ _ => ?_
      refine Lk.prim fr fun _ => ?_
      have k' : 64 < x.length := k
      exact ih _ (by simp only [List.length_drop, BLOCK_LEN]; omega) _ rfl rfl
    · rw [dif_neg k, dif_neg k]
      exact Lk.pure h

theorem lk_update_first {s : ChunkState} (h : PC s) (x : Bytes) :
    Lk (fun a => PC a.1) (Steps.ChunkState.update_first s x) (T.ChunkState.update_first s x) := by
  unfold Steps.ChunkState.update_first T.ChunkState.update_first
  refine Lk.test fr ?_
  refine Lk.ite (fun _ => ?_) (fun _ => Lk.pure h)
  refine Lk.bind (lk_fill_buf h x) fun a ha => ?_
  refine Lk.test fr ?_
  refine Lk.ite (fun _ => ?_) (fun _ => Lk.pure ha)
  refine Lk.prim fr fun _ => ?_
  refine lk_start ?_
  dsimp only
  rw [show a.1.platform = .portable from ha]
  refine Lk.bind (lk_compress ..) fun _ _ => ?_
  exact Lk.prim fr fun _ => Lk.pure rfl

theorem lk_chunk_update {s : ChunkState} (h : PC s) (x : Bytes) :
    Lk PC (Steps.ChunkState.update s x) (T.ChunkState.update s x) := by
  unfold Steps.ChunkState.update T.ChunkState.update
  refine Lk.bind (lk_update_first h x) fun a ha => ?_
  refine Lk.bind (lk_update_blocks a.2 ha) fun b hb => ?_
  refine Lk.bind (lk_fill_buf hb b.2) fun c hc => ?_
  refine Lk.prim fr fun _ => ?_
  exact Lk.prim fr fun _ => Lk.pure hc

/-- a hasher on the portable platform -/
abbrev PH (h : Hasher) : Prop := h.chunk.platform = .portable

theorem lk_parent {β} {Q : β → Prop} {l r : Vector Byte 32} {k : Vector Word 8} {i : IsRoot} {f : Byte} {p : Platform}
    {g : Output → Try β} {y : TR β} (h : Lk Q (g (Model.hash_one_parent l r k i f p)) y) :
    Lk Q ((liftM (Steps.hash_one_parent l r k i f p) : Try _) >>= g) y := by
  refine Lk.skip rfl ?_ h
  show tally ([⟨"copy_from_slice", [0, 32]⟩] ++ [⟨"copy_from_slice", [32, 32]⟩]) = _
  rw [tally_append, tally_free fr, tally_free fr]
  rfl

theorem lk_merge_parent {h : Hasher} (hp : PH h) : Lk PH (Steps.Hasher.merge_parent h) (T.Hasher.merge_parent h) := by
  unfold Steps.Hasher.merge_parent T.Hasher.merge_parent
  refine Lk.op fr ?_
  rcases h.subtree_hashes with _ | ⟨a, _ | ⟨b, l⟩⟩
  · exact Lk.error _
  · exact Lk.error _
  · refine lk_parent ?_
    refine Lk.bind (lk_to_hash hp) fun _ _ => ?_
    exact Lk.pure hp

/-- `T.Hasher.merge_loop` as a bind -/
theorem t_merge_loop (h : Hasher) (o : U64) : T.Hasher.merge_loop h o =
    if h.needs_merge o then T.Hasher.merge_parent h >>= fun h' => T.Hasher.merge_loop h' o else pure h := by
  rw [T.Hasher.merge_loop]
  by_cases k : h.needs_merge o = true
  · rw [if_pos k, if_pos k]
    generalize T.Hasher.merge_parent h = x
    obtain ⟨r, l⟩ := x
    cases r <;> rfl
  · rw [if_neg k, if_neg k]

theorem lk_addU64 (a b : U64) : Lk Tr (Steps.addU64 a b) (liftM (addU64 a b) : TR _) := ⟨rfl, tally_free fr _, fun _ _ => trivial⟩

theorem lk_merge_loop_n (o : U64) (n : Nat) : ∀ {h : Hasher}, PH h → h.subtree_hashes.length < n →
    Lk PH (Steps.Hasher.merge_loop_n o n h) (T.Hasher.merge_loop h o) := by
  induction n with
  | zero => intro h _ hl; omega
  | succ n ih =>
    intro h hp hl
    rw [Steps.Hasher.merge_loop_n, t_merge_loop]
    refine Lk.test fr ?_
    refine Lk.ite (fun _ => ?_) (fun _ => Lk.pure hp)
    have := lk_merge_parent hp
    refine Lk.bind (Q := fun a => PH a ∧ a.subtree_hashes.length < h.subtree_hashes.length) ⟨this.1, this.2.1, fun a ha =>
      ⟨this.2.2 a ha, ?_⟩⟩ fun a ha => ih ha.1 (by omega)
    rw [merge_parent_res] at ha
    exact Model.Hasher.merge_parent_length ha

theorem lk_merge_loop {h : Hasher} (hp : PH h) (o : U64) : Lk PH (Steps.Hasher.merge_loop h o) (T.Hasher.merge_loop h o) :=
  lk_merge_loop_n o _ hp (Nat.lt_succ_self _)

theorem lk_push_chunk_hash {h : Hasher} (hp : PH h) (x : Vector Byte 32) (o : U64) :
    Lk PH (Steps.Hasher.push_chunk_hash h x o) (T.Hasher.push_chunk_hash h x o) := by
  unfold Steps.Hasher.push_chunk_hash T.Hasher.push_chunk_hash
  refine Lk.bind (lk_merge_loop hp o) fun a ha => ?_
  refine Lk.op fr ?_
  exact Lk.ite (fun _ => Lk.pure ha) (fun _ => Lk.error _)

set_option maxRecDepth 8000 in
theorem lk_push_hashes (cs : List Bytes) : ∀ {h : Hasher}, PH h →
    Lk PH (Steps.Hasher.push_hashes cs h) (T.Hasher.push_hashes cs h) := by
  induction cs with
  | nil =>
    intro h hp
    exact Lk.pure hp
  | cons c cs ih =>
    intro h hp
    rw [push_hashes_cons, T.push_hashes_cons]
    refine Lk.prim fr fun _ => ?_
    refine Lk.bind (lk_push_chunk_hash hp _ _) fun a ha => ?_
    exact Lk.bind (lk_addU64 _ _) fun _ _ => ih ha

theorem lk_update_loop (cfg : Config) (cs : List Bytes) : ∀ (out : Bytes) {h : Hasher}, PH h →
    Lk PH (Steps.Hasher.update_loop cfg cs out h) (T.Hasher.update_loop cfg cs out h) := by
  induction hn : cs.length using Nat.strongRecOn generalizing cs with
  | _ n ih =>
    intro out h hp
    subst hn
    rw [Steps.Hasher.update_loop, T.Hasher.update_loop]
    refine Lk.test fr ?_
    by_cases k : cs.take (MAX_SIMD_DEGREE cfg) = []
    · rw [dif_pos k, dif_pos k]
      exact Lk.pure hp
    · rw [dif_neg k, dif_neg k]
      dsimp only
      rw [show h.chunk.platform = .portable from hp]
      refine Lk.bind (lk_hash_many ..) fun _ _ => ?_
      refine Lk.bind (lk_push_hashes _ hp) fun a ha => ?_
      have h1 : 0 < cs.length := by
        cases cs with
        | nil => exact absurd List.take_nil k
        | cons c cs => simp
      have h2 : 0 < MAX_SIMD_DEGREE cfg := by unfold MAX_SIMD_DEGREE; split <;> decide
      exact ih _ (by simp only [List.length_drop]; omega) _ rfl _ ha

theorem lk_update_rest (cfg : Config) {h : Hasher} (hp : PH h) (x : Bytes) :
    Lk PH (Steps.Hasher.update_rest cfg h x) (T.Hasher.update_rest cfg h x) := by
  unfold Steps.Hasher.update_rest T.Hasher.update_rest
  refine Lk.prim fr fun _ => ?_
  dsimp only
  refine Lk.bind (lk_update_loop cfg _ _ hp) fun a ha => ?_
  refine Lk.prim fr fun _ => ?_
  refine Lk.prim fr fun _ => ?_
  refine Lk.test fr ?_
  refine Lk.ite (fun _ => ?_) (fun _ => Lk.pure ha)
  refine Lk.bind (lk_merge_loop ha _) fun b hb => ?_
  exact Lk.bind (lk_chunk_update hb _) fun c hc => Lk.pure hc

theorem lk_update (cfg : Config) {h : Hasher} (hp : PH h) (x : Bytes) :
    Lk PH (Steps.Hasher.update cfg h x) (T.Hasher.update cfg h x) := by
  unfold Steps.Hasher.update T.Hasher.update
  dsimp only
  refine Lk.test fr ?_
  refine Lk.ite (fun _ => ?_) (fun _ => lk_update_rest cfg hp x)
  refine Lk.prim fr fun _ => ?_
  refine Lk.bind (lk_chunk_update hp _) fun a ha => ?_
  refine Lk.test fr ?_
  refine Lk.ite (fun _ => ?_) (fun _ => Lk.pure ha)
  refine Lk.prim fr fun _ => ?_
  refine Lk.bind (lk_finalize_chunk ha _) fun b hb => ?_
  refine Lk.bind (lk_to_hash hb) fun c _ => ?_
  refine Lk.bind (lk_push_chunk_hash (h := { h with chunk := a }) ha _ _) fun d hd => ?_
  refine Lk.bind (lk_addU64 _ _) fun _ _ => ?_
  refine Lk.bind (lk_reset hd _) fun e he => ?_
  exact lk_update_rest cfg (h := { d with chunk := e }) he _

theorem lk_finalize_loop {h : Hasher} (hp : PH h) (l : List (Vector Byte 32)) : ∀ (w : Vector Byte 32),
    Lk PO (Steps.Hasher.finalize_loop h w l) (T.Hasher.finalize_loop h w l) := by
  induction l with
  | nil => intro w; exact Lk.error _
  | cons a l ih =>
    intro w
    cases l with
    | nil =>
      rw [Steps.Hasher.finalize_loop, T.Hasher.finalize_loop]
      refine Lk.op fr ?_
      have : Lk PO (liftM (Steps.hash_one_parent a w h.chunk.key .root h.chunk.flags h.chunk.platform) >>= fun o => pure o : Try Output)
        (pure (Model.hash_one_parent a w h.chunk.key .root h.chunk.flags h.chunk.platform)) := lk_parent (Lk.pure hp)
      exact this
    | cons b l =>
      rw [Steps.Hasher.finalize_loop, T.Hasher.finalize_loop]
      · refine Lk.op fr ?_
        refine lk_parent ?_
        exact Lk.bind (lk_to_hash hp) fun _ _ => ih _
      · simp
      · simp

theorem lk_finalize_xof {h : Hasher} (hp : PH h) : Lk PO (Steps.Hasher.finalize_xof h) (T.Hasher.finalize_xof h) := by
  unfold Steps.Hasher.finalize_xof T.Hasher.finalize_xof
  refine Lk.test fr ?_
  refine Lk.ite (fun _ => lk_finalize_chunk hp _) (fun _ => ?_)
  refine Lk.test fr ?_
  refine Lk.ite (fun _ => ?_) (fun _ => ?_)
  · refine Lk.prim fr fun _ => ?_
    refine Lk.bind (lk_finalize_chunk hp _) fun a ha => ?_
    exact Lk.bind (lk_to_hash ha) fun _ _ => lk_finalize_loop hp _ _
  · refine Lk.prim fr fun _ => ?_
    cases h.subtree_hashes with
    | nil => exact Lk.error _
    | cons a l => exact lk_finalize_loop hp _ _

theorem lk_session (cfg : Config) (prof : Profile) (cs : List HCall) : ∀ {h : Hasher}, PH h →
    Lk Tr (Steps.Hasher.session cfg prof cs h) (T.Hasher.session cfg prof cs h) := by
  induction cs with
  | nil => intro h hp; exact Lk.pure trivial
  | cons c cs ih =>
    intro h hp
    cases c with
    | update x => exact Lk.bind (lk_update cfg hp x) fun a ha => ih ha
    | output os =>
      refine Lk.bind (lk_finalize_xof hp) fun o ho => ?_
      refine Lk.bind (lk_run prof os ho) fun _ _ => ?_
      exact Lk.bind (ih hp) fun _ _ => Lk.pure trivial

theorem lk_sessionRun (cfg : Config) (hp : Platform.detect cfg = .portable) (prof : Profile) (m : Spec.Mode) (cs : List HCall) :
    Lk Tr (Steps.sessionRun cfg prof m cs) (T.Hasher.session cfg prof cs (Model.newHasher cfg m)) := by
  unfold Steps.sessionRun
  cases m with
  | hash => exact Lk.skip (x := Steps.newHasher cfg .hash) rfl rfl (lk_session cfg prof cs hp)
  | keyedHash k =>
    refine Lk.skip (x := Steps.newHasher cfg (.keyedHash k)) rfl ?_ (lk_session cfg prof cs hp)
    unfold Steps.newHasher
    exact (Quiet.bind (Q := Tr) ⟨key_tally k, fun _ _ => trivial⟩ fun _ => Quiet.pure trivial).1
  | deriveKey k =>
    refine Lk.skip (x := Steps.newHasher cfg (.deriveKey k)) rfl ?_ (lk_session cfg prof cs hp)
    unfold Steps.newHasher
    exact (Quiet.bind (Q := Tr) ⟨key_tally k, fun _ _ => trivial⟩ fun _ => Quiet.pure trivial).1

end Baokeshed.Proofs.Steps
