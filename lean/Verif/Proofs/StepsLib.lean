import Verif.Model.StepsLib
import Verif.Proofs.Steps

/-! # Two recorded runs of the library on inputs of equal lengths; the record dropped -/

namespace Baokeshed.Proofs.Steps
open Baokeshed.Model Baokeshed.Proofs.Obl
open Baokeshed.Model.Steps (Run Try Step)
set_option linter.unusedVariables false
set_option linter.unusedSimpArgs false

theorem Same.refl {α} (x : Try α) : Same Eq x x := ⟨rfl, RelR.refl _⟩

theorem Same.error {α β} {Q : α → β → Prop} (e : Panic) : Same Q (⟨.error e, []⟩ : Try α) (⟨.error e, []⟩ : Try β) := ⟨rfl, rfl⟩

theorem Same.any (s : String) (i : List Nat) : Same Any (liftM (Steps.op s i ()) : Try Unit) (liftM (Steps.op s i ()) : Try Unit) := ⟨rfl, trivial⟩

theorem Same.cond (s : String) {c c' : Prop} [Decidable c] [Decidable c'] (hc : c ↔ c') :
    Same Any (Steps.test s (decide c)) (Steps.test s (decide c')) := Same.test s (decide_eq_decide.2 hc)

/-- a condition and its branches -/
theorem Same.when {α β} {Q : α → β → Prop} (s : String) {c c' : Prop} [Decidable c] [Decidable c'] {x y : Try α} {x' y' : Try β}
    (hc : c ↔ c') (h : c → c' → Same Q x x') (h' : ¬ c → ¬ c' → Same Q y y') :
    Same Q (Steps.test s (decide c) >>= fun _ => if c then x else y) (Steps.test s (decide c') >>= fun _ => if c' then x' else y') :=
  Same.bind (Same.cond s hc) fun _ _ _ => Same.ite hc h h'

theorem rec_assert {c c' : Prop} [Decidable c] [Decidable c'] (h : c ↔ c') : Same Any (Steps.assertR c) (Steps.assertR c') := by
  refine ⟨?_, rel_assert h⟩
  show [_] = [_]
  rw [decide_eq_decide.2 h]

theorem rec_arrayRef {α β : Type} {s : List α} {t : List β} (h : s.length = t.length) (i n : Nat) :
    Same Any (Steps.arrayRef s i n) (Steps.arrayRef t i n) := by
  unfold Steps.arrayRef; rw [h]; exact Same.op _ _ (rel_arrayRef h i n)

theorem rec_writeAt {α β : Type} {s d : List α} {t e : List β} (h : s.length = t.length) (i : Nat) (h' : d.length = e.length) :
    Same SameLen (Steps.writeAt s i d) (Steps.writeAt t i e) := by
  unfold Steps.writeAt; rw [h, h']; exact Same.op _ _ (rel_writeAt h i h')

theorem rec_sliceTo {α β : Type} {s : List α} {t : List β} (h : s.length = t.length) (n : Nat) :
    Same SameLen (Steps.sliceTo s n) (Steps.sliceTo t n) := by
  unfold Steps.sliceTo; rw [h]; exact Same.op _ _ (rel_sliceTo h n)

theorem rec_splitAtR {α β : Type} {s : List α} {t : List β} (h : s.length = t.length) (n : Nat) :
    Same (fun a b => SameLen a.1 b.1 ∧ SameLen a.2 b.2) (Steps.splitAtR s n) (Steps.splitAtR t n) := by
  unfold Steps.splitAtR; rw [h]; exact Same.op _ _ (rel_splitAtR h n)

theorem rec_pushAll (n cap : Nat) (hn : 0 < n) {x y : Bytes} (h : x.length = y.length) :
    Same (fun a b => a.length = b.length ∧ (∀ z ∈ a, z.length = n) ∧ ∀ z ∈ b, z.length = n)
      (Steps.pushAll cap (chunksExact n x)) (Steps.pushAll cap (chunksExact n y)) := by
  unfold Steps.pushAll; rw [chunks_len n hn h]; exact Same.op _ _ (rel_pushAll n cap hn h)

theorem rec_compress (p : Platform) (cv cv' : Vector Word 8) (b b' : Vector Byte 64) (l : Byte) (o : U64) (f : Byte) :
    Same Any (Steps.compress p cv b l o f) (Steps.compress p cv' b' l o f) := by
  unfold Steps.compress
  refine Same.bind (Same.any _ _) fun _ _ _ => ?_
  cases p
  · exact Same.run (p_compress_eqv ..)
  · exact Same.run (s_compress_eqv ..)
  · exact Same.run (s_compress_eqv ..)

theorem rec_compress_xof (p : Platform) (cv cv' : Vector Word 8) (b b' : Vector Byte 64) (l : Byte) (o : U64) (f : Byte) :
    Same Any (Steps.compress_xof p cv b l o f) (Steps.compress_xof p cv' b' l o f) := by
  unfold Steps.compress_xof
  refine Same.bind (Same.any _ _) fun _ _ _ => ?_
  cases p
  · exact Same.run (p_compress_xof_eqv ..)
  · exact Same.run (s_compress_xof_eqv ..)
  · exact Same.run (s_compress_xof_eqv ..)

theorem rec_hash_many (p : Platform) (cap : Nat) (hcap : cap % 64 = 0) (k k' : Vector Word 8) (off d : U64) (f fs fe : Byte)
    (xs ys : List Bytes) (out out' : Bytes) (hx : ∀ x ∈ xs, x.length = cap) (hy : ∀ x ∈ ys, x.length = cap)
    (h : xs.length = ys.length) (ho : SameLen out out') :
    Same SameLen (Steps.hash_many p cap xs k off d f fs fe out) (Steps.hash_many p cap ys k' off d f fs fe out') := by
  have hl : SameLens xs ys := sameLens_of cap hx hy h
  unfold Steps.hash_many
  refine Same.bind (Same.any _ _) fun _ _ _ => ?_
  cases p
  · exact p_hash_many_same k k' off d f fs fe f fs fe xs ys out out' hl ho
  · exact s_hash_many_same cap k k' off d f fs fe f fs fe xs ys out out' hl ho
  · exact a_hash_many_same cap k k' off d f fs fe f fs fe xs ys out out' hl ho

/-! ## Output -/

theorem rec_read (prof : Profile) {o o' : Output} (h : SimO o o') :
    Same (fun a b => SimO a.2 b.2) (Steps.Output.read prof o) (Steps.Output.read prof o') := by
  obtain ⟨h1, h2, h3, h4⟩ := h
  unfold Steps.Output.read
  rw [h1, h2, h3, h4]
  refine Same.bind (rec_compress_xof ..) fun _ _ _ => ?_
  refine Same.bind (Same.refl _) fun _ _ e => ?_
  exact Same.pure ⟨rfl, e, rfl, rfl⟩

theorem rec_to_hash {o o' : Output} (h : SimO o o') : Same Any (Steps.Output.to_hash o) (Steps.Output.to_hash o') := by
  obtain ⟨h1, h2, h3, h4⟩ := h
  unfold Steps.Output.to_hash
  rw [h1, h2, h3, h4]
  exact Same.bind (rec_compress ..) fun _ _ _ => Same.run (p_bytes_from_state_words_eqv ..)

theorem rec_run (prof : Profile) (os : List OutCall) : ∀ {o o' : Output}, SimO o o' →
    Same Any (Steps.Output.run prof os o) (Steps.Output.run prof os o') := by
  induction os with
  | nil => intro o o' h; exact Same.pure trivial
  | cons c cs ih =>
    intro o o' h
    cases c with
    | read =>
      refine Same.bind (rec_read prof h) fun a b hab => ?_
      exact Same.bind (ih hab) fun _ _ _ => Same.pure trivial
    | toHash =>
      refine Same.bind (rec_to_hash h) fun a b hab => ?_
      exact Same.bind (ih h) fun _ _ _ => Same.pure trivial

/-! ## One-shot functions -/

theorem rec_hash_one_chunk_loop (p : Platform) (c c' : Bytes) (h : c.length = c'.length) (off : U64) (r : IsRoot) (f : Byte) :
    ∀ (cv cv' : Vector Word 8) (bf : Byte) (bo : Nat),
      Same SimO (Steps.hash_one_chunk_loop p c off r f cv bf bo) (Steps.hash_one_chunk_loop p c' off r f cv' bf bo) := by
  intro cv cv' bf bo
  induction hn : c.length - bo using Nat.strongRecOn generalizing cv cv' bf bo with
  | _ n ih =>
    subst hn
    rw [Steps.hash_one_chunk_loop, Steps.hash_one_chunk_loop]
    refine Same.bind (Same.cond _ (by rw [h])) fun _ _ _ => ?_
    by_cases k : bo + BLOCK_LEN ≤ c.length
    · rw [dif_pos k, dif_pos (h ▸ k)]
      refine Same.when _ (by rw [h]) (fun _ _ => ?_) (fun _ _ => ?_)
      · exact Same.bind (rec_arrayRef h _ _) fun _ _ _ => Same.pure ⟨rfl, rfl, rfl, rfl⟩
      · refine Same.bind (rec_arrayRef h _ _) fun _ _ _ => ?_
        refine Same.bind (rec_compress ..) fun _ _ _ => ?_
        have k' : bo + 64 ≤ c.length := k
        exact ih _ (by simp only [BLOCK_LEN]; omega) _ _ _ _ rfl
    · rw [dif_neg k, dif_neg (h ▸ k), h]
      refine Same.bind (Same.refl _) fun a _ e => ?_
      subst e
      refine Same.bind (rec_writeAt rfl _ (by simp only [List.length_drop, h])) fun _ _ e => ?_
      exact Same.bind (rec_arrayRef e _ _) fun _ _ _ => Same.pure ⟨rfl, rfl, rfl, rfl⟩

theorem rec_hash_one_chunk (p : Platform) (c c' : Bytes) (h : c.length = c'.length) (k k' : Vector Word 8) (off : U64)
    (r : IsRoot) (f : Byte) : Same SimO (Steps.hash_one_chunk c k off r f p) (Steps.hash_one_chunk c' k' off r f p) := by
  unfold Steps.hash_one_chunk
  refine Same.bind (rec_assert Iff.rfl) fun _ _ _ => ?_
  exact rec_hash_one_chunk_loop _ _ _ h ..

theorem rec_hash_chunks_parallel (cfg : Config) (p : Platform) {x y : Bytes} (h : x.length = y.length) (k k' : Vector Word 8)
    (off : U64) (f : Byte) {out out' : Bytes} (ho : SameLen out out') :
    Same SimP (Steps.hash_chunks_parallel cfg x k off f p out) (Steps.hash_chunks_parallel cfg y k' off f p out') := by
  unfold Steps.hash_chunks_parallel
  refine Same.bind (rec_assert (not_nil_iff h)) fun _ _ _ => ?_
  refine Same.bind (rec_assert (by rw [h])) fun _ _ _ => ?_
  refine Same.bind (rec_assert Iff.rfl) fun _ _ _ => ?_
  refine Same.bind (rec_pushAll CHUNK_LEN _ (by decide) h) fun a b hab => ?_
  obtain ⟨h1, h2, h3⟩ := hab
  refine Same.bind (rec_hash_many p CHUNK_LEN (by decide) _ _ _ _ _ _ _ _ _ _ _ h2 h3 h1 ho) fun o o' hoo => ?_
  refine Same.when _ (not_nil_iff (rem_len _ h)) (fun _ _ => ?_) (fun _ _ => Same.pure ⟨h1, hoo⟩)
  rw [h1]
  refine Same.bind (Same.refl _) fun a _ e => ?_
  subst e
  refine Same.bind (Same.refl _) fun a _ e => ?_
  subst e
  refine Same.bind (rec_hash_one_chunk _ _ _ (rem_len _ h) ..) fun _ _ e => ?_
  refine Same.bind (rec_to_hash e) fun _ _ _ => ?_
  refine Same.bind (rec_writeAt hoo _ (by simp)) fun _ _ e => ?_
  exact Same.pure ⟨rfl, e⟩

theorem rec_hash_parents_parallel (cfg : Config) (p : Platform) {x y : Bytes} (h : x.length = y.length) (k k' : Vector Word 8)
    (f : Byte) {out out' : Bytes} (ho : SameLen out out') :
    Same SimP (Steps.hash_parents_parallel cfg x k f p out) (Steps.hash_parents_parallel cfg y k' f p out') := by
  unfold Steps.hash_parents_parallel
  dsimp only
  refine Same.bind (rec_assert (by rw [h])) fun _ _ _ => ?_
  refine Same.bind (rec_assert (by rw [h])) fun _ _ _ => ?_
  refine Same.bind (rec_assert (by rw [h])) fun _ _ _ => ?_
  refine Same.bind (rec_pushAll BLOCK_LEN _ (by decide) h) fun a b hab => ?_
  obtain ⟨h1, h2, h3⟩ := hab
  refine Same.bind (rec_hash_many p BLOCK_LEN (by decide) _ _ _ _ _ _ _ _ _ _ _ h2 h3 h1 ho) fun o o' hoo => ?_
  refine Same.when _ (not_nil_iff (rem_len _ h)) (fun _ _ => ?_) (fun _ _ => Same.pure ⟨h1, hoo⟩)
  refine Same.bind (rec_assert (by rw [rem_len _ h])) fun _ _ _ => ?_
  rw [h1]
  refine Same.bind (rec_writeAt hoo _ (rem_len _ h)) fun _ _ e => ?_
  exact Same.pure ⟨rfl, e⟩

theorem rec_hash_recurse (cfg : Config) (p : Platform) (f : Byte) (k k' : Vector Word 8) :
    ∀ {x y : Bytes}, x.length = y.length → ∀ (off : U64) {out out' : Bytes}, SameLen out out' →
    Same SimP (Steps.hash_recurse cfg x k off f p out) (Steps.hash_recurse cfg y k' off f p out') := by
  intro x
  induction hn : x.length using Nat.strongRecOn generalizing x with
  | _ n ih =>
    intro y h off out out' ho
    subst hn
    rw [Steps.hash_recurse, Steps.hash_recurse]
    refine Same.when _ (by rw [h]) (fun _ _ => rec_hash_chunks_parallel cfg p h _ _ _ _ ho) (fun _ _ => ?_)
    have hy : left_len cfg.usizeBits y.length = left_len cfg.usizeBits x.length := by rw [h]
    split
    · rename_i e he
      split
      · rename_i e' he'
        rw [hy, he] at he'
        injection he' with he'
        subst he'
        rw [h]
        exact Same.bind (Same.any _ _) fun _ _ _ => Same.error _
      · rename_i l he'
        rw [hy, he] at he'
        cases he'
    · rename_i l he
      split
      · rename_i e' he'
        rw [hy, he] at he'
        cases he'
      · rename_i l' he'
        rw [hy, he] at he'
        injection he' with he'
        subst he'
        have l1 := left_len_lt he
        have l2 := left_len_pos he
        have hl : (x.take l).length = (y.take l).length := by simp only [List.length_take, h]
        have hr : (x.drop l).length = (y.drop l).length := by simp only [List.length_drop, h]
        dsimp only
        rw [hl, h]
        refine Same.bind (Same.any _ _) fun _ _ _ => ?_
        refine Same.bind (Same.refl _) fun a _ e => ?_
        subst e
        refine Same.bind (rec_assert Iff.rfl) fun _ _ _ => ?_
        refine Same.bind (Same.cond _ Iff.rfl) fun _ _ _ => ?_
        refine Same.bind (rec_splitAtR rfl _) fun s s' hs => ?_
        refine Same.bind (ih _ (by simp only [List.length_take]; omega) rfl hl _ hs.1) fun u u' hu => ?_
        refine Same.bind (ih _ (by simp only [List.length_drop]; omega) rfl hr _ hs.2) fun v v' hv => ?_
        obtain ⟨u1, u2⟩ := u
        obtain ⟨u1', u2'⟩ := u'
        obtain ⟨v1, v2⟩ := v
        obtain ⟨v1', v2'⟩ := v'
        obtain ⟨hu1, hu2⟩ := hu
        obtain ⟨hv1, hv2⟩ := hv
        dsimp only at hu1 hu2 hv1 hv2 ⊢
        subst hu1 hv1
        have ha : SameLen (u2 ++ v2) (u2' ++ v2') := by
          show List.length _ = List.length _
          rw [List.length_append, List.length_append, hu2, hv2]
        refine Same.bind (rec_assert Iff.rfl) fun _ _ _ => ?_
        refine Same.bind (rec_assert Iff.rfl) fun _ _ _ => ?_
        refine Same.when _ Iff.rfl (fun _ _ => ?_) (fun _ _ => ?_)
        · refine Same.bind (rec_sliceTo ha _) fun _ _ hc => ?_
          refine Same.bind (rec_writeAt ho _ hc) fun _ _ e => ?_
          exact Same.pure ⟨rfl, e⟩
        · refine Same.bind (rec_sliceTo ha _) fun _ _ hc => ?_
          exact rec_hash_parents_parallel cfg p hc _ _ _ ho

theorem rec_condense_loop (cfg : Config) (p : Platform) (f : Byte) (k k' : Vector Word 8) (n : Nat) :
    ∀ {x y out out' : Bytes}, SameLen x y → SameLen out out' →
    Same SameLen (Steps.condense_loop cfg k f p n x out) (Steps.condense_loop cfg k' f p n y out') := by
  induction n with
  | zero => intro x y out out' h ho; exact Same.error _
  | succ n ih =>
    intro x y out out' h ho
    rw [Steps.condense_loop, Steps.condense_loop]
    refine Same.when _ (by rw [show x.length = y.length from h]) (fun _ _ => ?_) (fun _ _ => Same.pure h)
    refine Same.bind (rec_hash_parents_parallel cfg p h _ _ _ ho) fun a b hab => ?_
    obtain ⟨a1, a2⟩ := a
    obtain ⟨b1, b2⟩ := b
    obtain ⟨h1, h2⟩ := hab
    dsimp only at h1 h2 ⊢
    subst h1
    refine Same.bind (rec_sliceTo h2 _) fun _ _ hc => ?_
    refine Same.bind (rec_writeAt h _ hc) fun _ _ e => ?_
    refine Same.bind (rec_sliceTo e _) fun _ _ hc => ?_
    exact ih hc h2

theorem rec_condense_root (cfg : Config) (p : Platform) (f : Byte) (k k' : Vector Word 8) {x y : Bytes} (h : SameLen x y) :
    Same SimO (Steps.condense_root cfg x k f p) (Steps.condense_root cfg y k' f p) := by
  unfold Steps.condense_root
  dsimp only
  rw [show x.length = y.length from h]
  refine Same.bind (rec_assert Iff.rfl) fun _ _ _ => ?_
  refine Same.bind (rec_assert Iff.rfl) fun _ _ _ => ?_
  refine Same.bind (rec_condense_loop cfg p f k k' _ h rfl) fun _ _ e => ?_
  exact Same.bind (rec_arrayRef e _ _) fun _ _ _ => Same.pure ⟨rfl, rfl, rfl, rfl⟩

theorem rec_hash_internal (cfg : Config) (f : Byte) (k k' : Vector Word 8) {x y : Bytes} (h : SameLen x y) :
    Same SimO (Steps.hash_internal cfg x k f) (Steps.hash_internal cfg y k' f) := by
  unfold Steps.hash_internal
  dsimp only
  refine Same.when _ (by rw [show x.length = y.length from h]) (fun _ _ => rec_hash_one_chunk _ _ _ h ..) (fun _ _ => ?_)
  refine Same.bind (rec_hash_recurse cfg _ f k k' h _ rfl) fun a b hab => ?_
  obtain ⟨a1, a2⟩ := a
  obtain ⟨b1, b2⟩ := b
  obtain ⟨h1, h2⟩ := hab
  dsimp only at h1 h2 ⊢
  subst h1
  refine Same.bind (rec_sliceTo h2 _) fun _ _ hc => ?_
  exact rec_condense_root cfg _ f k k' hc

/-! ## Incremental hashing -/

theorem rec_start {s t : ChunkState} (hs : SimC s t) :
    Same Eq (Steps.ChunkState.maybe_chunk_start_flag s) (Steps.ChunkState.maybe_chunk_start_flag t) := by
  unfold Steps.ChunkState.maybe_chunk_start_flag
  rw [hs.2.1]
  exact Same.refl _

theorem rec_fill_buf {s t : ChunkState} (hs : SimC s t) {x y : Bytes} (h : SameLen x y) :
    Same (fun a b => SimC a.1 b.1 ∧ SameLen a.2 b.2) (Steps.ChunkState.fill_buf s x) (Steps.ChunkState.fill_buf t y) := by
  obtain ⟨h1, h2, h3, h4, h5⟩ := hs
  unfold Steps.ChunkState.fill_buf
  dsimp only
  rw [h3, show x.length = y.length from h]
  refine Same.bind (Same.refl _) fun a _ e => ?_
  subst e
  refine Same.bind (rec_writeAt (by simp) _ (by simp only [List.length_take, h])) fun _ _ e => ?_
  refine Same.bind (rec_arrayRef e _ _) fun _ _ _ => ?_
  refine Same.bind (Same.refl _) fun b _ e => ?_
  subst e
  exact Same.pure ⟨⟨h1, h2, rfl, h4, h5⟩, by show List.length _ = List.length _; simp only [List.length_drop, h]⟩

theorem rec_update_blocks {x y : Bytes} (h : SameLen x y) : ∀ {s t : ChunkState}, SimC s t →
    Same (fun a b => SimC a.1 b.1 ∧ SameLen a.2 b.2) (Steps.ChunkState.update_blocks s x) (Steps.ChunkState.update_blocks t y) := by
  induction hn : x.length using Nat.strongRecOn generalizing x y with
  | _ n ih =>
    intro s t hs
    subst hn
    have h' : x.length = y.length := h
    rw [Steps.ChunkState.update_blocks, Steps.ChunkState.update_blocks]
    refine Same.bind (Same.cond _ (by rw [h'])) fun _ _ _ => ?_
    by_cases k : BLOCK_LEN < x.length
    · rw [dif_pos k, dif_pos (h' ▸ k)]
      dsimp only
      have hst := rec_start hs
      obtain ⟨h1, h2, h3, h4, h5⟩ := hs
      rw [h3, h4, h5, h1, h2]
      refine Same.bind (rec_assert Iff.rfl) fun _ _ _ => ?_
      refine Same.bind hst fun fl _ e => ?_
      subst e
      refine Same.bind (rec_arrayRef h' _ _) fun _ _ _ => ?_
      refine Same.bind (rec_compress ..) fun _ _ _ => ?_
      refine Same.bind (Same.refl _) fun a _ e => ?_
      subst e
      have k' : 64 < x.length := k
      exact ih _ (by simp only [List.length_drop, BLOCK_LEN]; omega)
        (by show List.length _ = List.length _; simp only [List.length_drop, h']) rfl ⟨rfl, rfl, rfl, rfl, rfl⟩
    · rw [dif_neg k, dif_neg (h' ▸ k)]
      exact Same.pure ⟨hs, h⟩

theorem rec_update_first {x y : Bytes} (h : SameLen x y) {s t : ChunkState} (hs : SimC s t) :
    Same (fun a b => SimC a.1 b.1 ∧ SameLen a.2 b.2) (Steps.ChunkState.update_first s x) (Steps.ChunkState.update_first t y) := by
  unfold Steps.ChunkState.update_first
  refine Same.when _ (by rw [hs.2.2.1]) (fun _ _ => ?_) (fun _ _ => Same.pure ⟨hs, h⟩)
  refine Same.bind (rec_fill_buf hs h) fun a b hab => ?_
  obtain ⟨s, x⟩ := a
  obtain ⟨t, y⟩ := b
  obtain ⟨hs, h⟩ := hab
  dsimp only at hs h ⊢
  refine Same.when _ (not_nil_iff h) (fun _ _ => ?_) (fun _ _ => Same.pure ⟨hs, h⟩)
  have hst := rec_start hs
  obtain ⟨h1, h2, h3, h4, h5⟩ := hs
  rw [h3, h4, h5, h1, h2]
  refine Same.bind (rec_assert Iff.rfl) fun _ _ _ => ?_
  refine Same.bind hst fun fl _ e => ?_
  subst e
  refine Same.bind (rec_compress ..) fun _ _ _ => ?_
  refine Same.bind (Same.refl _) fun a _ e => ?_
  subst e
  exact Same.pure ⟨⟨rfl, rfl, rfl, rfl, rfl⟩, h⟩

theorem rec_chunk_update {x y : Bytes} (h : SameLen x y) {s t : ChunkState} (hs : SimC s t) :
    Same SimC (Steps.ChunkState.update s x) (Steps.ChunkState.update t y) := by
  unfold Steps.ChunkState.update
  refine Same.bind (rec_update_first h hs) fun a b hab => ?_
  refine Same.bind (rec_update_blocks hab.2 hab.1) fun a b hab => ?_
  refine Same.bind (rec_fill_buf hab.1 hab.2) fun a b hab => ?_
  obtain ⟨s, x⟩ := a
  obtain ⟨t, y⟩ := b
  obtain ⟨hs, h⟩ := hab
  dsimp only at hs h ⊢
  refine Same.bind (rec_assert (nil_iff h)) fun _ _ _ => ?_
  refine Same.bind (rec_assert (by rw [hs.len])) fun _ _ _ => ?_
  exact Same.pure hs

theorem rec_chunk_finalize {s t : ChunkState} (hs : SimC s t) (r : IsRoot) : Same SimO (Steps.ChunkState.finalize s r) (Steps.ChunkState.finalize t r) := by
  unfold Steps.ChunkState.finalize
  have hst := rec_start hs
  obtain ⟨h1, h2, h3, h4, h5⟩ := hs
  dsimp only
  rw [h3, h4, h5, h1]
  refine Same.bind (rec_assert Iff.rfl) fun _ _ _ => ?_
  refine Same.bind hst fun fl _ e => ?_
  subst e
  exact Same.pure ⟨rfl, rfl, rfl, rfl⟩

theorem rec_reset {s t : ChunkState} (hs : SimC s t) (o : U64) : Same SimC (Steps.ChunkState.reset s o) (Steps.ChunkState.reset t o) := by
  unfold Steps.ChunkState.reset
  refine Same.bind (rec_assert Iff.rfl) fun _ _ _ => ?_
  exact Same.pure ⟨rfl, rfl, rfl, hs.2.2.2.1, hs.2.2.2.2⟩

theorem rec_parent (a b a' b' : Vector Byte 32) (k k' : Vector Word 8) (r : IsRoot) (f : Byte) (p : Platform) :
    Same SimO (Steps.hash_one_parent a b k r f p) (Steps.hash_one_parent a' b' k' r f p) := ⟨rfl, sim_parent ..⟩

theorem rec_merge_parent {g h : Hasher} (hs : SimH g h) : Same SimH (Steps.Hasher.merge_parent g) (Steps.Hasher.merge_parent h) := by
  obtain ⟨h1, h2⟩ := hs
  unfold Steps.Hasher.merge_parent
  rw [h1]
  refine Same.bind (Same.any _ _) fun _ _ _ => ?_
  rcases e : g.subtree_hashes with _ | ⟨a, _ | ⟨b, l⟩⟩ <;> rcases e' : h.subtree_hashes with _ | ⟨a', _ | ⟨b', l'⟩⟩ <;>
    rw [e, e'] at h1 <;> simp only [List.length_cons, List.length_nil] at h1 <;> try omega
  · exact Same.error _
  · exact Same.error _
  · dsimp only
    rw [h2.2.2.2.1, h2.2.2.2.2]
    refine Same.bind (rec_parent ..) fun _ _ ho => ?_
    refine Same.bind (rec_to_hash ho) fun _ _ _ => ?_
    exact Same.pure ⟨by simp only [List.length_cons]; omega, h2⟩

theorem rec_merge_loop_n (off : U64) (n : Nat) : ∀ {g h : Hasher}, SimH g h →
    Same SimH (Steps.Hasher.merge_loop_n off n g) (Steps.Hasher.merge_loop_n off n h) := by
  induction n with
  | zero => intro g h hs; exact Same.error _
  | succ n ih =>
    intro g h hs
    refine Same.when _ (by unfold Hasher.needs_merge; rw [hs.1]) (fun _ _ => ?_) (fun _ _ => Same.pure hs)
    exact Same.bind (rec_merge_parent hs) fun _ _ hs => ih hs

theorem rec_merge_loop (off : U64) {g h : Hasher} (hs : SimH g h) :
    Same SimH (Steps.Hasher.merge_loop g off) (Steps.Hasher.merge_loop h off) := by
  unfold Steps.Hasher.merge_loop
  rw [hs.1]
  exact rec_merge_loop_n off _ hs

theorem rec_push_chunk_hash (off : U64) (a b : Vector Byte 32) {g h : Hasher} (hs : SimH g h) :
    Same SimH (Steps.Hasher.push_chunk_hash g a off) (Steps.Hasher.push_chunk_hash h b off) := by
  unfold Steps.Hasher.push_chunk_hash
  refine Same.bind (rec_merge_loop off hs) fun g h hs => ?_
  rw [hs.1]
  refine Same.bind (Same.any _ _) fun _ _ _ => ?_
  refine Same.ite Iff.rfl (fun _ _ => ?_) (fun _ _ => Same.error _)
  exact Same.pure ⟨by simp only [List.length_cons, hs.1], hs.2⟩

set_option maxRecDepth 4000 in
theorem push_hashes_cons (c : Bytes) (cs : List Bytes) (h : Hasher) : Steps.Hasher.push_hashes (c :: cs) h = (do
    let hash ← Steps.arrayRef c 0 OUT_LEN
    let h ← Steps.Hasher.push_chunk_hash h hash h.chunk.offset
    let offset ← Steps.addU64 h.chunk.offset (BitVec.ofNat 64 CHUNK_LEN)
    Steps.Hasher.push_hashes cs { h with chunk := { h.chunk with offset } }) := rfl

set_option maxRecDepth 8000 in
theorem rec_push_hashes (cs : List Bytes) : ∀ (ds : List Bytes), SameLens cs ds → ∀ {g h : Hasher}, SimH g h →
    Same SimH (Steps.Hasher.push_hashes cs g) (Steps.Hasher.push_hashes ds h) := by
  induction cs with
  | nil =>
    intro ds hd g h hs
    cases ds with
    | nil => exact Same.pure hs
    | cons _ _ => cases hd
  | cons c cs ih =>
    intro ds hd g h hs
    cases ds with
    | nil => cases hd
    | cons d ds =>
      have h1 : c.length = d.length := by injection hd
      have h2 : SameLens cs ds := by injection hd
      rw [push_hashes_cons, push_hashes_cons, hs.2.1]
      refine Same.bind (rec_arrayRef h1 _ _) fun _ _ _ => ?_
      refine Same.bind (rec_push_chunk_hash _ _ _ hs) fun g h hs => ?_
      rw [hs.2.1]
      refine Same.bind (Same.refl (Steps.addU64 _ _)) fun o _ e => ?_
      subst e
      exact ih ds h2 ⟨hs.1, rfl, hs.2.2⟩

theorem rec_update_loop (cfg : Config) (cs : List Bytes) : ∀ (ds : List Bytes), (∀ c ∈ cs, c.length = CHUNK_LEN) →
    (∀ d ∈ ds, d.length = CHUNK_LEN) → cs.length = ds.length → ∀ {out out' : Bytes}, SameLen out out' →
    ∀ {g h : Hasher}, SimH g h →
    Same SimH (Steps.Hasher.update_loop cfg cs out g) (Steps.Hasher.update_loop cfg ds out' h) := by
  induction hn : cs.length using Nat.strongRecOn generalizing cs with
  | _ n ih =>
    intro ds hc hd hl out out' ho g h hs
    subst hn
    have tl : (cs.take (MAX_SIMD_DEGREE cfg)).length = (ds.take (MAX_SIMD_DEGREE cfg)).length := by
      simp only [List.length_take, hl]
    rw [Steps.Hasher.update_loop, Steps.Hasher.update_loop]
    refine Same.bind (Same.cond _ (nil_iff tl)) fun _ _ _ => ?_
    by_cases k : cs.take (MAX_SIMD_DEGREE cfg) = []
    · rw [dif_pos k, dif_pos ((nil_iff tl).1 k)]
      exact Same.pure hs
    · rw [dif_neg k, dif_neg (fun t => k ((nil_iff tl).2 t))]
      dsimp only
      have hs' := hs
      obtain ⟨-, h1, h2, h3, h4, h5⟩ := hs'
      rw [h1, h4, h5, tl]
      refine Same.bind (rec_hash_many _ CHUNK_LEN (by decide) _ _ _ _ _ _ _ _ _ _ _ (fun x hx => hc x (List.mem_of_mem_take hx))
        (fun x hx => hd x (List.mem_of_mem_take hx)) tl ho) fun o o' hoo => ?_
      refine Same.bind (rec_push_hashes _ _ (sameLens_of OUT_LEN
        (fun x hx => mem_chunksExact OUT_LEN (by decide) _ x (List.mem_of_mem_take hx))
        (fun x hx => mem_chunksExact OUT_LEN (by decide) _ x (List.mem_of_mem_take hx))
        (by simp only [List.length_take, chunks_len OUT_LEN (by decide) hoo])) hs) fun g h hs => ?_
      have p1 : 0 < cs.length := by
        cases cs with
        | nil => exact absurd List.take_nil k
        | cons c cs => simp
      have p2 : 0 < MAX_SIMD_DEGREE cfg := by unfold MAX_SIMD_DEGREE; split <;> decide
      exact ih _ (by simp only [List.length_drop]; omega) _ rfl _ (fun x hx => hc x (List.mem_of_mem_drop hx))
        (fun x hx => hd x (List.mem_of_mem_drop hx)) (by simp only [List.length_drop, hl]) hoo hs

theorem rec_update_rest (cfg : Config) {x y : Bytes} (h : SameLen x y) {g h' : Hasher} (hs : SimH g h') :
    Same SimH (Steps.Hasher.update_rest cfg g x) (Steps.Hasher.update_rest cfg h' y) := by
  unfold Steps.Hasher.update_rest
  dsimp only
  refine Same.bind (rec_assert (by rw [hs.2.len])) fun _ _ _ => ?_
  refine Same.bind (rec_update_loop cfg _ _ (mem_chunksExact _ (by decide) _) (mem_chunksExact _ (by decide) _)
    (chunks_len _ (by decide) h) rfl hs) fun g h'' hs => ?_
  refine Same.bind (rec_assert (by rw [hs.2.len])) fun _ _ _ => ?_
  refine Same.bind (rec_assert (by rw [rem_len _ h])) fun _ _ _ => ?_
  refine Same.when _ (not_nil_iff (rem_len _ h)) (fun _ _ => ?_) (fun _ _ => Same.pure hs)
  rw [hs.2.1]
  refine Same.bind (rec_merge_loop _ hs) fun g h'' hs => ?_
  refine Same.bind (rec_chunk_update (rem_len _ h) hs.2) fun _ _ hc => ?_
  exact Same.pure ⟨hs.1, hc⟩

set_option maxRecDepth 8000 in
theorem rec_update (cfg : Config) {x y : Bytes} (h : SameLen x y) {g h' : Hasher} (hs : SimH g h') :
    Same SimH (Steps.Hasher.update cfg g x) (Steps.Hasher.update cfg h' y) := by
  unfold Steps.Hasher.update
  dsimp only
  have e1 := hs.2.1
  have e2 := hs.2.len
  have hl : x.length = y.length := h
  refine Same.when _ (by rw [e1, e2, hl]) (fun _ _ => ?_) (fun _ _ => rec_update_rest cfg h hs)
  rw [e2, hl]
  refine Same.bind (Same.refl _) fun w _ e => ?_
  subst e
  refine Same.bind (rec_chunk_update (by show List.length _ = List.length _; simp only [List.length_take, hl]) hs.2) fun c c' hc => ?_
  have hd : SameLen (x.drop (min w y.length)) (y.drop (min w y.length)) := by
    show List.length _ = List.length _; simp only [List.length_drop, hl]
  refine Same.when _ (not_nil_iff hd) (fun _ _ => ?_) (fun _ _ => Same.pure ⟨hs.1, hc⟩)
  refine Same.bind (rec_assert (by rw [hc.len])) fun _ _ _ => ?_
  refine Same.bind (rec_chunk_finalize hc _) fun _ _ ho => ?_
  refine Same.bind (rec_to_hash ho) fun _ _ _ => ?_
  rw [hc.1]
  refine Same.bind (rec_push_chunk_hash _ _ _ (g := { g with chunk := c }) (h := { h' with chunk := c' }) ⟨hs.1, hc⟩) fun g h'' hs => ?_
  rw [hs.2.1]
  refine Same.bind (Same.refl (Steps.addU64 _ _)) fun o _ e => ?_
  subst e
  refine Same.bind (rec_reset hs.2 _) fun _ _ hc => ?_
  exact rec_update_rest cfg hd ⟨hs.1, hc⟩

theorem rec_finalize_loop {g h : Hasher} (hs : SimH g h) (S : List (Vector Byte 32)) : ∀ (S' : List (Vector Byte 32)) (w w' : Vector Byte 32),
    S.length = S'.length → Same SimO (Steps.Hasher.finalize_loop g w S) (Steps.Hasher.finalize_loop h w' S') := by
  induction S with
  | nil =>
    intro S' w w' e
    cases S' with
    | nil => exact Same.error _
    | cons _ _ => cases e
  | cons s S ih =>
    intro S' w w' e
    cases S' with
    | nil => cases e
    | cons s' S' =>
      simp only [List.length_cons, Nat.add_right_cancel_iff] at e
      have f1 := hs.2.2.2.2.1
      have f2 := hs.2.2.2.2.2
      cases S with
      | nil =>
        cases S' with
        | nil =>
          rw [Steps.Hasher.finalize_loop, Steps.Hasher.finalize_loop, f1, f2]
          refine Same.bind (Same.any _ _) fun _ _ _ => ?_
          exact rec_parent ..
        | cons _ _ => cases e
      | cons t S =>
        cases S' with
        | nil => cases e
        | cons t' S' =>
          rw [Steps.Hasher.finalize_loop, Steps.Hasher.finalize_loop, f1, f2]
          · rw [show (t :: S).length = (t' :: S').length from e]
            refine Same.bind (Same.any _ _) fun _ _ _ => ?_
            refine Same.bind (rec_parent ..) fun _ _ ho => ?_
            refine Same.bind (rec_to_hash ho) fun a b _ => ?_
            exact ih _ _ _ e
          · simp
          · simp

theorem rec_finalize_xof {g h : Hasher} (hs : SimH g h) : Same SimO (Steps.Hasher.finalize_xof g) (Steps.Hasher.finalize_xof h) := by
  unfold Steps.Hasher.finalize_xof
  refine Same.when _ (nil_iff hs.1) (fun _ _ => (rec_chunk_finalize hs.2 _)) (fun _ _ => ?_)
  refine Same.when _ (by rw [hs.2.len]) (fun _ _ => ?_) (fun _ _ => ?_)
  · refine Same.bind (rec_assert (by unfold Hasher.needs_merge; rw [hs.1, hs.2.1])) fun _ _ _ => ?_
    refine Same.bind (rec_chunk_finalize hs.2 _) fun _ _ ho => ?_
    refine Same.bind (rec_to_hash ho) fun _ _ _ => ?_
    exact rec_finalize_loop hs _ _ _ _ hs.1
  · refine Same.bind (rec_assert (by rw [hs.1])) fun _ _ _ => ?_
    have e := hs.1
    rcases e1 : g.subtree_hashes with _ | ⟨a, l⟩ <;> rcases e2 : h.subtree_hashes with _ | ⟨a', l'⟩ <;> rw [e1, e2] at e
    · exact Same.error _
    · cases e
    · cases e
    · simp only [List.length_cons, Nat.add_right_cancel_iff] at e
      exact rec_finalize_loop hs _ _ _ _ e

theorem rec_session (cfg : Config) (prof : Profile) {cs ds : List HCall} (hc : SameCalls cs ds) : ∀ {g h : Hasher}, SimH g h →
    Same Any (Steps.Hasher.session cfg prof cs g) (Steps.Hasher.session cfg prof ds h) := by
  induction hc with
  | nil => intro g h hs; exact Same.pure trivial
  | cons h1 h2 ih =>
    intro g h hs
    cases h1 with
    | update s t e => exact Same.bind (rec_update cfg e hs) fun _ _ hs => ih hs
    | output os =>
      refine Same.bind (rec_finalize_xof hs) fun _ _ ho => ?_
      refine Same.bind (rec_run prof os ho) fun _ _ _ => ?_
      exact Same.bind (ih hs) fun _ _ _ => Same.pure trivial

theorem rec_key (k k' : Vector Byte 32) : Same Any (Steps.words_from_key_bytes k) (Steps.words_from_key_bytes k') := ⟨rfl, trivial⟩

theorem rec_oneShotXof (cfg : Config) (m m' : Spec.Mode) (hm : m.flag = m'.flag) {x y : Bytes} (h : SameLen x y) :
    Same SimO (Steps.oneShotXof cfg m x) (Steps.oneShotXof cfg m' y) := by
  cases m <;> cases m'
  case hash.hash => exact rec_hash_internal cfg _ _ _ h
  case keyedHash.keyedHash k k' => exact Same.bind (rec_key k k') fun _ _ _ => rec_hash_internal cfg _ _ _ h
  case deriveKey.deriveKey k k' => exact Same.bind (rec_key k k') fun _ _ _ => rec_hash_internal cfg _ _ _ h
  all_goals (exfalso; revert hm; simp only [Spec.Mode.flag]; decide)

theorem rec_oneShotRun (cfg : Config) (prof : Profile) (m m' : Spec.Mode) (hm : m.flag = m'.flag) {x y : Bytes} (h : SameLen x y)
    (os : List OutCall) : Same Any (Steps.oneShotRun cfg prof m x os) (Steps.oneShotRun cfg prof m' y os) := by
  unfold Steps.oneShotRun
  refine Same.bind (rec_oneShotXof cfg m m' hm h) fun _ _ ho => ?_
  exact Same.bind (rec_run prof os ho) fun _ _ _ => Same.pure trivial

theorem rec_newHasher (cfg : Config) (m m' : Spec.Mode) (hm : m.flag = m'.flag) :
    Same SimH (Steps.newHasher cfg m) (Steps.newHasher cfg m') := by
  have e : ∀ (k k' : Vector Word 8) (f : Byte), SimH (Hasher.new_internal cfg k f) (Hasher.new_internal cfg k' f) :=
    fun _ _ _ => ⟨rfl, rfl, rfl, rfl, rfl, rfl⟩
  cases m <;> cases m'
  case hash.hash => exact Same.pure (e ..)
  case keyedHash.keyedHash k k' => exact Same.bind (rec_key k k') fun _ _ _ => Same.pure (e ..)
  case deriveKey.deriveKey k k' => exact Same.bind (rec_key k k') fun _ _ _ => Same.pure (e ..)
  all_goals (exfalso; revert hm; simp only [Spec.Mode.flag]; decide)

theorem rec_sessionRun (cfg : Config) (prof : Profile) (m m' : Spec.Mode) (hm : m.flag = m'.flag) {cs ds : List HCall}
    (hc : SameCalls cs ds) : Same Any (Steps.sessionRun cfg prof m cs) (Steps.sessionRun cfg prof m' ds) :=
  Same.bind (rec_newHasher cfg m m' hm) fun _ _ hs => rec_session cfg prof hc hs

/-! ## Without the record -/

theorem assertR_res (c : Prop) [Decidable c] : (Steps.assertR c).res = assertR c := rfl
theorem arrayRef_res {α : Type} (s : List α) (i n : Nat) : (Steps.arrayRef s i n).res = arrayRef s i n := rfl
theorem writeAt_res {α : Type} (s : List α) (i : Nat) (d : List α) : (Steps.writeAt s i d).res = writeAt s i d := rfl
theorem sliceTo_res {α : Type} (s : List α) (n : Nat) : (Steps.sliceTo s n).res = sliceTo s n := rfl
theorem splitAtR_res {α : Type} (s : List α) (n : Nat) : (Steps.splitAtR s n).res = splitAtR s n := rfl
theorem addU64_res (a b : U64) : (Steps.addU64 a b).res = addU64 a b := rfl
theorem mulU64_res (a b : U64) : (Steps.mulU64 a b).res = mulU64 a b := rfl
theorem addN_res (w a b : Nat) : (Steps.addN w a b).res = addN w a b := rfl
theorem subN_res (a b : Nat) : (Steps.subN a b).res = subN a b := rfl
theorem pushAll_res {α : Type} (c : Nat) (xs : List α) : (Steps.pushAll c xs).res = pushAll c xs := rfl
theorem err_res {α} (e : Panic) (l : List Step) : (⟨.error e, l⟩ : Try α).res = .error e := rfl

theorem ite_res {α} {c : Prop} [Decidable c] (x y : Try α) : (if c then x else y).res = if c then x.res else y.res := by
  split <;> rfl

theorem dite_res {α} {c : Prop} [Decidable c] (x : c → Try α) (y : ¬c → Try α) :
    (dite c x y).res = dite c (fun h => (x h).res) (fun h => (y h).res) := by split <;> rfl

theorem err_bind {α β} (e : Panic) (f : α → R β) : (Except.error e >>= f) = .error e := rfl

theorem test_bind {α} (s : String) (b : Bool) (f : Unit → Try α) : (Steps.test s b >>= f).res = (f ()).res := rfl

theorem op_bind {α} (s : String) (i : List Nat) (f : Unit → Try α) :
    ((liftM (Steps.op s i ()) : Try Unit) >>= f).res = (f ()).res := rfl

theorem compress_res (p : Platform) (cv : Vector Word 8) (b : Vector Byte 64) (l : Byte) (o : U64) (f : Byte) :
    (Steps.compress p cv b l o f).res = .ok (p.compress cv b l o f) := by
  unfold Steps.compress
  rw [bind_res, lift_res, ok_bind]
  cases p
  · exact congrArg Except.ok (p_compress_val ..)
  · exact congrArg Except.ok (s_compress_val ..)
  · exact congrArg Except.ok (s_compress_val ..)

theorem compress_xof_res (p : Platform) (cv : Vector Word 8) (b : Vector Byte 64) (l : Byte) (o : U64) (f : Byte) :
    (Steps.compress_xof p cv b l o f).res = .ok (p.compress_xof cv b l o f) := by
  unfold Steps.compress_xof
  rw [bind_res, lift_res, ok_bind]
  cases p
  · exact congrArg Except.ok (p_compress_xof_val ..)
  · exact congrArg Except.ok (s_compress_xof_val ..)
  · exact congrArg Except.ok (s_compress_xof_val ..)

theorem hash_many_res (p : Platform) (cap : Nat) (xs : List Bytes) (key : Vector Word 8) (off d : U64)
    (f fs fe : Byte) (out : Bytes) :
    (Steps.hash_many p cap xs key off d f fs fe out).res = p.hash_many cap xs key off d f fs fe out := by
  unfold Steps.hash_many
  rw [bind_res, lift_res, ok_bind]
  cases p
  · exact p_hash_many_res ..
  · exact s_hash_many_res ..
  · exact a_hash_many_res ..

theorem read_res (prof : Profile) (o : Output) : (Steps.Output.read prof o).res = o.read prof := by
  simp only [Steps.Output.read, Model.Output.read, bind_res, assertR_res, arrayRef_res, writeAt_res, sliceTo_res, splitAtR_res, addU64_res, mulU64_res, addN_res, subN_res, pushAll_res, lift_res, test_res, err_res, ok_bind, err_bind, compress_xof_res, ok_bind, pure_res]
  cases prof <;> rfl

theorem to_hash_res (o : Output) : (Steps.Output.to_hash o).res = .ok o.to_hash := by
  unfold Steps.Output.to_hash
  rw [bind_res, compress_res, ok_bind]
  rfl

theorem run_res (prof : Profile) (cs : List OutCall) (o : Output) :
    (Steps.Output.run prof cs o).res = o.run prof cs := by
  induction cs generalizing o with
  | nil => rfl
  | cons c cs ih =>
    cases c <;> simp only [Steps.Output.run, Model.Output.run, bind_res, read_res, to_hash_res, ih, ok_bind] <;> rfl

theorem hash_one_chunk_loop_res (p : Platform) (chunk : Bytes) (off : U64) (r : IsRoot) (flags : Byte)
    (cv : Vector Word 8) (bf : Byte) (bo : Nat) :
    (Steps.hash_one_chunk_loop p chunk off r flags cv bf bo).res =
      Model.hash_one_chunk_loop p chunk off r flags cv bf bo := by
  induction hn : chunk.length - bo using Nat.strongRecOn generalizing cv bf bo with
  | ind n ih =>
  rw [Steps.hash_one_chunk_loop, Model.hash_one_chunk_loop, test_bind, dite_res]
  split
  next h =>
    rw [test_bind, ite_res]
    simp only [BLOCK_LEN] at h
    split
    · simp only [bind_res, assertR_res, arrayRef_res, writeAt_res, sliceTo_res, splitAtR_res, addU64_res, mulU64_res, addN_res, subN_res, pushAll_res, lift_res, test_res, err_res, ok_bind, err_bind, pure_res]; rfl
    · rw [bind_res]
      refine congrArg (Bind.bind _) (funext fun b => ?_)
      rw [bind_res, compress_res, ok_bind, ih (chunk.length - (bo + BLOCK_LEN))
        (by simp only [BLOCK_LEN]; omega) _ _ _ rfl]
  next h => simp only [bind_res, assertR_res, arrayRef_res, writeAt_res, sliceTo_res, splitAtR_res, addU64_res, mulU64_res, addN_res, subN_res, pushAll_res, lift_res, test_res, err_res, ok_bind, err_bind, pure_res]; rfl

theorem hash_one_chunk_res (chunk : Bytes) (key : Vector Word 8) (off : U64) (r : IsRoot) (flags : Byte)
    (p : Platform) :
    (Steps.hash_one_chunk chunk key off r flags p).res = Model.hash_one_chunk chunk key off r flags p := by
  simp only [Steps.hash_one_chunk, Model.hash_one_chunk, bind_res, assertR_res, arrayRef_res, writeAt_res, sliceTo_res, splitAtR_res, addU64_res, mulU64_res, addN_res, subN_res, pushAll_res, lift_res, test_res, err_res, ok_bind, err_bind, hash_one_chunk_loop_res]

theorem hash_chunks_parallel_res (cfg : Config) (input : Bytes) (key : Vector Word 8) (off : U64) (flags : Byte)
    (p : Platform) (out : Bytes) :
    (Steps.hash_chunks_parallel cfg input key off flags p out).res =
      Model.hash_chunks_parallel cfg input key off flags p out := by
  simp only [Steps.hash_chunks_parallel, Model.hash_chunks_parallel, bind_res, assertR_res, arrayRef_res, writeAt_res, sliceTo_res, splitAtR_res, addU64_res, mulU64_res, addN_res, subN_res, pushAll_res, lift_res, test_res, err_res, ok_bind, err_bind, hash_many_res, ite_res,
    hash_one_chunk_res, to_hash_res, ok_bind, pure_res]
  rfl

theorem hash_parents_parallel_res (cfg : Config) (cs : Bytes) (key : Vector Word 8) (flags : Byte)
    (p : Platform) (out : Bytes) :
    (Steps.hash_parents_parallel cfg cs key flags p out).res =
      Model.hash_parents_parallel cfg cs key flags p out := by
  simp only [Steps.hash_parents_parallel, Model.hash_parents_parallel, bind_res, assertR_res, arrayRef_res, writeAt_res, sliceTo_res, splitAtR_res, addU64_res, mulU64_res, addN_res, subN_res, pushAll_res, lift_res, test_res, err_res, ok_bind, err_bind, hash_many_res, ite_res,
    pure_res]
  rfl

theorem hash_recurse_res (cfg : Config) (input : Bytes) (key : Vector Word 8) (off : U64) (flags : Byte)
    (p : Platform) (out : Bytes) :
    (Steps.hash_recurse cfg input key off flags p out).res = Model.hash_recurse cfg input key off flags p out := by
  induction hn : input.length using Nat.strongRecOn generalizing input off out with
  | ind n ih =>
  rw [Steps.hash_recurse, Model.hash_recurse, test_bind, ite_res, op_bind, hash_chunks_parallel_res]
  refine congrArg (ite _ _) ?_
  split
  next e he => rw [he]
  next l hl =>
    rw [hl]
    have h1 := left_len_lt hl
    have h2 := left_len_pos hl
    simp only [bind_res, assertR_res, arrayRef_res, writeAt_res, sliceTo_res, splitAtR_res, addU64_res, mulU64_res, addN_res, subN_res, pushAll_res, lift_res, test_res, err_res, ok_bind, err_bind, ite_res, pure_res, hash_parents_parallel_res,
      fun o ou => ih (input.take l).length (by simp; omega) (input.take l) o ou rfl,
      fun o ou => ih (input.drop l).length (by simp; omega) (input.drop l) o ou rfl]
    rfl

theorem condense_loop_res (cfg : Config) (key : Vector Word 8) (flags : Byte) (p : Platform) (n : Nat)
    (cs out : Bytes) :
    (Steps.condense_loop cfg key flags p n cs out).res = Model.condense_loop cfg key flags p n cs out := by
  induction n generalizing cs out with
  | zero => rfl
  | succ n ih =>
    rw [Steps.condense_loop, Model.condense_loop, test_bind, ite_res]
    simp only [bind_res, assertR_res, arrayRef_res, writeAt_res, sliceTo_res, splitAtR_res, addU64_res, mulU64_res, addN_res, subN_res, pushAll_res, lift_res, test_res, err_res, ok_bind, err_bind, hash_parents_parallel_res, ih]
    rfl

theorem condense_root_res (cfg : Config) (cs : Bytes) (key : Vector Word 8) (flags : Byte) (p : Platform) :
    (Steps.condense_root cfg cs key flags p).res = Model.condense_root cfg cs key flags p := by
  simp only [Steps.condense_root, Model.condense_root, bind_res, assertR_res, arrayRef_res, writeAt_res, sliceTo_res, splitAtR_res, addU64_res, mulU64_res, addN_res, subN_res, pushAll_res, lift_res, test_res, err_res, ok_bind, err_bind, condense_loop_res, pure_res]
  rfl

theorem hash_internal_res (cfg : Config) (input : Bytes) (key : Vector Word 8) (flags : Byte) :
    (Steps.hash_internal cfg input key flags).res = Model.hash_internal cfg input key flags := by
  simp only [Steps.hash_internal, Model.hash_internal, bind_res, assertR_res, arrayRef_res, writeAt_res, sliceTo_res, splitAtR_res, addU64_res, mulU64_res, addN_res, subN_res, pushAll_res, lift_res, test_res, err_res, ok_bind, err_bind, ite_res, hash_one_chunk_res,
    hash_recurse_res, condense_root_res]

theorem oneShotXof_res (cfg : Config) (m : Spec.Mode) (input : Bytes) :
    (Steps.oneShotXof cfg m input).res = Model.oneShotXof cfg m input := by
  cases m <;> exact hash_internal_res ..

/-! ## Incremental hashing -/

theorem start_res (s : ChunkState) : (Steps.ChunkState.maybe_chunk_start_flag s).res = .ok s.maybe_chunk_start_flag := by
  unfold Steps.ChunkState.maybe_chunk_start_flag Model.ChunkState.maybe_chunk_start_flag
  rw [test_bind, ite_res]
  split <;> rfl

theorem fill_buf_res (s : ChunkState) (x : Bytes) : (Steps.ChunkState.fill_buf s x).res = s.fill_buf x := by
  simp only [Steps.ChunkState.fill_buf, Model.ChunkState.fill_buf, bind_res, assertR_res, arrayRef_res, writeAt_res, sliceTo_res, splitAtR_res, addU64_res, mulU64_res, addN_res, subN_res, pushAll_res, lift_res, test_res, err_res, ok_bind, err_bind, pure_res]
  rfl

theorem reset_res (s : ChunkState) (o : U64) : (Steps.ChunkState.reset s o).res = s.reset o := by
  simp only [Steps.ChunkState.reset, Model.ChunkState.reset, bind_res, assertR_res, pure_res]
  rfl

theorem chunk_finalize_res (s : ChunkState) (r : IsRoot) : (Steps.ChunkState.finalize s r).res = s.finalize r := by
  simp only [Steps.ChunkState.finalize, Model.ChunkState.finalize, bind_res, assertR_res, start_res, ok_bind, pure_res]
  rfl

theorem update_blocks_res (s : ChunkState) (input : Bytes) :
    (Steps.ChunkState.update_blocks s input).res = s.update_blocks input := by
  induction hn : input.length using Nat.strongRecOn generalizing s input with
  | ind n ih =>
  rw [Steps.ChunkState.update_blocks, Model.ChunkState.update_blocks, test_bind, dite_res]
  split
  next h =>
    simp only [BLOCK_LEN] at h
    simp only [bind_res, assertR_res, arrayRef_res, writeAt_res, sliceTo_res, splitAtR_res, addU64_res, mulU64_res, addN_res, subN_res, pushAll_res, lift_res, test_res, err_res, ok_bind, err_bind, start_res, fill_buf_res, reset_res, chunk_finalize_res, compress_res, ok_bind,
      fun s => ih (input.drop BLOCK_LEN).length (by simp [BLOCK_LEN]; omega) s (input.drop BLOCK_LEN) rfl]
  next h => rfl

theorem update_first_res (s : ChunkState) (input : Bytes) :
    (Steps.ChunkState.update_first s input).res = s.update_first input := by
  simp only [Steps.ChunkState.update_first, Model.ChunkState.update_first, ite_res, bind_res, assertR_res, arrayRef_res, writeAt_res, sliceTo_res, splitAtR_res, addU64_res, mulU64_res, addN_res, subN_res, pushAll_res, lift_res, test_res, err_res, ok_bind, err_bind, start_res, fill_buf_res, reset_res, chunk_finalize_res, compress_res,
    ok_bind, pure_res]
  rfl

theorem cs_update_res (s : ChunkState) (input : Bytes) :
    (Steps.ChunkState.update s input).res = s.update input := by
  simp only [Steps.ChunkState.update, Model.ChunkState.update, bind_res, assertR_res, arrayRef_res, writeAt_res, sliceTo_res, splitAtR_res, addU64_res, mulU64_res, addN_res, subN_res, pushAll_res, lift_res, test_res, err_res, ok_bind, err_bind, start_res, fill_buf_res, reset_res, chunk_finalize_res, update_first_res,
    update_blocks_res, pure_res]
  rfl

theorem parent_res (a b : Vector Byte 32) (k : Vector Word 8) (r : IsRoot) (f : Byte) (p : Platform) :
    (Steps.hash_one_parent a b k r f p).res = .ok (hash_one_parent a b k r f p) := rfl

theorem merge_parent_res (h : Hasher) : (Steps.Hasher.merge_parent h).res = h.merge_parent := by
  unfold Steps.Hasher.merge_parent Model.Hasher.merge_parent
  rw [op_bind]
  rcases h.subtree_hashes with _ | ⟨a, _ | ⟨b, l⟩⟩
  · rfl
  · rfl
  · dsimp only
    rw [bind_res, parent_res, ok_bind, bind_res, to_hash_res, ok_bind]
    rfl

theorem merge_loop_n_res (off : U64) (n : Nat) : ∀ (h : Hasher), h.subtree_hashes.length < n →
    (Steps.Hasher.merge_loop_n off n h).res = h.merge_loop off := by
  induction n with
  | zero => intro h hn; omega
  | succ n ih =>
    intro h hn
    rw [Steps.Hasher.merge_loop_n, Model.Hasher.merge_loop, test_bind, ite_res, bind_res, merge_parent_res]
    refine congrArg (fun x => ite _ x _) ?_
    split
    next e he => rw [he]; rfl
    next h' he =>
      rw [he]
      exact ih _ (by have := Model.Hasher.merge_parent_length he; omega)

theorem merge_loop_res (h : Hasher) (off : U64) : (Steps.Hasher.merge_loop h off).res = h.merge_loop off :=
  merge_loop_n_res off _ h (by omega)

theorem push_chunk_hash_res (h : Hasher) (x : Vector Byte 32) (off : U64) :
    (Steps.Hasher.push_chunk_hash h x off).res = h.push_chunk_hash x off := by
  simp only [Steps.Hasher.push_chunk_hash, Model.Hasher.push_chunk_hash, bind_res, merge_loop_res, lift_res, ok_bind, ite_res, pure_res]

theorem push_hashes_res (cs : List Bytes) (h : Hasher) :
    (Steps.Hasher.push_hashes cs h).res = Model.Hasher.push_hashes cs h := by
  induction cs generalizing h with
  | nil => rfl
  | cons c cs ih =>
    rw [push_hashes_cons, Model.Hasher.push_hashes, bind_res, arrayRef_res]
    cases arrayRef c 0 OUT_LEN with
    | error e => rw [err_bind, err_bind]
    | ok b =>
      rw [ok_bind, ok_bind, bind_res, push_chunk_hash_res]
      cases h.push_chunk_hash b h.chunk.offset with
      | error e => rw [err_bind, err_bind]
      | ok h =>
        rw [ok_bind, ok_bind, bind_res, addU64_res]
        cases addU64 h.chunk.offset (BitVec.ofNat 64 CHUNK_LEN) with
        | error e => rw [err_bind, err_bind]
        | ok o => rw [ok_bind, ok_bind, ih]

theorem update_loop_res (cfg : Config) (cs : List Bytes) (out : Bytes) (h : Hasher) :
    (Steps.Hasher.update_loop cfg cs out h).res = Model.Hasher.update_loop cfg cs out h := by
  induction hn : cs.length using Nat.strongRecOn generalizing cs out h with
  | ind n ih =>
  rw [Steps.Hasher.update_loop, Model.Hasher.update_loop, test_bind, dite_res]
  split
  next he => rfl
  next he =>
    have h1 : 0 < cs.length := by
      cases cs with
      | nil => exact absurd List.take_nil he
      | cons c cs => simp
    have h2 : 0 < MAX_SIMD_DEGREE cfg := by unfold MAX_SIMD_DEGREE; split <;> decide
    simp only [bind_res, hash_many_res, push_hashes_res,
      fun o h => ih (cs.drop (MAX_SIMD_DEGREE cfg)).length (by simp only [List.length_drop]; omega) _ o h rfl]

theorem update_rest_res (cfg : Config) (h : Hasher) (input : Bytes) :
    (Steps.Hasher.update_rest cfg h input).res = h.update_rest cfg input := by
  simp only [Steps.Hasher.update_rest, Model.Hasher.update_rest, bind_res, assertR_res, arrayRef_res, writeAt_res, sliceTo_res, splitAtR_res, addU64_res, mulU64_res, addN_res, subN_res, pushAll_res, lift_res, test_res, err_res, ok_bind, err_bind, start_res, fill_buf_res, reset_res, chunk_finalize_res, update_loop_res, ite_res,
    merge_loop_res, cs_update_res, pure_res]
  rfl

theorem update_res (cfg : Config) (h : Hasher) (input : Bytes) :
    (Steps.Hasher.update cfg h input).res = h.update cfg input := by
  simp only [Steps.Hasher.update, Model.Hasher.update, bind_res, assertR_res, arrayRef_res, writeAt_res, sliceTo_res, splitAtR_res, addU64_res, mulU64_res, addN_res, subN_res, pushAll_res, lift_res, test_res, err_res, ok_bind, err_bind, start_res, fill_buf_res, reset_res, chunk_finalize_res, ite_res, cs_update_res, to_hash_res,
    ok_bind, push_chunk_hash_res, update_rest_res, pure_res]
  rfl

theorem finalize_loop_res (h : Hasher) (w : Vector Byte 32) (l : List (Vector Byte 32)) :
    (Steps.Hasher.finalize_loop h w l).res = h.finalize_loop w l := by
  induction l generalizing w with
  | nil => rfl
  | cons s l ih =>
    cases l with
    | nil => rfl
    | cons s' l =>
      rw [Steps.Hasher.finalize_loop, op_bind, bind_res, parent_res, ok_bind, bind_res, to_hash_res, ok_bind, ih]
      · rfl
      · simp

theorem finalize_xof_res (h : Hasher) : (Steps.Hasher.finalize_xof h).res = h.finalize_xof := by
  simp only [Steps.Hasher.finalize_xof, Model.Hasher.finalize_xof, ite_res, bind_res, assertR_res, arrayRef_res, writeAt_res, sliceTo_res, splitAtR_res, addU64_res, mulU64_res, addN_res, subN_res, pushAll_res, lift_res, test_res, err_res, ok_bind, err_bind, start_res, fill_buf_res, reset_res, chunk_finalize_res, to_hash_res, ok_bind,
    finalize_loop_res]
  rcases h.subtree_hashes with _ | ⟨a, l⟩
  · rfl
  · simp only [finalize_loop_res]

theorem session_res (cfg : Config) (prof : Profile) (cs : List HCall) (h : Hasher) :
    (Steps.Hasher.session cfg prof cs h).res = h.session cfg prof cs := by
  induction cs generalizing h with
  | nil => rfl
  | cons c cs ih =>
    cases c <;> simp only [Steps.Hasher.session, Model.Hasher.session, bind_res, update_res, finalize_xof_res, run_res, ih] <;> rfl

end Baokeshed.Proofs.Steps
