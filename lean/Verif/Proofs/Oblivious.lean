import Verif.Proofs.Trace
import Verif.Proofs.Erase

/-!
# Two runs on inputs of equal lengths

`Rel Q x y`: the computations `x` and `y` perform compressions with the same block lengths, offsets and flags
in the same order, and either panic for the same reason or return results related by `Q`.
-/

namespace Baokeshed.Proofs.Obl
open Baokeshed.Model Baokeshed.Model.T Baokeshed.Proofs
set_option linter.unusedVariables false

/-- what may be known of a compression: everything but the chaining value and the block -/
abbrev pub (n : Spec.Input) : Byte × U64 × Byte := (n.blockLen, n.offset, n.flags)

def RelR {α β} (Q : α → β → Prop) : R α → R β → Prop
  | .ok a, .ok b => Q a b
  | .error e, .error e' => e = e'
  | _, _ => False

def Rel {α β} (Q : α → β → Prop) (x : TR α) (y : TR β) : Prop :=
  x.log.map pub = y.log.map pub ∧ RelR Q x.res y.res

theorem RelR.mono {α β} {Q Q' : α → β → Prop} (h : ∀ a b, Q a b → Q' a b) {x : R α} {y : R β} (hr : RelR Q x y) :
    RelR Q' x y := by
  cases x <;> cases y
  · exact hr
  · exact hr
  · exact hr
  · exact h _ _ hr

theorem RelR.bind {α β α' β'} {Q : α → β → Prop} {Q' : α' → β' → Prop} {x : R α} {y : R β} {f : α → R α'} {g : β → R β'}
    (h : RelR Q x y) (hf : ∀ a b, Q a b → RelR Q' (f a) (g b)) : RelR Q' (x >>= f) (y >>= g) := by
  cases x <;> cases y
  · exact h
  · exact h.elim
  · exact h.elim
  · exact hf _ _ h

theorem RelR.pure {α β} {Q : α → β → Prop} {a : α} {b : β} (h : Q a b) : RelR Q (Pure.pure a : R α) (Pure.pure b : R β) := h

theorem RelR.refl {α} (x : R α) : RelR Eq x x := by cases x <;> rfl

theorem RelR.ite {α β} {Q : α → β → Prop} {c c' : Prop} [Decidable c] [Decidable c'] {x y : R α} {x' y' : R β}
    (hc : c ↔ c') (h : c → c' → RelR Q x x') (h' : ¬ c → ¬ c' → RelR Q y y') :
    RelR Q (if c then x else y) (if c' then x' else y') := by
  by_cases k : c
  · rw [if_pos k, if_pos (hc.1 k)]; exact h k (hc.1 k)
  · rw [if_neg k, if_neg (fun t => k (hc.2 t))]; exact h' k (fun t => k (hc.2 t))

theorem Rel.mono {α β} {Q Q' : α → β → Prop} (h : ∀ a b, Q a b → Q' a b) {x : TR α} {y : TR β} (hr : Rel Q x y) :
    Rel Q' x y := ⟨hr.1, hr.2.mono h⟩

theorem Rel.bind {α β α' β'} {Q : α → β → Prop} {Q' : α' → β' → Prop} {x : TR α} {y : TR β} {f : α → TR α'} {g : β → TR β'}
    (h : Rel Q x y) (hf : ∀ a b, Q a b → Rel Q' (f a) (g b)) : Rel Q' (x >>= f) (y >>= g) := by
  obtain ⟨rx, lx⟩ := x
  obtain ⟨ry, ly⟩ := y
  obtain ⟨h1, h2⟩ := h
  cases rx <;> cases ry
  · exact ⟨h1, h2⟩
  · exact h2.elim
  · exact h2.elim
  · obtain ⟨k1, k2⟩ := hf _ _ h2
    refine ⟨?_, k2⟩
    show (lx ++ _).map pub = (ly ++ _).map pub
    rw [List.map_append, List.map_append, k1]
    exact congrArg (· ++ _) h1

theorem Rel.pure {α β} {Q : α → β → Prop} {a : α} {b : β} (h : Q a b) : Rel Q (Pure.pure a : TR α) (Pure.pure b : TR β) :=
  ⟨rfl, h⟩

theorem Rel.lift {α β} {Q : α → β → Prop} {x : R α} {y : R β} (h : RelR Q x y) :
    Rel Q (liftM x : TR α) (liftM y : TR β) := ⟨rfl, h⟩

theorem Rel.liftBind {α β α' β'} {Q : α → β → Prop} {Q' : α' → β' → Prop} {x : R α} {y : R β} {f : α → TR α'} {g : β → TR β'}
    (h : RelR Q x y) (hf : ∀ a b, Q a b → Rel Q' (f a) (g b)) : Rel Q' ((liftM x : TR α) >>= f) ((liftM y : TR β) >>= g) :=
  Rel.bind (Rel.lift h) hf

theorem Rel.ite {α β} {Q : α → β → Prop} {c c' : Prop} [Decidable c] [Decidable c'] {x y : TR α} {x' y' : TR β}
    (hc : c ↔ c') (h : c → c' → Rel Q x x') (h' : ¬ c → ¬ c' → Rel Q y y') :
    Rel Q (if c then x else y) (if c' then x' else y') := by
  by_cases k : c
  · rw [if_pos k, if_pos (hc.1 k)]; exact h k (hc.1 k)
  · rw [if_neg k, if_neg (fun t => k (hc.2 t))]; exact h' k (fun t => k (hc.2 t))

theorem Rel.error {α β} {Q : α → β → Prop} (e : Panic) : Rel Q (⟨.error e, []⟩ : TR α) (⟨.error e, []⟩ : TR β) := ⟨rfl, rfl⟩

/-- lists of equal length -/
abbrev SameLen {α β : Type} (x : List α) (y : List β) : Prop := x.length = y.length

/-- anything -/
abbrev Any {α β : Type} (x : α) (y : β) : Prop := True

theorem rel_assert {c c' : Prop} [Decidable c] [Decidable c'] (h : c ↔ c') : RelR Any (assertR c) (assertR c') := by
  unfold assertR
  exact RelR.ite h (fun _ _ => trivial) (fun _ _ => rfl)

theorem rel_arrayRef {α β} {s : List α} {t : List β} (h : s.length = t.length) (i n : Nat) :
    RelR Any (arrayRef s i n) (arrayRef t i n) := by
  unfold arrayRef
  by_cases k : i + n ≤ s.length
  · rw [dif_pos k, dif_pos (h ▸ k)]; trivial
  · rw [dif_neg k, dif_neg (h ▸ k)]; rfl

theorem rel_writeAt {α β} {s d : List α} {t e : List β} (h : s.length = t.length) (i : Nat) (h' : d.length = e.length) :
    RelR SameLen (writeAt s i d) (writeAt t i e) := by
  unfold writeAt
  refine RelR.ite (by rw [h, h']) (fun _ _ => ?_) (fun _ _ => rfl)
  show List.length _ = List.length _
  simp only [List.length_append, List.length_take, List.length_drop, h, h']

theorem rel_sliceTo {α β} {s : List α} {t : List β} (h : s.length = t.length) (n : Nat) :
    RelR SameLen (sliceTo s n) (sliceTo t n) := by
  unfold sliceTo
  refine RelR.ite (by rw [h]) (fun _ _ => ?_) (fun _ _ => rfl)
  show List.length _ = List.length _
  simp only [List.length_take, h]

theorem rel_splitAtR {α β} {s : List α} {t : List β} (h : s.length = t.length) (n : Nat) :
    RelR (fun a b => SameLen a.1 b.1 ∧ SameLen a.2 b.2) (splitAtR s n) (splitAtR t n) := by
  unfold splitAtR
  refine RelR.ite (by rw [h]) (fun _ _ => ?_) (fun _ _ => rfl)
  constructor
  · show List.length _ = List.length _
    simp only [List.length_take, h]
  · show List.length _ = List.length _
    simp only [List.length_drop, h]

theorem nil_iff {α β} {s : List α} {t : List β} (h : s.length = t.length) : s = [] ↔ t = [] := by
  rw [← List.length_eq_zero_iff, ← List.length_eq_zero_iff, h]

theorem not_nil_iff {α β} {s : List α} {t : List β} (h : s.length = t.length) : s ≠ [] ↔ t ≠ [] :=
  not_congr (nil_iff h)

theorem rel_compress (p : Platform) (cv cv' : Vector Word 8) (b b' : Vector Byte 64) (l : Byte) (o : U64) (f : Byte) :
    Rel Any (T.compress p cv b l o f) (T.compress p cv' b' l o f) := ⟨rfl, trivial⟩

theorem rel_compress_xof (p : Platform) (cv cv' : Vector Word 8) (b b' : Vector Byte 64) (l : Byte) (o : U64) (f : Byte) :
    Rel Any (T.compress_xof p cv b l o f) (T.compress_xof p cv' b' l o f) := ⟨rfl, trivial⟩

/-! ## `hash_many` -/

theorem rel_hash1_loop (fl fe : Byte) (off : U64) (s t : Bytes) (h : s.length = t.length) :
    ∀ (cv cv' : Vector Word 8) (bf : Byte), Rel Any (T.hash1_loop fl fe off cv bf s) (T.hash1_loop fl fe off cv' bf t) := by
  induction hn : s.length using Nat.strongRecOn generalizing s t with
  | _ n ih =>
    intro cv cv' bf
    subst hn
    rw [T.hash1_loop, T.hash1_loop]
    by_cases k : BLOCK_LEN ≤ s.length
    · rw [dif_pos k, dif_pos (h ▸ k)]
      dsimp only
      refine Rel.liftBind (rel_arrayRef h _ _) fun b b' _ => ?_
      rw [h]
      refine Rel.bind (rel_compress ..) fun c c' _ => ?_
      have k' : 64 ≤ s.length := k
      exact ih _ (by simp only [List.length_drop, BLOCK_LEN]; omega) _ _ (by simp only [List.length_drop, h]) rfl _ _ _
    · rw [dif_neg k, dif_neg (h ▸ k)]
      exact Rel.pure trivial

theorem rel_hash1 (s t : Bytes) (h : s.length = t.length) (k k' : Vector Word 8) (off : U64) (f fs fe : Byte) :
    Rel Any (T.hash1 s k off f fs fe) (T.hash1 t k' off f fs fe) := by
  unfold T.hash1
  refine Rel.liftBind (rel_assert (by rw [h])) fun _ _ _ => ?_
  exact Rel.bind (rel_hash1_loop _ _ _ _ _ h _ _ _) fun _ _ _ => Rel.pure trivial

/-- lists of lists of equal lengths -/
abbrev SameLens (xs ys : List Bytes) : Prop := xs.map List.length = ys.map List.length

theorem SameLens.length {xs ys : List Bytes} (h : SameLens xs ys) : xs.length = ys.length := by
  have := congrArg List.length h
  simpa using this

theorem rel_hash_many_loop (k k' : Vector Word 8) (d : U64) (f fs fe : Byte) (xs : List Bytes) :
    ∀ (ys : List Bytes) (off : U64) (out out' : Bytes), SameLens xs ys → SameLen out out' →
      Rel SameLen (T.hash_many_loop k d f fs fe xs off out) (T.hash_many_loop k' d f fs fe ys off out') := by
  induction xs with
  | nil =>
    intro ys off out out' h ho
    cases ys with
    | nil => exact Rel.pure ho
    | cons _ _ => cases h
  | cons x xs ih =>
    intro ys off out out' h ho
    cases ys with
    | nil => cases h
    | cons y ys =>
      have h1 : x.length = y.length := by injection h
      have h2 : SameLens xs ys := by injection h
      rw [T.hash_many_loop, T.hash_many_loop]
      refine Rel.ite (by rw [show out.length = out'.length from ho]) (fun _ _ => Rel.pure ho) (fun _ _ => ?_)
      refine Rel.bind (rel_hash1 _ _ h1 ..) fun a b _ => ?_
      refine Rel.liftBind (RelR.refl _) fun o _ e => ?_
      subst e
      refine Rel.bind (ih ys o _ _ h2 (by show List.length _ = List.length _; simp only [List.length_drop, show out.length = out'.length from ho])) fun r r' hr => ?_
      refine Rel.pure ?_
      show List.length _ = List.length _
      simp only [List.length_append, Vector.length_toList, show r.length = r'.length from hr]

theorem rel_hash_many_portable (k k' : Vector Word 8) (off d : U64) (f fs fe : Byte) (xs ys : List Bytes) (out out' : Bytes)
    (h : SameLens xs ys) (ho : SameLen out out') :
    Rel SameLen (T.hash_many_portable xs k off d f fs fe out) (T.hash_many_portable ys k' off d f fs fe out') := by
  unfold T.hash_many_portable
  refine Rel.liftBind (rel_assert (by rw [h.length, show out.length = out'.length from ho])) fun _ _ _ => ?_
  exact rel_hash_many_loop _ _ _ _ _ _ _ _ _ _ _ h ho

theorem rel_hash_many (p : Platform) (cap : Nat) (hcap : cap % 64 = 0) (k k' : Vector Word 8) (off d : U64) (f fs fe : Byte)
    (xs ys : List Bytes) (out out' : Bytes) (hx : ∀ x ∈ xs, x.length = cap) (hy : ∀ x ∈ ys, x.length = cap)
    (h : xs.length = ys.length) (ho : SameLen out out') :
    Rel SameLen (T.hash_many p cap xs k off d f fs fe out) (T.hash_many p cap ys k' off d f fs fe out') := by
  have e : ∀ (zs : List Bytes) (key : Vector Word 8) (o : Bytes), (∀ x ∈ zs, x.length = cap) →
      p.hash_many cap zs key off d f fs fe o = (T.hash_many_portable zs key off d f fs fe o).res := by
    intro zs key o hz
    rw [T.hash_many_portable_res]
    cases p
    · rfl
    · exact sse41_hash_many_eq cap hcap zs key off d f fs fe o hz
    · exact avx2_hash_many_eq cap hcap zs key off d f fs fe o hz
  have hl : SameLens xs ys := by
    show xs.map List.length = ys.map List.length
    rw [List.map_congr_left hx, List.map_congr_left hy, List.map_const', List.map_const', h]
  have := rel_hash_many_portable k k' off d f fs fe xs ys out out' hl ho
  unfold T.hash_many
  rw [e xs k out hx, e ys k' out' hy]
  exact this

/-! ## Output -/

/-- Outputs that differ in the chaining value and the block only. -/
def SimO (o o' : Output) : Prop :=
  o.block_len = o'.block_len ∧ o.offset = o'.offset ∧ o.flags = o'.flags ∧ o.platform = o'.platform

theorem rel_read (prof : Profile) {o o' : Output} (h : SimO o o') :
    Rel (fun a b => SimO a.2 b.2) (T.Output.read prof o) (T.Output.read prof o') := by
  obtain ⟨h1, h2, h3, h4⟩ := h
  unfold T.Output.read
  rw [h1, h2, h3, h4]
  refine Rel.bind (rel_compress_xof ..) fun _ _ _ => ?_
  refine Rel.liftBind (RelR.refl _) fun _ _ e => ?_
  exact Rel.pure ⟨rfl, e, rfl, rfl⟩

theorem rel_to_hash {o o' : Output} (h : SimO o o') : Rel Any (T.Output.to_hash o) (T.Output.to_hash o') := by
  obtain ⟨h1, h2, h3, h4⟩ := h
  unfold T.Output.to_hash
  rw [h1, h2, h3, h4]
  exact Rel.bind (rel_compress ..) fun _ _ _ => Rel.pure trivial

theorem rel_run (prof : Profile) (os : List OutCall) : ∀ {o o' : Output}, SimO o o' →
    Rel Any (T.Output.run prof os o) (T.Output.run prof os o') := by
  induction os with
  | nil => intro o o' h; exact Rel.pure trivial
  | cons c cs ih =>
    intro o o' h
    cases c with
    | read =>
      refine Rel.bind (rel_read prof h) fun a b hab => ?_
      exact Rel.bind (ih hab) fun _ _ _ => Rel.pure trivial
    | toHash =>
      refine Rel.bind (rel_to_hash h) fun a b hab => ?_
      exact Rel.bind (ih h) fun _ _ _ => Rel.pure trivial

/-! ## One-shot functions -/

theorem rel_hash_one_chunk_loop (p : Platform) (c c' : Bytes) (h : c.length = c'.length) (off : U64) (r : IsRoot) (f : Byte) :
    ∀ (cv cv' : Vector Word 8) (bf : Byte) (bo : Nat),
      Rel SimO (T.hash_one_chunk_loop p c off r f cv bf bo) (T.hash_one_chunk_loop p c' off r f cv' bf bo) := by
  intro cv cv' bf bo
  induction hn : c.length - bo using Nat.strongRecOn generalizing cv cv' bf bo with
  | _ n ih =>
    subst hn
    rw [T.hash_one_chunk_loop, T.hash_one_chunk_loop]
    by_cases k : bo + BLOCK_LEN ≤ c.length
    · rw [dif_pos k, dif_pos (h ▸ k)]
      refine Rel.ite (by rw [h]) (fun _ _ => ?_) (fun _ _ => ?_)
      · exact Rel.liftBind (rel_arrayRef h _ _) fun _ _ _ => Rel.pure ⟨rfl, rfl, rfl, rfl⟩
      · refine Rel.liftBind (rel_arrayRef h _ _) fun _ _ _ => ?_
        refine Rel.bind (rel_compress ..) fun _ _ _ => ?_
        have k' : bo + 64 ≤ c.length := k
        exact ih _ (by simp only [BLOCK_LEN]; omega) _ _ _ _ rfl
    · rw [dif_neg k, dif_neg (h ▸ k), h]
      refine Rel.liftBind (RelR.refl _) fun a _ e => ?_
      subst e
      refine Rel.liftBind (rel_writeAt rfl _ (by simp only [List.length_drop, h])) fun _ _ e => ?_
      exact Rel.liftBind (rel_arrayRef e _ _) fun _ _ _ => Rel.pure ⟨rfl, rfl, rfl, rfl⟩

theorem rel_hash_one_chunk (p : Platform) (c c' : Bytes) (h : c.length = c'.length) (k k' : Vector Word 8) (off : U64)
    (r : IsRoot) (f : Byte) : Rel SimO (T.hash_one_chunk c k off r f p) (T.hash_one_chunk c' k' off r f p) := by
  unfold T.hash_one_chunk
  refine Rel.liftBind (rel_assert Iff.rfl) fun _ _ _ => ?_
  exact rel_hash_one_chunk_loop _ _ _ h ..

theorem chunks_len {x y : Bytes} (n : Nat) (hn : 0 < n) (h : x.length = y.length) :
    (chunksExact n x).length = (chunksExact n y).length := by
  rw [length_chunksExact _ hn, length_chunksExact _ hn, h]

theorem rem_len {x y : Bytes} (n : Nat) (h : x.length = y.length) :
    (chunksRemainder n x).length = (chunksRemainder n y).length := by
  simp only [chunksRemainder, List.length_drop, h]

theorem rel_pushAll (n cap : Nat) (hn : 0 < n) {x y : Bytes} (h : x.length = y.length) :
    RelR (fun a b => a.length = b.length ∧ (∀ z ∈ a, z.length = n) ∧ ∀ z ∈ b, z.length = n)
      (pushAll cap (chunksExact n x)) (pushAll cap (chunksExact n y)) := by
  unfold pushAll
  refine RelR.ite (by rw [chunks_len n hn h]) (fun _ _ => ?_) (fun _ _ => rfl)
  exact ⟨chunks_len n hn h, mem_chunksExact n hn x, mem_chunksExact n hn y⟩

/-- the same number of hashes in buffers of the same length -/
abbrev SimP (a b : Nat × Bytes) : Prop := a.1 = b.1 ∧ SameLen a.2 b.2

theorem rel_hash_chunks_parallel (cfg : Config) (p : Platform) {x y : Bytes} (h : x.length = y.length) (k k' : Vector Word 8)
    (off : U64) (f : Byte) {out out' : Bytes} (ho : SameLen out out') :
    Rel SimP (T.hash_chunks_parallel cfg x k off f p out) (T.hash_chunks_parallel cfg y k' off f p out') := by
  unfold T.hash_chunks_parallel
  refine Rel.liftBind (rel_assert (not_nil_iff h)) fun _ _ _ => ?_
  refine Rel.liftBind (rel_assert (by rw [h])) fun _ _ _ => ?_
  refine Rel.liftBind (rel_assert Iff.rfl) fun _ _ _ => ?_
  refine Rel.liftBind (rel_pushAll CHUNK_LEN _ (by decide) h) fun a b hab => ?_
  obtain ⟨h1, h2, h3⟩ := hab
  refine Rel.bind (rel_hash_many p CHUNK_LEN (by decide) _ _ _ _ _ _ _ _ _ _ _ h2 h3 h1 ho) fun o o' hoo => ?_
  refine Rel.ite (not_nil_iff (rem_len _ h)) (fun _ _ => ?_) (fun _ _ => Rel.pure ⟨h1, hoo⟩)
  rw [h1]
  refine Rel.liftBind (RelR.refl _) fun a _ e => ?_
  subst e
  refine Rel.liftBind (RelR.refl _) fun a _ e => ?_
  subst e
  refine Rel.bind (rel_hash_one_chunk _ _ _ (rem_len _ h) ..) fun _ _ e => ?_
  refine Rel.bind (rel_to_hash e) fun _ _ _ => ?_
  refine Rel.liftBind (rel_writeAt hoo _ (by simp)) fun _ _ e => ?_
  exact Rel.pure ⟨rfl, e⟩

theorem rel_hash_parents_parallel (cfg : Config) (p : Platform) {x y : Bytes} (h : x.length = y.length) (k k' : Vector Word 8)
    (f : Byte) {out out' : Bytes} (ho : SameLen out out') :
    Rel SimP (T.hash_parents_parallel cfg x k f p out) (T.hash_parents_parallel cfg y k' f p out') := by
  unfold T.hash_parents_parallel
  dsimp only
  refine Rel.liftBind (rel_assert (by rw [h])) fun _ _ _ => ?_
  refine Rel.liftBind (rel_assert (by rw [h])) fun _ _ _ => ?_
  refine Rel.liftBind (rel_assert (by rw [h])) fun _ _ _ => ?_
  refine Rel.liftBind (rel_pushAll BLOCK_LEN _ (by decide) h) fun a b hab => ?_
  obtain ⟨h1, h2, h3⟩ := hab
  refine Rel.bind (rel_hash_many p BLOCK_LEN (by decide) _ _ _ _ _ _ _ _ _ _ _ h2 h3 h1 ho) fun o o' hoo => ?_
  refine Rel.ite (not_nil_iff (rem_len _ h)) (fun _ _ => ?_) (fun _ _ => Rel.pure ⟨h1, hoo⟩)
  refine Rel.liftBind (rel_assert (by rw [rem_len _ h])) fun _ _ _ => ?_
  rw [h1]
  refine Rel.liftBind (rel_writeAt hoo _ (rem_len _ h)) fun _ _ e => ?_
  exact Rel.pure ⟨rfl, e⟩

theorem rel_hash_recurse (cfg : Config) (p : Platform) (f : Byte) (k k' : Vector Word 8) :
    ∀ {x y : Bytes}, x.length = y.length → ∀ (off : U64) {out out' : Bytes}, SameLen out out' →
    Rel SimP (T.hash_recurse cfg x k off f p out) (T.hash_recurse cfg y k' off f p out') := by
  intro x
  induction hn : x.length using Nat.strongRecOn generalizing x with
  | _ n ih =>
    intro y h off out out' ho
    subst hn
    rw [T.hash_recurse, T.hash_recurse]
    refine Rel.ite (by rw [h]) (fun _ _ => rel_hash_chunks_parallel cfg p h _ _ _ _ ho) (fun _ _ => ?_)
    have hy : left_len cfg.usizeBits y.length = left_len cfg.usizeBits x.length := by rw [h]
    split
    · rename_i e he
      split
      · rename_i e' he'
        rw [hy, he] at he'
        injection he' with he'
        subst he'
        exact Rel.error _
      · rename_i l he'
        rw [hy, he] at he'
        cases he'
    · rename_i l he
      split
      · rename_i e' he'
        rw [hy, he] at he'
        cases he'
      · rename_i l' he'
        rw [hy, he] at he'
        injection he' with he'
        subst he'
        have l1 := left_len_lt he
        have l2 := left_len_pos he
        have hl : (x.take l).length = (y.take l).length := by simp only [List.length_take, h]
        have hr : (x.drop l).length = (y.drop l).length := by simp only [List.length_drop, h]
        dsimp only
        rw [hl]
        refine Rel.liftBind (RelR.refl _) fun a _ e => ?_
        subst e
        refine Rel.liftBind (rel_assert Iff.rfl) fun _ _ _ => ?_
        refine Rel.liftBind (rel_splitAtR rfl _) fun s s' hs => ?_
        refine Rel.bind (ih _ (by simp only [List.length_take]; omega) rfl hl _ hs.1) fun u u' hu => ?_
        refine Rel.bind (ih _ (by simp only [List.length_drop]; omega) rfl hr _ hs.2) fun v v' hv => ?_
        obtain ⟨u1, u2⟩ := u
        obtain ⟨u1', u2'⟩ := u'
        obtain ⟨v1, v2⟩ := v
        obtain ⟨v1', v2'⟩ := v'
        obtain ⟨hu1, hu2⟩ := hu
        obtain ⟨hv1, hv2⟩ := hv
        dsimp only at hu1 hu2 hv1 hv2 ⊢
        subst hu1 hv1
        have ha : SameLen (u2 ++ v2) (u2' ++ v2') := by
          show List.length _ = List.length _
          rw [List.length_append, List.length_append, hu2, hv2]
        refine Rel.liftBind (rel_assert Iff.rfl) fun _ _ _ => ?_
        refine Rel.liftBind (rel_assert Iff.rfl) fun _ _ _ => ?_
        refine Rel.ite Iff.rfl (fun _ _ => ?_) (fun _ _ => ?_)
        · refine Rel.liftBind (rel_sliceTo ha _) fun _ _ hc => ?_
          refine Rel.liftBind (rel_writeAt ho _ hc) fun _ _ e => ?_
          exact Rel.pure ⟨rfl, e⟩
        · refine Rel.liftBind (rel_sliceTo ha _) fun _ _ hc => ?_
          exact rel_hash_parents_parallel cfg p hc _ _ _ ho

theorem rel_condense_loop (cfg : Config) (p : Platform) (f : Byte) (k k' : Vector Word 8) (n : Nat) :
    ∀ {x y out out' : Bytes}, SameLen x y → SameLen out out' →
    Rel SameLen (T.condense_loop cfg k f p n x out) (T.condense_loop cfg k' f p n y out') := by
  induction n with
  | zero => intro x y out out' h ho; exact Rel.error _
  | succ n ih =>
    intro x y out out' h ho
    rw [T.condense_loop, T.condense_loop]
    refine Rel.ite (by rw [show x.length = y.length from h]) (fun _ _ => ?_) (fun _ _ => Rel.pure h)
    refine Rel.bind (rel_hash_parents_parallel cfg p h _ _ _ ho) fun a b hab => ?_
    obtain ⟨a1, a2⟩ := a
    obtain ⟨b1, b2⟩ := b
    obtain ⟨h1, h2⟩ := hab
    dsimp only at h1 h2 ⊢
    subst h1
    refine Rel.liftBind (rel_sliceTo h2 _) fun _ _ hc => ?_
    refine Rel.liftBind (rel_writeAt h _ hc) fun _ _ e => ?_
    refine Rel.liftBind (rel_sliceTo e _) fun _ _ hc => ?_
    exact ih hc h2

theorem rel_condense_root (cfg : Config) (p : Platform) (f : Byte) (k k' : Vector Word 8) {x y : Bytes} (h : SameLen x y) :
    Rel SimO (T.condense_root cfg x k f p) (T.condense_root cfg y k' f p) := by
  unfold T.condense_root
  dsimp only
  rw [show x.length = y.length from h]
  refine Rel.liftBind (rel_assert Iff.rfl) fun _ _ _ => ?_
  refine Rel.liftBind (rel_assert Iff.rfl) fun _ _ _ => ?_
  refine Rel.bind (rel_condense_loop cfg p f k k' _ h rfl) fun _ _ e => ?_
  exact Rel.liftBind (rel_arrayRef e _ _) fun _ _ _ => Rel.pure ⟨rfl, rfl, rfl, rfl⟩

theorem rel_hash_internal (cfg : Config) (f : Byte) (k k' : Vector Word 8) {x y : Bytes} (h : SameLen x y) :
    Rel SimO (T.hash_internal cfg x k f) (T.hash_internal cfg y k' f) := by
  unfold T.hash_internal
  dsimp only
  refine Rel.ite (by rw [show x.length = y.length from h]) (fun _ _ => rel_hash_one_chunk _ _ _ h ..) (fun _ _ => ?_)
  refine Rel.bind (rel_hash_recurse cfg _ f k k' h _ rfl) fun a b hab => ?_
  obtain ⟨a1, a2⟩ := a
  obtain ⟨b1, b2⟩ := b
  obtain ⟨h1, h2⟩ := hab
  dsimp only at h1 h2 ⊢
  subst h1
  refine Rel.liftBind (rel_sliceTo h2 _) fun _ _ hc => ?_
  exact rel_condense_root cfg _ f k k' hc

/-! ## Incremental hashing -/

/-- Chunk states that differ in the chaining value, the key and the contents of the buffer only. -/
def SimC (s t : ChunkState) : Prop :=
  s.offset = t.offset ∧ s.count = t.count ∧ s.buf_len = t.buf_len ∧ s.flags = t.flags ∧ s.platform = t.platform

theorem SimC.start {s t : ChunkState} (h : SimC s t) : s.maybe_chunk_start_flag = t.maybe_chunk_start_flag := by
  unfold ChunkState.maybe_chunk_start_flag; rw [h.2.1]

theorem SimC.len {s t : ChunkState} (h : SimC s t) : s.len = t.len := by
  unfold ChunkState.len; rw [h.2.1, h.2.2.1]

theorem rel_fill_buf {s t : ChunkState} (hs : SimC s t) {x y : Bytes} (h : SameLen x y) :
    RelR (fun a b => SimC a.1 b.1 ∧ SameLen a.2 b.2) (s.fill_buf x) (t.fill_buf y) := by
  obtain ⟨h1, h2, h3, h4, h5⟩ := hs
  unfold ChunkState.fill_buf
  dsimp only
  rw [h3, show x.length = y.length from h]
  refine RelR.bind (RelR.refl _) fun a _ e => ?_
  subst e
  refine RelR.bind (rel_writeAt (by simp) _ (by simp only [List.length_take, h])) fun _ _ e => ?_
  refine RelR.bind (rel_arrayRef e _ _) fun _ _ _ => ?_
  refine RelR.bind (RelR.refl _) fun b _ e => ?_
  subst e
  exact RelR.pure ⟨⟨h1, h2, rfl, h4, h5⟩, by show List.length _ = List.length _; simp only [List.length_drop, h]⟩

theorem rel_update_blocks {x y : Bytes} (h : SameLen x y) : ∀ {s t : ChunkState}, SimC s t →
    Rel (fun a b => SimC a.1 b.1 ∧ SameLen a.2 b.2) (T.ChunkState.update_blocks s x) (T.ChunkState.update_blocks t y) := by
  induction hn : x.length using Nat.strongRecOn generalizing x y with
  | _ n ih =>
    intro s t hs
    subst hn
    have h' : x.length = y.length := h
    rw [T.ChunkState.update_blocks, T.ChunkState.update_blocks]
    by_cases k : BLOCK_LEN < x.length
    · rw [dif_pos k, dif_pos (h' ▸ k)]
      dsimp only
      have hst := hs.start
      obtain ⟨h1, h2, h3, h4, h5⟩ := hs
      rw [h3, h4, h5, h1, h2, hst]
      refine Rel.liftBind (rel_assert Iff.rfl) fun _ _ _ => ?_
      refine Rel.liftBind (rel_arrayRef h' _ _) fun _ _ _ => ?_
      refine Rel.bind (rel_compress ..) fun _ _ _ => ?_
      refine Rel.liftBind (RelR.refl _) fun a _ e => ?_
      subst e
      have k' : 64 < x.length := k
      exact ih _ (by simp only [List.length_drop, BLOCK_LEN]; omega)
        (by show List.length _ = List.length _; simp only [List.length_drop, h']) rfl ⟨rfl, rfl, rfl, rfl, rfl⟩
    · rw [dif_neg k, dif_neg (h' ▸ k)]
      exact Rel.pure ⟨hs, h⟩

theorem rel_update_first {x y : Bytes} (h : SameLen x y) {s t : ChunkState} (hs : SimC s t) :
    Rel (fun a b => SimC a.1 b.1 ∧ SameLen a.2 b.2) (T.ChunkState.update_first s x) (T.ChunkState.update_first t y) := by
  unfold T.ChunkState.update_first
  refine Rel.ite (by rw [hs.2.2.1]) (fun _ _ => ?_) (fun _ _ => Rel.pure ⟨hs, h⟩)
  refine Rel.liftBind (rel_fill_buf hs h) fun a b hab => ?_
  obtain ⟨s, x⟩ := a
  obtain ⟨t, y⟩ := b
  obtain ⟨hs, h⟩ := hab
  dsimp only at hs h ⊢
  refine Rel.ite (not_nil_iff h) (fun _ _ => ?_) (fun _ _ => Rel.pure ⟨hs, h⟩)
  have hst := hs.start
  obtain ⟨h1, h2, h3, h4, h5⟩ := hs
  rw [h3, h4, h5, h1, h2, hst]
  refine Rel.liftBind (rel_assert Iff.rfl) fun _ _ _ => ?_
  refine Rel.bind (rel_compress ..) fun _ _ _ => ?_
  refine Rel.liftBind (RelR.refl _) fun a _ e => ?_
  subst e
  exact Rel.pure ⟨⟨rfl, rfl, rfl, rfl, rfl⟩, h⟩

theorem rel_chunk_update {x y : Bytes} (h : SameLen x y) {s t : ChunkState} (hs : SimC s t) :
    Rel SimC (T.ChunkState.update s x) (T.ChunkState.update t y) := by
  unfold T.ChunkState.update
  refine Rel.bind (rel_update_first h hs) fun a b hab => ?_
  refine Rel.bind (rel_update_blocks hab.2 hab.1) fun a b hab => ?_
  refine Rel.liftBind (rel_fill_buf hab.1 hab.2) fun a b hab => ?_
  obtain ⟨s, x⟩ := a
  obtain ⟨t, y⟩ := b
  obtain ⟨hs, h⟩ := hab
  dsimp only at hs h ⊢
  refine Rel.liftBind (rel_assert (nil_iff h)) fun _ _ _ => ?_
  refine Rel.liftBind (rel_assert (by rw [hs.len])) fun _ _ _ => ?_
  exact Rel.pure hs

theorem rel_chunk_finalize {s t : ChunkState} (hs : SimC s t) (r : IsRoot) : RelR SimO (s.finalize r) (t.finalize r) := by
  unfold ChunkState.finalize
  have hst := hs.start
  obtain ⟨h1, h2, h3, h4, h5⟩ := hs
  dsimp only
  rw [h3, h4, h5, h1, hst]
  refine RelR.bind (rel_assert Iff.rfl) fun _ _ _ => ?_
  exact RelR.pure ⟨rfl, rfl, rfl, rfl⟩

theorem rel_reset {s t : ChunkState} (hs : SimC s t) (o : U64) : RelR SimC (s.reset o) (t.reset o) := by
  unfold ChunkState.reset
  refine RelR.bind (rel_assert Iff.rfl) fun _ _ _ => ?_
  exact RelR.pure ⟨rfl, rfl, rfl, hs.2.2.2.1, hs.2.2.2.2⟩

theorem sim_parent (a b a' b' : Vector Byte 32) (k k' : Vector Word 8) (r : IsRoot) (f : Byte) (p : Platform) :
    SimO (hash_one_parent a b k r f p) (hash_one_parent a' b' k' r f p) := ⟨rfl, rfl, rfl, rfl⟩

/-- Hashers that differ in the contents of the stack and as `SimC` only. -/
def SimH (g h : Hasher) : Prop := g.subtree_hashes.length = h.subtree_hashes.length ∧ SimC g.chunk h.chunk

theorem rel_merge_parent {g h : Hasher} (hs : SimH g h) : Rel SimH (T.Hasher.merge_parent g) (T.Hasher.merge_parent h) := by
  obtain ⟨h1, h2⟩ := hs
  unfold T.Hasher.merge_parent
  rcases e : g.subtree_hashes with _ | ⟨a, _ | ⟨b, l⟩⟩ <;> rcases e' : h.subtree_hashes with _ | ⟨a', _ | ⟨b', l'⟩⟩ <;>
    rw [e, e'] at h1 <;> simp only [List.length_cons, List.length_nil] at h1 <;> try omega
  · exact Rel.error _
  · exact Rel.error _
  · dsimp only
    rw [h2.2.2.2.1, h2.2.2.2.2]
    refine Rel.bind (rel_to_hash (sim_parent ..)) fun _ _ _ => ?_
    exact Rel.pure ⟨by simp only [List.length_cons]; omega, h2⟩

theorem rel_merge_loop (off : U64) : ∀ {g h : Hasher}, SimH g h →
    Rel SimH (T.Hasher.merge_loop g off) (T.Hasher.merge_loop h off) := by
  intro g
  induction hn : g.subtree_hashes.length using Nat.strongRecOn generalizing g with
  | _ n ih =>
    intro h hs
    subst hn
    rw [T.Hasher.merge_loop, T.Hasher.merge_loop]
    refine Rel.ite (by unfold Hasher.needs_merge; rw [hs.1]) (fun _ _ => ?_) (fun _ _ => Rel.pure hs)
    have := rel_merge_parent hs
    obtain ⟨hl, hr⟩ := this
    split
    · rename_i e he
      split
      · rename_i e' he'
        rw [he, he'] at hr
        exact ⟨hl, hr⟩
      · rename_i l he'
        rw [he, he'] at hr
        exact hr.elim
    · rename_i l he
      split
      · rename_i e' he'
        rw [he, he'] at hr
        exact hr.elim
      · rename_i l' he'
        rw [he, he'] at hr
        have hlt := Model.Hasher.merge_parent_length (by rw [← T.Hasher.merge_parent_res]; exact he)
        obtain ⟨k1, k2⟩ := ih _ hlt rfl hr
        refine ⟨?_, k2⟩
        show List.map pub (_ ++ _) = List.map pub (_ ++ _)
        rw [List.map_append, List.map_append, hl, k1]

theorem rel_push_chunk_hash (off : U64) (a b : Vector Byte 32) {g h : Hasher} (hs : SimH g h) :
    Rel SimH (T.Hasher.push_chunk_hash g a off) (T.Hasher.push_chunk_hash h b off) := by
  unfold T.Hasher.push_chunk_hash
  refine Rel.bind (rel_merge_loop off hs) fun g h hs => ?_
  refine Rel.ite (by rw [hs.1]) (fun _ _ => ?_) (fun _ _ => Rel.error _)
  exact Rel.pure ⟨by simp only [List.length_cons, hs.1], hs.2⟩

theorem rel_addU64 (o d : U64) : RelR Eq (addU64 o d) (addU64 o d) := RelR.refl _

set_option maxRecDepth 8000 in
theorem rel_push_hashes (cs : List Bytes) : ∀ (ds : List Bytes), SameLens cs ds → ∀ {g h : Hasher}, SimH g h →
    Rel SimH (T.Hasher.push_hashes cs g) (T.Hasher.push_hashes ds h) := by
  induction cs with
  | nil =>
    intro ds hd g h hs
    cases ds with
    | nil => exact Rel.pure hs
    | cons _ _ => cases hd
  | cons c cs ih =>
    intro ds hd g h hs
    cases ds with
    | nil => cases hd
    | cons d ds =>
      have h1 : c.length = d.length := by injection hd
      have h2 : SameLens cs ds := by injection hd
      rw [T.push_hashes_cons, T.push_hashes_cons, hs.2.1]
      refine Rel.liftBind (rel_arrayRef h1 _ _) fun _ _ _ => ?_
      refine Rel.bind (rel_push_chunk_hash _ _ _ hs) fun g h hs => ?_
      rw [hs.2.1]
      refine Rel.liftBind (rel_addU64 _ _) fun o _ e => ?_
      subst e
      exact ih ds h2 ⟨hs.1, rfl, hs.2.2⟩

theorem sameLens_of {cs ds : List Bytes} (n : Nat) (hc : ∀ c ∈ cs, c.length = n) (hd : ∀ d ∈ ds, d.length = n)
    (h : cs.length = ds.length) : SameLens cs ds := by
  show cs.map List.length = ds.map List.length
  rw [List.map_congr_left hc, List.map_congr_left hd, List.map_const', List.map_const', h]

theorem rel_update_loop (cfg : Config) (cs : List Bytes) : ∀ (ds : List Bytes), (∀ c ∈ cs, c.length = CHUNK_LEN) →
    (∀ d ∈ ds, d.length = CHUNK_LEN) → cs.length = ds.length → ∀ {out out' : Bytes}, SameLen out out' →
    ∀ {g h : Hasher}, SimH g h →
    Rel SimH (T.Hasher.update_loop cfg cs out g) (T.Hasher.update_loop cfg ds out' h) := by
  induction hn : cs.length using Nat.strongRecOn generalizing cs with
  | _ n ih =>
    intro ds hc hd hl out out' ho g h hs
    subst hn
    have tl : (cs.take (MAX_SIMD_DEGREE cfg)).length = (ds.take (MAX_SIMD_DEGREE cfg)).length := by
      simp only [List.length_take, hl]
    rw [T.Hasher.update_loop, T.Hasher.update_loop]
    by_cases k : cs.take (MAX_SIMD_DEGREE cfg) = []
    · rw [dif_pos k, dif_pos ((nil_iff tl).1 k)]
      exact Rel.pure hs
    · rw [dif_neg k, dif_neg (fun t => k ((nil_iff tl).2 t))]
      dsimp only
      have hs' := hs
      obtain ⟨-, h1, h2, h3, h4, h5⟩ := hs'
      rw [h1, h4, h5, tl]
      refine Rel.bind (rel_hash_many _ CHUNK_LEN (by decide) _ _ _ _ _ _ _ _ _ _ _ (fun x hx => hc x (List.mem_of_mem_take hx))
        (fun x hx => hd x (List.mem_of_mem_take hx)) tl ho) fun o o' hoo => ?_
      refine Rel.bind (rel_push_hashes _ _ (sameLens_of OUT_LEN
        (fun x hx => mem_chunksExact OUT_LEN (by decide) _ x (List.mem_of_mem_take hx))
        (fun x hx => mem_chunksExact OUT_LEN (by decide) _ x (List.mem_of_mem_take hx))
        (by simp only [List.length_take, chunks_len OUT_LEN (by decide) hoo])) hs) fun g h hs => ?_
      have p1 : 0 < cs.length := by
        cases cs with
        | nil => exact absurd List.take_nil k
        | cons c cs => simp
      have p2 : 0 < MAX_SIMD_DEGREE cfg := by unfold MAX_SIMD_DEGREE; split <;> decide
      exact ih _ (by simp only [List.length_drop]; omega) _ rfl _ (fun x hx => hc x (List.mem_of_mem_drop hx))
        (fun x hx => hd x (List.mem_of_mem_drop hx)) (by simp only [List.length_drop, hl]) hoo hs

theorem rel_update_rest (cfg : Config) {x y : Bytes} (h : SameLen x y) {g h' : Hasher} (hs : SimH g h') :
    Rel SimH (T.Hasher.update_rest cfg g x) (T.Hasher.update_rest cfg h' y) := by
  unfold T.Hasher.update_rest
  dsimp only
  refine Rel.liftBind (rel_assert (by rw [hs.2.len])) fun _ _ _ => ?_
  refine Rel.bind (rel_update_loop cfg _ _ (mem_chunksExact _ (by decide) _) (mem_chunksExact _ (by decide) _)
    (chunks_len _ (by decide) h) rfl hs) fun g h'' hs => ?_
  refine Rel.liftBind (rel_assert (by rw [hs.2.len])) fun _ _ _ => ?_
  refine Rel.liftBind (rel_assert (by rw [rem_len _ h])) fun _ _ _ => ?_
  refine Rel.ite (not_nil_iff (rem_len _ h)) (fun _ _ => ?_) (fun _ _ => Rel.pure hs)
  rw [hs.2.1]
  refine Rel.bind (rel_merge_loop _ hs) fun g h'' hs => ?_
  refine Rel.bind (rel_chunk_update (rem_len _ h) hs.2) fun _ _ hc => ?_
  exact Rel.pure ⟨hs.1, hc⟩

set_option maxRecDepth 8000 in
theorem rel_update (cfg : Config) {x y : Bytes} (h : SameLen x y) {g h' : Hasher} (hs : SimH g h') :
    Rel SimH (T.Hasher.update cfg g x) (T.Hasher.update cfg h' y) := by
  unfold T.Hasher.update
  dsimp only
  have e1 := hs.2.1
  have e2 := hs.2.len
  have hl : x.length = y.length := h
  refine Rel.ite (by rw [e1, e2, hl]) (fun _ _ => ?_) (fun _ _ => rel_update_rest cfg h hs)
  rw [e2, hl]
  refine Rel.liftBind (RelR.refl _) fun w _ e => ?_
  subst e
  refine Rel.bind (rel_chunk_update (by show List.length _ = List.length _; simp only [List.length_take, hl]) hs.2) fun c c' hc => ?_
  have hd : SameLen (x.drop (min w y.length)) (y.drop (min w y.length)) := by
    show List.length _ = List.length _; simp only [List.length_drop, hl]
  refine Rel.ite (not_nil_iff hd) (fun _ _ => ?_) (fun _ _ => Rel.pure ⟨hs.1, hc⟩)
  refine Rel.liftBind (rel_assert (by rw [hc.len])) fun _ _ _ => ?_
  refine Rel.liftBind (rel_chunk_finalize hc _) fun _ _ ho => ?_
  refine Rel.bind (rel_to_hash ho) fun _ _ _ => ?_
  rw [hc.1]
  refine Rel.bind (rel_push_chunk_hash _ _ _ (g := { g with chunk := c }) (h := { h' with chunk := c' }) ⟨hs.1, hc⟩) fun g h'' hs => ?_
  rw [hs.2.1]
  refine Rel.liftBind (rel_addU64 _ _) fun o _ e => ?_
  subst e
  refine Rel.liftBind (rel_reset hs.2 _) fun _ _ hc => ?_
  exact rel_update_rest cfg hd ⟨hs.1, hc⟩

theorem rel_finalize_loop {g h : Hasher} (hs : SimH g h) (S : List (Vector Byte 32)) : ∀ (S' : List (Vector Byte 32)) (w w' : Vector Byte 32),
    S.length = S'.length → Rel SimO (T.Hasher.finalize_loop g w S) (T.Hasher.finalize_loop h w' S') := by
  induction S with
  | nil =>
    intro S' w w' e
    cases S' with
    | nil => exact Rel.error _
    | cons _ _ => cases e
  | cons s S ih =>
    intro S' w w' e
    cases S' with
    | nil => cases e
    | cons s' S' =>
      simp only [List.length_cons, Nat.add_right_cancel_iff] at e
      have f1 := hs.2.2.2.2.1
      have f2 := hs.2.2.2.2.2
      cases S with
      | nil =>
        cases S' with
        | nil =>
          rw [T.Hasher.finalize_loop, T.Hasher.finalize_loop, f1, f2]
          exact Rel.pure (sim_parent ..)
        | cons _ _ => cases e
      | cons t S =>
        cases S' with
        | nil => cases e
        | cons t' S' =>
          rw [T.Hasher.finalize_loop, T.Hasher.finalize_loop, f1, f2]
          · refine Rel.bind (rel_to_hash (sim_parent ..)) fun a b _ => ?_
            exact ih _ _ _ e
          · simp
          · simp

theorem rel_finalize_xof {g h : Hasher} (hs : SimH g h) : Rel SimO (T.Hasher.finalize_xof g) (T.Hasher.finalize_xof h) := by
  unfold T.Hasher.finalize_xof
  refine Rel.ite (nil_iff hs.1) (fun _ _ => Rel.lift (rel_chunk_finalize hs.2 _)) (fun _ _ => ?_)
  refine Rel.ite (by rw [hs.2.len]) (fun _ _ => ?_) (fun _ _ => ?_)
  · refine Rel.liftBind (rel_assert (by unfold Hasher.needs_merge; rw [hs.1, hs.2.1])) fun _ _ _ => ?_
    refine Rel.liftBind (rel_chunk_finalize hs.2 _) fun _ _ ho => ?_
    refine Rel.bind (rel_to_hash ho) fun _ _ _ => ?_
    exact rel_finalize_loop hs _ _ _ _ hs.1
  · refine Rel.liftBind (rel_assert (by rw [hs.1])) fun _ _ _ => ?_
    have e := hs.1
    rcases e1 : g.subtree_hashes with _ | ⟨a, l⟩ <;> rcases e2 : h.subtree_hashes with _ | ⟨a', l'⟩ <;> rw [e1, e2] at e
    · exact Rel.error _
    · cases e
    · cases e
    · simp only [List.length_cons, Nat.add_right_cancel_iff] at e
      exact rel_finalize_loop hs _ _ _ _ e

/-- The same call, with a slice of the same length. -/
inductive SameCall : HCall → HCall → Prop where
  | update (s t : Bytes) (h : s.length = t.length) : SameCall (.update s) (.update t)
  | output (cs : List OutCall) : SameCall (.output cs) (.output cs)

/-- The same calls, one after the other. -/
inductive SameCalls : List HCall → List HCall → Prop where
  | nil : SameCalls [] []
  | cons {c d : HCall} {cs ds : List HCall} : SameCall c d → SameCalls cs ds → SameCalls (c :: cs) (d :: ds)

theorem rel_session (cfg : Config) (prof : Profile) {cs ds : List HCall} (hc : SameCalls cs ds) : ∀ {g h : Hasher}, SimH g h →
    Rel Any (T.Hasher.session cfg prof cs g) (T.Hasher.session cfg prof ds h) := by
  induction hc with
  | nil => intro g h hs; exact Rel.pure trivial
  | cons h1 h2 ih =>
    intro g h hs
    cases h1 with
    | update s t e => exact Rel.bind (rel_update cfg e hs) fun _ _ hs => ih hs
    | output os =>
      refine Rel.bind (rel_finalize_xof hs) fun _ _ ho => ?_
      refine Rel.bind (rel_run prof os ho) fun _ _ _ => ?_
      exact Rel.bind (ih hs) fun _ _ _ => Rel.pure trivial

theorem rel_oneShotRun (cfg : Config) (prof : Profile) (m m' : Spec.Mode) (hm : m.flag = m'.flag) {x y : Bytes} (h : SameLen x y)
    (os : List OutCall) : Rel Any (T.oneShotRun cfg prof m x os) (T.oneShotRun cfg prof m' y os) := by
  have e : Rel SimO (T.oneShotXof cfg m x) (T.oneShotXof cfg m' y) := by
    cases m <;> cases m' <;> first | exact rel_hash_internal cfg _ _ _ h | (exfalso; revert hm; simp only [Spec.Mode.flag]; decide)
  unfold T.oneShotRun
  refine Rel.bind e fun _ _ ho => ?_
  exact Rel.bind (rel_run prof os ho) fun _ _ _ => Rel.pure trivial

end Baokeshed.Proofs.Obl
