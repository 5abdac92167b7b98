import Verif.Proofs.Oblivious
import Verif.Proofs.Isa

/-!
# Two runs on inputs of equal lengths in two modes

`Rel Q x y`: the computations `x` and `y` call the same functions, on as many bytes, in the same order, with flags
that agree but for those that name the mode, and either panic for the same reason or return results related by `Q`.
-/

namespace Baokeshed.Proofs.Perf
open Baokeshed.Model Baokeshed.Model.I Baokeshed.Proofs
open Baokeshed.Proofs.Obl (RelR SameLen Any SameLens rel_assert rel_arrayRef rel_writeAt rel_sliceTo rel_splitAtR nil_iff
  not_nil_iff chunks_len rem_len rel_pushAll SimP rel_addU64 sameLens_of SameCall SameCalls)
set_option linter.unusedVariables false

/-- the call without the flags that name the mode -/
def pub : Ev → Ev
  | .compress s f => .compress s (f &&& 0xcf)
  | e => e

/-- flags that agree but for those that name the mode -/
def Low (f f' : Byte) : Prop := f &&& 0xcf = f' &&& 0xcf

theorem Low.or {f f' : Byte} (h : Low f f') (x : Byte) : Low (f ||| x) (f' ||| x) := by
  unfold Low at *
  have e : ∀ y : Byte, (y ||| x) &&& 0xcf = (y &&& 0xcf) ||| (x &&& 0xcf) := fun y => BitVec.and_or_distrib_right
  rw [e, e, h]

def Rel {α β} (Q : α → β → Prop) (x : IR α) (y : IR β) : Prop :=
  x.log.map pub = y.log.map pub ∧ RelR Q x.res y.res

theorem Rel.mono {α β} {Q Q' : α → β → Prop} (h : ∀ a b, Q a b → Q' a b) {x : IR α} {y : IR β} (hr : Rel Q x y) :
    Rel Q' x y := ⟨hr.1, hr.2.mono h⟩

theorem Rel.bind {α β α' β'} {Q : α → β → Prop} {Q' : α' → β' → Prop} {x : IR α} {y : IR β} {f : α → IR α'} {g : β → IR β'}
    (h : Rel Q x y) (hf : ∀ a b, Q a b → Rel Q' (f a) (g b)) : Rel Q' (x >>= f) (y >>= g) := by
  obtain ⟨rx, lx⟩ := x
  obtain ⟨ry, ly⟩ := y
  obtain ⟨h1, h2⟩ := h
  cases rx <;> cases ry
  · exact ⟨h1, h2⟩
  · exact h2.elim
  · exact h2.elim
  · obtain ⟨k1, k2⟩ := hf _ _ h2
    refine ⟨?_, k2⟩
    show (lx ++ _).map pub = (ly ++ _).map pub
    rw [List.map_append, List.map_append, k1]
    exact congrArg (· ++ _) h1

theorem Rel.pure {α β} {Q : α → β → Prop} {a : α} {b : β} (h : Q a b) : Rel Q (Pure.pure a : IR α) (Pure.pure b : IR β) :=
  ⟨rfl, h⟩

theorem Rel.lift {α β} {Q : α → β → Prop} {x : R α} {y : R β} (h : RelR Q x y) :
    Rel Q (liftM x : IR α) (liftM y : IR β) := ⟨rfl, h⟩

theorem Rel.liftBind {α β α' β'} {Q : α → β → Prop} {Q' : α' → β' → Prop} {x : R α} {y : R β} {f : α → IR α'} {g : β → IR β'}
    (h : RelR Q x y) (hf : ∀ a b, Q a b → Rel Q' (f a) (g b)) : Rel Q' ((liftM x : IR α) >>= f) ((liftM y : IR β) >>= g) :=
  Rel.bind (Rel.lift h) hf

theorem Rel.ite {α β} {Q : α → β → Prop} {c c' : Prop} [Decidable c] [Decidable c'] {x y : IR α} {x' y' : IR β}
    (hc : c ↔ c') (h : c → c' → Rel Q x x') (h' : ¬ c → ¬ c' → Rel Q y y') :
    Rel Q (if c then x else y) (if c' then x' else y') := by
  by_cases k : c
  · rw [if_pos k, if_pos (hc.1 k)]; exact h k (hc.1 k)
  · rw [if_neg k, if_neg (fun t => k (hc.2 t))]; exact h' k (fun t => k (hc.2 t))

theorem Rel.error {α β} {Q : α → β → Prop} (e : Panic) : Rel Q (⟨.error e, []⟩ : IR α) (⟨.error e, []⟩ : IR β) := ⟨rfl, rfl⟩


theorem rel_enter (e : Ev) : Rel Any (enter e) (enter e) := ⟨rfl, trivial⟩

theorem rel_compress (p : Platform) (cv cv' : Vector Word 8) (b b' : Vector Byte 64) (l : Byte) (o : U64) {f f' : Byte}
    (hf : Low f f') : Rel Any (I.compress p cv b l o f) (I.compress p cv' b' l o f') := by
  refine ⟨?_, trivial⟩
  cases p <;> simp only [I.compress, List.map_cons, List.map_nil, pub, show f &&& 0xcf = f' &&& 0xcf from hf]

theorem rel_compress_xof (p : Platform) (cv cv' : Vector Word 8) (b b' : Vector Byte 64) (l : Byte) (o : U64) (f f' : Byte) :
    Rel Any (I.compress_xof p cv b l o f) (I.compress_xof p cv' b' l o f') := by
  refine ⟨?_, trivial⟩
  cases p <;> rfl

/-! ## `hash_many` -/

theorem rel_hash1_loop (fl fl' fe : Byte) (off : U64) (s t : Bytes) (h : s.length = t.length) :
    ∀ (cv cv' : Vector Word 8) (bf bf' : Byte),
      RelR Any (Portable.hash1_loop fl fe off cv bf s) (Portable.hash1_loop fl' fe off cv' bf' t) := by
  induction hn : s.length using Nat.strongRecOn generalizing s t with
  | _ n ih =>
    intro cv cv' bf bf'
    subst hn
    rw [Portable.hash1_loop, Portable.hash1_loop]
    by_cases k : BLOCK_LEN ≤ s.length
    · rw [dif_pos k, dif_pos (h ▸ k)]
      dsimp only
      refine RelR.bind (rel_arrayRef h _ _) fun b b' _ => ?_
      have k' : 64 ≤ s.length := k
      exact ih _ (by simp only [List.length_drop, BLOCK_LEN]; omega) _ _ (by simp only [List.length_drop, h]) rfl _ _ _ _
    · rw [dif_neg k, dif_neg (h ▸ k)]
      trivial

theorem rel_hash1 (s t : Bytes) (h : s.length = t.length) (k k' : Vector Word 8) (off : U64) (f f' fs fe : Byte) :
    RelR Any (Portable.hash1 s k off f fs fe) (Portable.hash1 t k' off f' fs fe) := by
  unfold Portable.hash1
  refine RelR.bind (rel_assert (by rw [h])) fun _ _ _ => ?_
  exact RelR.bind (rel_hash1_loop _ _ _ _ _ _ h _ _ _ _) fun _ _ _ => RelR.pure trivial

theorem rel_sse41_hash1 (s t : Bytes) (h : s.length = t.length) (k k' : Vector Word 8) (off : U64) (f f' fs fe : Byte) :
    RelR Any (Sse41.hash1 s k off f fs fe) (Sse41.hash1 t k' off f' fs fe) := by
  rw [sse41_hash1_eq, sse41_hash1_eq]
  exact rel_hash1 s t h k k' off f f' fs fe

theorem drop_len {α β : Type} {x : List α} {y : List β} (h : SameLen x y) (n : Nat) : SameLen (x.drop n) (y.drop n) := by
  show List.length _ = List.length _
  rw [List.length_drop, List.length_drop, show x.length = y.length from h]

theorem take_len {α β : Type} {x : List α} {y : List β} (h : SameLen x y) (n : Nat) : SameLen (x.take n) (y.take n) := by
  show List.length _ = List.length _
  rw [List.length_take, List.length_take, show x.length = y.length from h]

theorem append_len {α β : Type} {x z : List α} {y w : List β} (h : SameLen x y) (h' : SameLen z w) : SameLen (x ++ z) (y ++ w) := by
  show List.length _ = List.length _
  rw [List.length_append, List.length_append, show x.length = y.length from h, show z.length = w.length from h']

theorem rel_portable_loop (k k' : Vector Word 8) (d : U64) (f f' fs fe : Byte) (xs : List Bytes) :
    ∀ (ys : List Bytes) (off : U64) (out out' : Bytes), SameLens xs ys → SameLen out out' →
      Rel SameLen (I.Portable.hash_many_loop k d f fs fe xs off out) (I.Portable.hash_many_loop k' d f' fs fe ys off out') := by
  induction xs with
  | nil =>
    intro ys off out out' h ho
    cases ys with
    | nil => exact Rel.pure ho
    | cons _ _ => cases h
  | cons x xs ih =>
    intro ys off out out' h ho
    cases ys with
    | nil => cases h
    | cons y ys =>
      have h1 : x.length = y.length := by injection h
      have h2 : SameLens xs ys := by injection h
      rw [I.Portable.hash_many_loop, I.Portable.hash_many_loop]
      refine Rel.ite (by rw [show out.length = out'.length from ho]) (fun _ _ => Rel.pure ho) (fun _ _ => ?_)
      rw [h1]
      refine Rel.bind (rel_enter _) fun _ _ _ => ?_
      refine Rel.liftBind (rel_hash1 _ _ h1 ..) fun a b _ => ?_
      refine Rel.liftBind (RelR.refl _) fun o _ e => ?_
      subst e
      refine Rel.bind (ih ys o _ _ h2 (drop_len ho _)) fun r r' hr => ?_
      exact Rel.pure (append_len (by show List.length (Vector.toList _) = List.length (Vector.toList _); simp only [Vector.length_toList]) hr)

theorem rel_sse41_tail (k k' : Vector Word 8) (d : U64) (f f' fs fe : Byte) (xs : List Bytes) :
    ∀ (ys : List Bytes) (off : U64) (out out' : Bytes), SameLens xs ys → SameLen out out' →
      Rel SameLen (I.Sse41.hash_many_tail k d f fs fe xs off out) (I.Sse41.hash_many_tail k' d f' fs fe ys off out') := by
  induction xs with
  | nil =>
    intro ys off out out' h ho
    cases ys with
    | nil => exact Rel.pure ho
    | cons _ _ => cases h
  | cons x xs ih =>
    intro ys off out out' h ho
    cases ys with
    | nil => cases h
    | cons y ys =>
      have h1 : x.length = y.length := by injection h
      have h2 : SameLens xs ys := by injection h
      rw [I.Sse41.hash_many_tail, I.Sse41.hash_many_tail]
      refine Rel.ite (by rw [show out.length = out'.length from ho]) (fun _ _ => Rel.pure ho) (fun _ _ => ?_)
      rw [h1]
      refine Rel.bind (rel_enter _) fun _ _ _ => ?_
      refine Rel.liftBind (rel_sse41_hash1 _ _ h1 ..) fun a b _ => ?_
      refine Rel.liftBind (RelR.refl _) fun o _ e => ?_
      subst e
      refine Rel.bind (ih ys o _ _ h2 (drop_len ho _)) fun r r' hr => ?_
      exact Rel.pure (append_len (by show List.length (Vector.toList _) = List.length (Vector.toList _); simp only [Vector.length_toList]) hr)

theorem length_lanesOut (key : Vector Word 8) (off d : U64) (f fs fe : Byte) (xs : List Bytes) : ∀ i,
    (lanesOut key off d f fs fe i xs).length = 32 * xs.length := by
  induction xs with
  | nil => intro i; rfl
  | cons x xs ih => intro i; simp [lanesOut, ih]; omega

theorem rel_hash4 (cap : Nat) (hcap : cap % 64 = 0) (k k' : Vector Word 8) (off d : U64) (f f' fs fe : Byte)
    (xs ys : Vector Bytes 4) (out out' : Bytes) (hx : ∀ i (hi : i < 4), xs[i].length = cap)
    (hy : ∀ i (hi : i < 4), ys[i].length = cap) (ho : out.length = 128) (ho' : out'.length = 128) :
    RelR SameLen (Sse41.hash4 xs (cap / BLOCK_LEN) k off d f fs fe out) (Sse41.hash4 ys (cap / BLOCK_LEN) k' off d f' fs fe out') := by
  have e : 64 * (cap / BLOCK_LEN) = cap := by simp only [BLOCK_LEN]; omega
  rw [hash4_eq xs _ k off d f fs fe out (by rw [e]; exact hx) ho, hash4_eq ys _ k' off d f' fs fe out' (by rw [e]; exact hy) ho']
  refine RelR.ite Iff.rfl (fun _ _ => ?_) (fun _ _ => rfl)
  show List.length _ = List.length _
  rw [length_lanesOut, length_lanesOut, Vector.length_toList, Vector.length_toList]

theorem rel_hash8 (cap : Nat) (hcap : cap % 64 = 0) (k k' : Vector Word 8) (off d : U64) (f f' fs fe : Byte)
    (xs ys : Vector Bytes 8) (out out' : Bytes) (hx : ∀ i (hi : i < 8), xs[i].length = cap)
    (hy : ∀ i (hi : i < 8), ys[i].length = cap) (ho : out.length = 256) (ho' : out'.length = 256) :
    RelR SameLen (Avx2.hash8 xs (cap / BLOCK_LEN) k off d f fs fe out) (Avx2.hash8 ys (cap / BLOCK_LEN) k' off d f' fs fe out') := by
  have e : 64 * (cap / BLOCK_LEN) = cap := by simp only [BLOCK_LEN]; omega
  rw [hash8_eq xs _ k off d f fs fe out (by rw [e]; exact hx) ho, hash8_eq ys _ k' off d f' fs fe out' (by rw [e]; exact hy) ho']
  refine RelR.ite Iff.rfl (fun _ _ => ?_) (fun _ _ => rfl)
  show List.length _ = List.length _
  rw [length_lanesOut, length_lanesOut, Vector.length_toList, Vector.length_toList]

/-- elements of the array come from the list -/
theorem rel_arrayRef_mem {s t : List Bytes} (h : s.length = t.length) (n c : Nat) (hs : ∀ x ∈ s, x.length = c)
    (ht : ∀ x ∈ t, x.length = c) :
    RelR (fun a b => (∀ i (hi : i < n), a[i].length = c) ∧ ∀ i (hi : i < n), b[i].length = c) (arrayRef s 0 n) (arrayRef t 0 n) := by
  unfold arrayRef
  by_cases k : 0 + n ≤ s.length
  · rw [dif_pos k, dif_pos (h ▸ k)]
    constructor
    · intro i hi
      refine hs _ ?_
      simp
    · intro i hi
      refine ht _ ?_
      simp
  · rw [dif_neg k, dif_neg (h ▸ k)]; rfl

theorem rel_sse41_loop (cap : Nat) (hcap : cap % 64 = 0) (k k' : Vector Word 8) (d : U64) (f f' fs fe : Byte) (xs : List Bytes) :
    ∀ (ys : List Bytes) (off : U64) (out out' : Bytes), (∀ x ∈ xs, x.length = cap) → (∀ x ∈ ys, x.length = cap) →
      xs.length = ys.length → SameLen out out' →
      Rel SameLen (I.Sse41.hash_many_loop cap k d f fs fe xs off out) (I.Sse41.hash_many_loop cap k' d f' fs fe ys off out') := by
  induction hn : xs.length using Nat.strongRecOn generalizing xs with
  | _ n ih =>
    intro ys off out out' hx hy hl ho
    subst hn
    have ho1 : out.length = out'.length := ho
    rw [I.Sse41.hash_many_loop, I.Sse41.hash_many_loop]
    by_cases c : Sse41.DEGREE ≤ xs.length ∧ Sse41.DEGREE * OUT_LEN ≤ out.length
    · have c' : Sse41.DEGREE ≤ ys.length ∧ Sse41.DEGREE * OUT_LEN ≤ out'.length := by rw [← hl, ← ho1]; exact c
      rw [dif_pos c, dif_pos c']
      refine Rel.liftBind (rel_arrayRef_mem hl _ cap hx hy) fun a b hab => ?_
      refine Rel.bind (rel_enter _) fun _ _ _ => ?_
      refine Rel.liftBind (rel_hash4 cap hcap k k' off d f f' fs fe a b _ _ hab.1 hab.2
        (by rw [List.length_take]; exact Nat.min_eq_left c.2) (by rw [List.length_take]; exact Nat.min_eq_left c'.2)) fun o o' hoo => ?_
      refine Rel.liftBind (RelR.refl _) fun of _ e => ?_
      subst e
      have c1 : 4 ≤ xs.length := c.1
      refine Rel.bind (ih _ (by simp only [List.length_drop, Sse41.DEGREE]; omega) _ rfl _ _ _ _
        (fun x h => hx x (List.mem_of_mem_drop h)) (fun x h => hy x (List.mem_of_mem_drop h)) (drop_len hl _) (drop_len ho _)) fun r r' hr => ?_
      exact Rel.pure (append_len hoo hr)
    · have c' : ¬ (Sse41.DEGREE ≤ ys.length ∧ Sse41.DEGREE * OUT_LEN ≤ out'.length) := by rw [← hl, ← ho1]; exact c
      rw [dif_neg c, dif_neg c']
      exact rel_sse41_tail _ _ _ _ _ _ _ _ _ _ _ _ (sameLens_of cap hx hy hl) ho

theorem rel_sse41_many (cap : Nat) (hcap : cap % 64 = 0) (k k' : Vector Word 8) (off d : U64) (f f' fs fe : Byte) (xs ys : List Bytes)
    (out out' : Bytes) (hx : ∀ x ∈ xs, x.length = cap) (hy : ∀ x ∈ ys, x.length = cap) (hl : xs.length = ys.length) (ho : SameLen out out') :
    Rel SameLen (I.Sse41.hash_many cap xs k off d f fs fe out) (I.Sse41.hash_many cap ys k' off d f' fs fe out') := by
  unfold I.Sse41.hash_many
  refine Rel.bind (rel_enter _) fun _ _ _ => ?_
  refine Rel.liftBind (rel_assert (by rw [hl, show out.length = out'.length from ho])) fun _ _ _ => ?_
  exact rel_sse41_loop cap hcap _ _ _ _ _ _ _ _ _ _ _ _ hx hy hl ho

theorem rel_avx2_loop (cap : Nat) (hcap : cap % 64 = 0) (k k' : Vector Word 8) (d : U64) (f f' fs fe : Byte) (xs : List Bytes) :
    ∀ (ys : List Bytes) (off : U64) (out out' : Bytes), (∀ x ∈ xs, x.length = cap) → (∀ x ∈ ys, x.length = cap) →
      xs.length = ys.length → SameLen out out' →
      Rel SameLen (I.Avx2.hash_many_loop cap k d f fs fe xs off out) (I.Avx2.hash_many_loop cap k' d f' fs fe ys off out') := by
  induction hn : xs.length using Nat.strongRecOn generalizing xs with
  | _ n ih =>
    intro ys off out out' hx hy hl ho
    subst hn
    have ho1 : out.length = out'.length := ho
    rw [I.Avx2.hash_many_loop, I.Avx2.hash_many_loop]
    by_cases c : Avx2.DEGREE ≤ xs.length ∧ Avx2.DEGREE * OUT_LEN ≤ out.length
    · have c' : Avx2.DEGREE ≤ ys.length ∧ Avx2.DEGREE * OUT_LEN ≤ out'.length := by rw [← hl, ← ho1]; exact c
      rw [dif_pos c, dif_pos c']
      refine Rel.liftBind (rel_arrayRef_mem hl _ cap hx hy) fun a b hab => ?_
      refine Rel.bind (rel_enter _) fun _ _ _ => ?_
      refine Rel.liftBind (rel_hash8 cap hcap k k' off d f f' fs fe a b _ _ hab.1 hab.2
        (by rw [List.length_take]; exact Nat.min_eq_left c.2) (by rw [List.length_take]; exact Nat.min_eq_left c'.2)) fun o o' hoo => ?_
      refine Rel.liftBind (RelR.refl _) fun of _ e => ?_
      subst e
      have c1 : 8 ≤ xs.length := c.1
      refine Rel.bind (ih _ (by simp only [List.length_drop, Avx2.DEGREE]; omega) _ rfl _ _ _ _
        (fun x h => hx x (List.mem_of_mem_drop h)) (fun x h => hy x (List.mem_of_mem_drop h)) (drop_len hl _) (drop_len ho _)) fun r r' hr => ?_
      exact Rel.pure (append_len hoo hr)
    · have c' : ¬ (Avx2.DEGREE ≤ ys.length ∧ Avx2.DEGREE * OUT_LEN ≤ out'.length) := by rw [← hl, ← ho1]; exact c
      rw [dif_neg c, dif_neg c']
      exact rel_sse41_many cap hcap _ _ _ _ _ _ _ _ _ _ _ _ hx hy hl ho

theorem rel_hash_many (p : Platform) (cap : Nat) (hcap : cap % 64 = 0) (k k' : Vector Word 8) (off d : U64) (f f' fs fe : Byte)
    (xs ys : List Bytes) (out out' : Bytes) (hx : ∀ x ∈ xs, x.length = cap) (hy : ∀ x ∈ ys, x.length = cap)
    (h : xs.length = ys.length) (ho : SameLen out out') :
    Rel SameLen (I.hash_many p cap xs k off d f fs fe out) (I.hash_many p cap ys k' off d f' fs fe out') := by
  cases p
  · unfold I.hash_many I.Portable.hash_many
    refine Rel.liftBind (rel_assert (by rw [h, show out.length = out'.length from ho])) fun _ _ _ => ?_
    exact rel_portable_loop _ _ _ _ _ _ _ _ _ _ _ _ (sameLens_of cap hx hy h) ho
  · exact rel_sse41_many cap hcap _ _ _ _ _ _ _ _ _ _ _ _ hx hy h ho
  · unfold I.hash_many I.Avx2.hash_many
    refine Rel.bind (rel_enter _) fun _ _ _ => ?_
    refine Rel.liftBind (rel_assert (by rw [h, show out.length = out'.length from ho])) fun _ _ _ => ?_
    exact rel_avx2_loop cap hcap _ _ _ _ _ _ _ _ _ _ _ _ hx hy h ho

/-! ## Output -/

/-- Outputs that differ in the chaining value, the block and the mode only. -/
def SimO (o o' : Output) : Prop :=
  o.block_len = o'.block_len ∧ o.offset = o'.offset ∧ Low o.flags o'.flags ∧ o.platform = o'.platform

theorem rel_read (prof : Profile) {o o' : Output} (h : SimO o o') :
    Rel (fun a b => SimO a.2 b.2) (I.Output.read prof o) (I.Output.read prof o') := by
  obtain ⟨h1, h2, h3, h4⟩ := h
  unfold I.Output.read
  rw [h1, h2, h4]
  refine Rel.bind (rel_compress_xof ..) fun _ _ _ => ?_
  refine Rel.liftBind (RelR.refl _) fun _ _ e => ?_
  exact Rel.pure ⟨rfl, e, h3, rfl⟩

theorem rel_to_hash {o o' : Output} (h : SimO o o') : Rel Any (I.Output.to_hash o) (I.Output.to_hash o') := by
  obtain ⟨h1, h2, h3, h4⟩ := h
  unfold I.Output.to_hash
  rw [h1, h2, h4]
  exact Rel.bind (rel_compress _ _ _ _ _ _ _ h3) fun _ _ _ => Rel.pure trivial

theorem rel_run (prof : Profile) (os : List OutCall) : ∀ {o o' : Output}, SimO o o' →
    Rel Any (I.Output.run prof os o) (I.Output.run prof os o') := by
  induction os with
  | nil => intro o o' h; exact Rel.pure trivial
  | cons c cs ih =>
    intro o o' h
    cases c with
    | read =>
      refine Rel.bind (rel_read prof h) fun a b hab => ?_
      exact Rel.bind (ih hab) fun _ _ _ => Rel.pure trivial
    | toHash =>
      refine Rel.bind (rel_to_hash h) fun a b hab => ?_
      exact Rel.bind (ih h) fun _ _ _ => Rel.pure trivial

/-! ## One-shot functions -/

theorem rel_hash_one_chunk_loop (p : Platform) (c c' : Bytes) (h : c.length = c'.length) (off : U64) (r : IsRoot) {f f' : Byte}
    (hf : Low f f') : ∀ (cv cv' : Vector Word 8) (bf bf' : Byte) (hb : Low bf bf') (bo : Nat),
      Rel SimO (I.hash_one_chunk_loop p c off r f cv bf bo) (I.hash_one_chunk_loop p c' off r f' cv' bf' bo) := by
  intro cv cv' bf bf' hb bo
  induction hn : c.length - bo using Nat.strongRecOn generalizing cv cv' bf bf' bo with
  | _ n ih =>
    subst hn
    rw [I.hash_one_chunk_loop, I.hash_one_chunk_loop]
    by_cases k : bo + BLOCK_LEN ≤ c.length
    · rw [dif_pos k, dif_pos (h ▸ k)]
      refine Rel.ite (by rw [h]) (fun _ _ => ?_) (fun _ _ => ?_)
      · exact Rel.liftBind (rel_arrayRef h _ _) fun _ _ _ => Rel.pure ⟨rfl, rfl, (hb.or _).or _, rfl⟩
      · refine Rel.liftBind (rel_arrayRef h _ _) fun _ _ _ => ?_
        refine Rel.bind (rel_compress _ _ _ _ _ _ _ hb) fun _ _ _ => ?_
        have k' : bo + 64 ≤ c.length := k
        exact ih _ (by simp only [BLOCK_LEN]; omega) _ _ _ _ hf _ rfl
    · rw [dif_neg k, dif_neg (h ▸ k), h]
      refine Rel.liftBind (RelR.refl _) fun a _ e => ?_
      subst e
      refine Rel.bind (rel_enter _) fun _ _ _ => ?_
      refine Rel.liftBind (rel_writeAt rfl _ (by simp only [List.length_drop, h])) fun _ _ e => ?_
      exact Rel.liftBind (rel_arrayRef e _ _) fun _ _ _ => Rel.pure ⟨rfl, rfl, (hb.or _).or _, rfl⟩

theorem rel_hash_one_chunk (p : Platform) (c c' : Bytes) (h : c.length = c'.length) (k k' : Vector Word 8) (off : U64)
    (r : IsRoot) {f f' : Byte} (hf : Low f f') :
    Rel SimO (I.hash_one_chunk c k off r f p) (I.hash_one_chunk c' k' off r f' p) := by
  unfold I.hash_one_chunk
  refine Rel.liftBind (rel_assert Iff.rfl) fun _ _ _ => ?_
  exact rel_hash_one_chunk_loop _ _ _ h _ _ hf _ _ _ _ (hf.or _) _

theorem rel_hash_chunks_parallel (cfg : Config) (p : Platform) {x y : Bytes} (h : x.length = y.length) (k k' : Vector Word 8)
    (off : U64) {f f' : Byte} (hf : Low f f') {out out' : Bytes} (ho : SameLen out out') :
    Rel SimP (I.hash_chunks_parallel cfg x k off f p out) (I.hash_chunks_parallel cfg y k' off f' p out') := by
  unfold I.hash_chunks_parallel
  refine Rel.liftBind (rel_assert (not_nil_iff h)) fun _ _ _ => ?_
  refine Rel.liftBind (rel_assert (by rw [h])) fun _ _ _ => ?_
  refine Rel.liftBind (rel_assert Iff.rfl) fun _ _ _ => ?_
  refine Rel.liftBind (rel_pushAll CHUNK_LEN _ (by decide) h) fun a b hab => ?_
  obtain ⟨h1, h2, h3⟩ := hab
  refine Rel.bind (rel_hash_many p CHUNK_LEN (by decide) _ _ _ _ _ _ _ _ _ _ _ _ h2 h3 h1 ho) fun o o' hoo => ?_
  refine Rel.ite (not_nil_iff (rem_len _ h)) (fun _ _ => ?_) (fun _ _ => Rel.pure ⟨h1, hoo⟩)
  rw [h1]
  refine Rel.liftBind (RelR.refl _) fun a _ e => ?_
  subst e
  refine Rel.liftBind (RelR.refl _) fun a _ e => ?_
  subst e
  refine Rel.bind (rel_hash_one_chunk _ _ _ (rem_len _ h) _ _ _ _ hf) fun _ _ e => ?_
  refine Rel.bind (rel_to_hash e) fun _ _ _ => ?_
  refine Rel.liftBind (rel_writeAt hoo _ (by simp)) fun _ _ e => ?_
  exact Rel.pure ⟨rfl, e⟩

theorem rel_hash_parents_parallel (cfg : Config) (p : Platform) {x y : Bytes} (h : x.length = y.length) (k k' : Vector Word 8)
    (f f' : Byte) {out out' : Bytes} (ho : SameLen out out') :
    Rel SimP (I.hash_parents_parallel cfg x k f p out) (I.hash_parents_parallel cfg y k' f' p out') := by
  unfold I.hash_parents_parallel
  dsimp only
  refine Rel.liftBind (rel_assert (by rw [h])) fun _ _ _ => ?_
  refine Rel.liftBind (rel_assert (by rw [h])) fun _ _ _ => ?_
  refine Rel.liftBind (rel_assert (by rw [h])) fun _ _ _ => ?_
  refine Rel.liftBind (rel_pushAll BLOCK_LEN _ (by decide) h) fun a b hab => ?_
  obtain ⟨h1, h2, h3⟩ := hab
  refine Rel.bind (rel_hash_many p BLOCK_LEN (by decide) _ _ _ _ _ _ _ _ _ _ _ _ h2 h3 h1 ho) fun o o' hoo => ?_
  refine Rel.ite (not_nil_iff (rem_len _ h)) (fun _ _ => ?_) (fun _ _ => Rel.pure ⟨h1, hoo⟩)
  refine Rel.liftBind (rel_assert (by rw [rem_len _ h])) fun _ _ _ => ?_
  rw [h1]
  refine Rel.liftBind (rel_writeAt hoo _ (rem_len _ h)) fun _ _ e => ?_
  exact Rel.pure ⟨rfl, e⟩

theorem rel_hash_recurse (cfg : Config) (p : Platform) {f f' : Byte} (hf : Low f f') (k k' : Vector Word 8) :
    ∀ {x y : Bytes}, x.length = y.length → ∀ (off : U64) {out out' : Bytes}, SameLen out out' →
    Rel SimP (I.hash_recurse cfg x k off f p out) (I.hash_recurse cfg y k' off f' p out') := by
  intro x
  induction hn : x.length using Nat.strongRecOn generalizing x with
  | _ n ih =>
    intro y h off out out' ho
    subst hn
    rw [I.hash_recurse, I.hash_recurse]
    refine Rel.ite (by rw [h]) (fun _ _ => rel_hash_chunks_parallel cfg p h _ _ _ hf ho) (fun _ _ => ?_)
    have hy : left_len cfg.usizeBits y.length = left_len cfg.usizeBits x.length := by rw [h]
    split
    · rename_i e he
      split
      · rename_i e' he'
        rw [hy, he] at he'
        injection he' with he'
        subst he'
        exact Rel.error _
      · rename_i l he'
        rw [hy, he] at he'
        cases he'
    · rename_i l he
      split
      · rename_i e' he'
        rw [hy, he] at he'
        cases he'
      · rename_i l' he'
        rw [hy, he] at he'
        injection he' with he'
        subst he'
        have l1 := left_len_lt he
        have l2 := left_len_pos he
        have hl : (x.take l).length = (y.take l).length := by simp only [List.length_take, h]
        have hr : (x.drop l).length = (y.drop l).length := by simp only [List.length_drop, h]
        dsimp only
        rw [hl]
        refine Rel.liftBind (RelR.refl _) fun a _ e => ?_
        subst e
        refine Rel.liftBind (rel_assert Iff.rfl) fun _ _ _ => ?_
        refine Rel.liftBind (rel_splitAtR rfl _) fun s s' hs => ?_
        refine Rel.bind (ih _ (by simp only [List.length_take]; omega) rfl hl _ hs.1) fun u u' hu => ?_
        refine Rel.bind (ih _ (by simp only [List.length_drop]; omega) rfl hr _ hs.2) fun v v' hv => ?_
        obtain ⟨u1, u2⟩ := u
        obtain ⟨u1', u2'⟩ := u'
        obtain ⟨v1, v2⟩ := v
        obtain ⟨v1', v2'⟩ := v'
        obtain ⟨hu1, hu2⟩ := hu
        obtain ⟨hv1, hv2⟩ := hv
        dsimp only at hu1 hu2 hv1 hv2 ⊢
        subst hu1 hv1
        have ha : SameLen (u2 ++ v2) (u2' ++ v2') := by
          show List.length _ = List.length _
          rw [List.length_append, List.length_append, hu2, hv2]
        refine Rel.liftBind (rel_assert Iff.rfl) fun _ _ _ => ?_
        refine Rel.liftBind (rel_assert Iff.rfl) fun _ _ _ => ?_
        refine Rel.ite Iff.rfl (fun _ _ => ?_) (fun _ _ => ?_)
        · refine Rel.liftBind (rel_sliceTo ha _) fun _ _ hc => ?_
          refine Rel.liftBind (rel_writeAt ho _ hc) fun _ _ e => ?_
          exact Rel.pure ⟨rfl, e⟩
        · refine Rel.liftBind (rel_sliceTo ha _) fun _ _ hc => ?_
          exact rel_hash_parents_parallel cfg p hc _ _ _ _ ho

theorem rel_condense_loop (cfg : Config) (p : Platform) {f f' : Byte} (hf : Low f f') (k k' : Vector Word 8) (n : Nat) :
    ∀ {x y out out' : Bytes}, SameLen x y → SameLen out out' →
    Rel SameLen (I.condense_loop cfg k f p n x out) (I.condense_loop cfg k' f' p n y out') := by
  induction n with
  | zero => intro x y out out' h ho; exact Rel.error _
  | succ n ih =>
    intro x y out out' h ho
    rw [I.condense_loop, I.condense_loop]
    refine Rel.ite (by rw [show x.length = y.length from h]) (fun _ _ => ?_) (fun _ _ => Rel.pure h)
    refine Rel.bind (rel_hash_parents_parallel cfg p h _ _ _ _ ho) fun a b hab => ?_
    obtain ⟨a1, a2⟩ := a
    obtain ⟨b1, b2⟩ := b
    obtain ⟨h1, h2⟩ := hab
    dsimp only at h1 h2 ⊢
    subst h1
    refine Rel.liftBind (rel_sliceTo h2 _) fun _ _ hc => ?_
    refine Rel.liftBind (rel_writeAt h _ hc) fun _ _ e => ?_
    refine Rel.liftBind (rel_sliceTo e _) fun _ _ hc => ?_
    exact ih hc h2

theorem rel_condense_root (cfg : Config) (p : Platform) {f f' : Byte} (hf : Low f f') (k k' : Vector Word 8) {x y : Bytes} (h : SameLen x y) :
    Rel SimO (I.condense_root cfg x k f p) (I.condense_root cfg y k' f' p) := by
  unfold I.condense_root
  dsimp only
  rw [show x.length = y.length from h]
  refine Rel.liftBind (rel_assert Iff.rfl) fun _ _ _ => ?_
  refine Rel.liftBind (rel_assert Iff.rfl) fun _ _ _ => ?_
  refine Rel.bind (rel_condense_loop cfg p hf k k' _ h rfl) fun _ _ e => ?_
  exact Rel.liftBind (rel_arrayRef e _ _) fun _ _ _ => Rel.pure ⟨rfl, rfl, (hf.or _).or _, rfl⟩

theorem rel_hash_internal (cfg : Config) {f f' : Byte} (hf : Low f f') (k k' : Vector Word 8) {x y : Bytes} (h : SameLen x y) :
    Rel SimO (I.hash_internal cfg x k f) (I.hash_internal cfg y k' f') := by
  unfold I.hash_internal
  dsimp only
  refine Rel.ite (by rw [show x.length = y.length from h]) (fun _ _ => rel_hash_one_chunk _ _ _ h _ _ _ _ hf) (fun _ _ => ?_)
  refine Rel.bind (rel_hash_recurse cfg _ hf k k' h _ rfl) fun a b hab => ?_
  obtain ⟨a1, a2⟩ := a
  obtain ⟨b1, b2⟩ := b
  obtain ⟨h1, h2⟩ := hab
  dsimp only at h1 h2 ⊢
  subst h1
  refine Rel.liftBind (rel_sliceTo h2 _) fun _ _ hc => ?_
  exact rel_condense_root cfg _ hf k k' hc

/-! ## Incremental hashing -/

/-- Chunk states that differ in the chaining value, the key, the contents of the buffer and the mode only. -/
def SimC (s t : ChunkState) : Prop :=
  s.offset = t.offset ∧ s.count = t.count ∧ s.buf_len = t.buf_len ∧ Low s.flags t.flags ∧ s.platform = t.platform

theorem SimC.start {s t : ChunkState} (h : SimC s t) : s.maybe_chunk_start_flag = t.maybe_chunk_start_flag := by
  unfold ChunkState.maybe_chunk_start_flag; rw [h.2.1]

theorem SimC.len {s t : ChunkState} (h : SimC s t) : s.len = t.len := by
  unfold ChunkState.len; rw [h.2.1, h.2.2.1]

theorem rel_fill_buf {s t : ChunkState} (hs : SimC s t) {x y : Bytes} (h : SameLen x y) :
    Rel (fun a b => SimC a.1 b.1 ∧ SameLen a.2 b.2) (I.ChunkState.fill_buf s x) (I.ChunkState.fill_buf t y) := by
  obtain ⟨h1, h2, h3, h4, h5⟩ := hs
  unfold I.ChunkState.fill_buf
  rw [h3, show x.length = y.length from h]
  refine Rel.bind (rel_enter _) fun _ _ _ => Rel.lift ?_
  unfold Model.ChunkState.fill_buf
  dsimp only
  rw [h3, show x.length = y.length from h]
  refine RelR.bind (RelR.refl _) fun a _ e => ?_
  subst e
  refine RelR.bind (rel_writeAt (by simp) _ (by simp only [List.length_take, h])) fun _ _ e => ?_
  refine RelR.bind (rel_arrayRef e _ _) fun _ _ _ => ?_
  refine RelR.bind (RelR.refl _) fun b _ e => ?_
  subst e
  exact RelR.pure ⟨⟨h1, h2, rfl, h4, h5⟩, by show List.length _ = List.length _; simp only [List.length_drop, h]⟩

theorem rel_update_blocks {x y : Bytes} (h : SameLen x y) : ∀ {s t : ChunkState}, SimC s t →
    Rel (fun a b => SimC a.1 b.1 ∧ SameLen a.2 b.2) (I.ChunkState.update_blocks s x) (I.ChunkState.update_blocks t y) := by
  induction hn : x.length using Nat.strongRecOn generalizing x y with
  | _ n ih =>
    intro s t hs
    subst hn
    have h' : x.length = y.length := h
    rw [I.ChunkState.update_blocks, I.ChunkState.update_blocks]
    by_cases k : BLOCK_LEN < x.length
    · rw [dif_pos k, dif_pos (h' ▸ k)]
      dsimp only
      have hst := hs.start
      obtain ⟨h1, h2, h3, h4, h5⟩ := hs
      rw [h3, h5, h1, h2, hst]
      refine Rel.liftBind (rel_assert Iff.rfl) fun _ _ _ => ?_
      refine Rel.liftBind (rel_arrayRef h' _ _) fun _ _ _ => ?_
      refine Rel.bind (rel_compress _ _ _ _ _ _ _ (h4.or _)) fun _ _ _ => ?_
      refine Rel.liftBind (RelR.refl _) fun a _ e => ?_
      subst e
      have k' : 64 < x.length := k
      exact ih _ (by simp only [List.length_drop, BLOCK_LEN]; omega)
        (by show List.length _ = List.length _; simp only [List.length_drop, h']) rfl ⟨rfl, rfl, rfl, h4, rfl⟩
    · rw [dif_neg k, dif_neg (h' ▸ k)]
      exact Rel.pure ⟨hs, h⟩

theorem rel_update_first {x y : Bytes} (h : SameLen x y) {s t : ChunkState} (hs : SimC s t) :
    Rel (fun a b => SimC a.1 b.1 ∧ SameLen a.2 b.2) (I.ChunkState.update_first s x) (I.ChunkState.update_first t y) := by
  unfold I.ChunkState.update_first
  refine Rel.ite (by rw [hs.2.2.1]) (fun _ _ => ?_) (fun _ _ => Rel.pure ⟨hs, h⟩)
  refine Rel.bind (rel_fill_buf hs h) fun a b hab => ?_
  obtain ⟨s, x⟩ := a
  obtain ⟨t, y⟩ := b
  obtain ⟨hs, h⟩ := hab
  dsimp only at hs h ⊢
  refine Rel.ite (not_nil_iff h) (fun _ _ => ?_) (fun _ _ => Rel.pure ⟨hs, h⟩)
  have hst := hs.start
  obtain ⟨h1, h2, h3, h4, h5⟩ := hs
  rw [h3, h5, h1, h2, hst]
  refine Rel.liftBind (rel_assert Iff.rfl) fun _ _ _ => ?_
  refine Rel.bind (rel_compress _ _ _ _ _ _ _ (h4.or _)) fun _ _ _ => ?_
  refine Rel.liftBind (RelR.refl _) fun a _ e => ?_
  subst e
  exact Rel.pure ⟨⟨rfl, rfl, rfl, h4, rfl⟩, h⟩

theorem rel_chunk_update {x y : Bytes} (h : SameLen x y) {s t : ChunkState} (hs : SimC s t) :
    Rel SimC (I.ChunkState.update s x) (I.ChunkState.update t y) := by
  unfold I.ChunkState.update
  refine Rel.bind (rel_update_first h hs) fun a b hab => ?_
  refine Rel.bind (rel_update_blocks hab.2 hab.1) fun a b hab => ?_
  refine Rel.bind (rel_fill_buf hab.1 hab.2) fun a b hab => ?_
  obtain ⟨s, x⟩ := a
  obtain ⟨t, y⟩ := b
  obtain ⟨hs, h⟩ := hab
  dsimp only at hs h ⊢
  refine Rel.liftBind (rel_assert (nil_iff h)) fun _ _ _ => ?_
  refine Rel.liftBind (rel_assert (by rw [hs.len])) fun _ _ _ => ?_
  exact Rel.pure hs

theorem rel_chunk_finalize {s t : ChunkState} (hs : SimC s t) (r : IsRoot) : RelR SimO (s.finalize r) (t.finalize r) := by
  unfold ChunkState.finalize
  have hst := hs.start
  obtain ⟨h1, h2, h3, h4, h5⟩ := hs
  dsimp only
  rw [h3, h5, h1, hst]
  refine RelR.bind (rel_assert Iff.rfl) fun _ _ _ => ?_
  exact RelR.pure ⟨rfl, rfl, ((h4.or _).or _).or _, rfl⟩

theorem rel_reset {s t : ChunkState} (hs : SimC s t) (o : U64) : RelR SimC (s.reset o) (t.reset o) := by
  unfold ChunkState.reset
  refine RelR.bind (rel_assert Iff.rfl) fun _ _ _ => ?_
  exact RelR.pure ⟨rfl, rfl, rfl, hs.2.2.2.1, hs.2.2.2.2⟩

theorem sim_parent (a b a' b' : Vector Byte 32) (k k' : Vector Word 8) (r : IsRoot) {f f' : Byte} (hf : Low f f') (p : Platform) :
    SimO (hash_one_parent a b k r f p) (hash_one_parent a' b' k' r f' p) := ⟨rfl, rfl, (hf.or _).or _, rfl⟩

/-- Hashers that differ in the contents of the stack and as `SimC` only. -/
def SimH (g h : Hasher) : Prop := g.subtree_hashes.length = h.subtree_hashes.length ∧ SimC g.chunk h.chunk

theorem rel_merge_parent {g h : Hasher} (hs : SimH g h) : Rel SimH (I.Hasher.merge_parent g) (I.Hasher.merge_parent h) := by
  obtain ⟨h1, h2⟩ := hs
  unfold I.Hasher.merge_parent
  rcases e : g.subtree_hashes with _ | ⟨a, _ | ⟨b, l⟩⟩ <;> rcases e' : h.subtree_hashes with _ | ⟨a', _ | ⟨b', l'⟩⟩ <;>
    rw [e, e'] at h1 <;> simp only [List.length_cons, List.length_nil] at h1 <;> try omega
  · exact Rel.error _
  · exact Rel.error _
  · dsimp only
    rw [h2.2.2.2.2]
    refine Rel.bind (rel_to_hash (sim_parent _ _ _ _ _ _ _ h2.2.2.2.1 _)) fun _ _ _ => ?_
    exact Rel.pure ⟨by simp only [List.length_cons]; omega, h2⟩

theorem rel_merge_loop (off : U64) : ∀ {g h : Hasher}, SimH g h →
    Rel SimH (I.Hasher.merge_loop g off) (I.Hasher.merge_loop h off) := by
  intro g
  induction hn : g.subtree_hashes.length using Nat.strongRecOn generalizing g with
  | _ n ih =>
    intro h hs
    subst hn
    rw [I.Hasher.merge_loop, I.Hasher.merge_loop]
    refine Rel.ite (by unfold Hasher.needs_merge; rw [hs.1]) (fun _ _ => ?_) (fun _ _ => Rel.pure hs)
    have := rel_merge_parent hs
    obtain ⟨hl, hr⟩ := this
    split
    · rename_i e he
      split
      · rename_i e' he'
        rw [he, he'] at hr
        exact ⟨hl, hr⟩
      · rename_i l he'
        rw [he, he'] at hr
        exact hr.elim
    · rename_i l he
      split
      · rename_i e' he'
        rw [he, he'] at hr
        exact hr.elim
      · rename_i l' he'
        rw [he, he'] at hr
        have hlt := Model.Hasher.merge_parent_length (by rw [← I.Hasher.merge_parent_res]; exact he)
        obtain ⟨k1, k2⟩ := ih _ hlt rfl hr
        refine ⟨?_, k2⟩
        show List.map pub (_ ++ _) = List.map pub (_ ++ _)
        rw [List.map_append, List.map_append, hl, k1]

theorem rel_push_chunk_hash (off : U64) (a b : Vector Byte 32) {g h : Hasher} (hs : SimH g h) :
    Rel SimH (I.Hasher.push_chunk_hash g a off) (I.Hasher.push_chunk_hash h b off) := by
  unfold I.Hasher.push_chunk_hash
  refine Rel.bind (rel_merge_loop off hs) fun g h hs => ?_
  refine Rel.ite (by rw [hs.1]) (fun _ _ => ?_) (fun _ _ => Rel.error _)
  exact Rel.pure ⟨by simp only [List.length_cons, hs.1], hs.2⟩


set_option maxRecDepth 8000 in
theorem rel_push_hashes (cs : List Bytes) : ∀ (ds : List Bytes), SameLens cs ds → ∀ {g h : Hasher}, SimH g h →
    Rel SimH (I.Hasher.push_hashes cs g) (I.Hasher.push_hashes ds h) := by
  induction cs with
  | nil =>
    intro ds hd g h hs
    cases ds with
    | nil => exact Rel.pure hs
    | cons _ _ => cases hd
  | cons c cs ih =>
    intro ds hd g h hs
    cases ds with
    | nil => cases hd
    | cons d ds =>
      have h1 : c.length = d.length := by injection hd
      have h2 : SameLens cs ds := by injection hd
      rw [I.push_hashes_cons, I.push_hashes_cons, hs.2.1]
      refine Rel.liftBind (rel_arrayRef h1 _ _) fun _ _ _ => ?_
      refine Rel.bind (rel_push_chunk_hash _ _ _ hs) fun g h hs => ?_
      rw [hs.2.1]
      refine Rel.liftBind (rel_addU64 _ _) fun o _ e => ?_
      subst e
      exact ih ds h2 ⟨hs.1, rfl, hs.2.2⟩

theorem rel_update_loop (cfg : Config) (cs : List Bytes) : ∀ (ds : List Bytes), (∀ c ∈ cs, c.length = CHUNK_LEN) →
    (∀ d ∈ ds, d.length = CHUNK_LEN) → cs.length = ds.length → ∀ {out out' : Bytes}, SameLen out out' →
    ∀ {g h : Hasher}, SimH g h →
    Rel SimH (I.Hasher.update_loop cfg cs out g) (I.Hasher.update_loop cfg ds out' h) := by
  induction hn : cs.length using Nat.strongRecOn generalizing cs with
  | _ n ih =>
    intro ds hc hd hl out out' ho g h hs
    subst hn
    have tl : (cs.take (MAX_SIMD_DEGREE cfg)).length = (ds.take (MAX_SIMD_DEGREE cfg)).length := by
      simp only [List.length_take, hl]
    rw [I.Hasher.update_loop, I.Hasher.update_loop]
    by_cases k : cs.take (MAX_SIMD_DEGREE cfg) = []
    · rw [dif_pos k, dif_pos ((nil_iff tl).1 k)]
      exact Rel.pure hs
    · rw [dif_neg k, dif_neg (fun t => k ((nil_iff tl).2 t))]
      dsimp only
      have hs' := hs
      obtain ⟨-, h1, h2, h3, h4, h5⟩ := hs'
      rw [h1, h5, tl]
      refine Rel.bind (rel_hash_many _ CHUNK_LEN (by decide) _ _ _ _ _ _ _ _ _ _ _ _ (fun x hx => hc x (List.mem_of_mem_take hx))
        (fun x hx => hd x (List.mem_of_mem_take hx)) tl ho) fun o o' hoo => ?_
      refine Rel.bind (rel_push_hashes _ _ (sameLens_of OUT_LEN
        (fun x hx => mem_chunksExact OUT_LEN (by decide) _ x (List.mem_of_mem_take hx))
        (fun x hx => mem_chunksExact OUT_LEN (by decide) _ x (List.mem_of_mem_take hx))
        (by simp only [List.length_take, chunks_len OUT_LEN (by decide) hoo])) hs) fun g h hs => ?_
      have p1 : 0 < cs.length := by
        cases cs with
        | nil => exact absurd List.take_nil k
        | cons c cs => simp
      have p2 : 0 < MAX_SIMD_DEGREE cfg := by unfold MAX_SIMD_DEGREE; split <;> decide
      exact ih _ (by simp only [List.length_drop]; omega) _ rfl _ (fun x hx => hc x (List.mem_of_mem_drop hx))
        (fun x hx => hd x (List.mem_of_mem_drop hx)) (by simp only [List.length_drop, hl]) hoo hs

theorem rel_update_rest (cfg : Config) {x y : Bytes} (h : SameLen x y) {g h' : Hasher} (hs : SimH g h') :
    Rel SimH (I.Hasher.update_rest cfg g x) (I.Hasher.update_rest cfg h' y) := by
  unfold I.Hasher.update_rest
  dsimp only
  refine Rel.liftBind (rel_assert (by rw [hs.2.len])) fun _ _ _ => ?_
  refine Rel.bind (rel_update_loop cfg _ _ (mem_chunksExact _ (by decide) _) (mem_chunksExact _ (by decide) _)
    (chunks_len _ (by decide) h) rfl hs) fun g h'' hs => ?_
  refine Rel.liftBind (rel_assert (by rw [hs.2.len])) fun _ _ _ => ?_
  refine Rel.liftBind (rel_assert (by rw [rem_len _ h])) fun _ _ _ => ?_
  refine Rel.ite (not_nil_iff (rem_len _ h)) (fun _ _ => ?_) (fun _ _ => Rel.pure hs)
  rw [hs.2.1]
  refine Rel.bind (rel_merge_loop _ hs) fun g h'' hs => ?_
  refine Rel.bind (rel_chunk_update (rem_len _ h) hs.2) fun _ _ hc => ?_
  exact Rel.pure ⟨hs.1, hc⟩

set_option maxRecDepth 8000 in
theorem rel_update (cfg : Config) {x y : Bytes} (h : SameLen x y) {g h' : Hasher} (hs : SimH g h') :
    Rel SimH (I.Hasher.update cfg g x) (I.Hasher.update cfg h' y) := by
  unfold I.Hasher.update
  dsimp only
  have e1 := hs.2.1
  have e2 := hs.2.len
  have hl : x.length = y.length := h
  refine Rel.ite (by rw [e1, e2, hl]) (fun _ _ => ?_) (fun _ _ => rel_update_rest cfg h hs)
  rw [e2, hl]
  refine Rel.liftBind (RelR.refl _) fun w _ e => ?_
  subst e
  refine Rel.bind (rel_chunk_update (by show List.length _ = List.length _; simp only [List.length_take, hl]) hs.2) fun c c' hc => ?_
  have hd : SameLen (x.drop (min w y.length)) (y.drop (min w y.length)) := by
    show List.length _ = List.length _; simp only [List.length_drop, hl]
  refine Rel.ite (not_nil_iff hd) (fun _ _ => ?_) (fun _ _ => Rel.pure ⟨hs.1, hc⟩)
  refine Rel.liftBind (rel_assert (by rw [hc.len])) fun _ _ _ => ?_
  refine Rel.liftBind (rel_chunk_finalize hc _) fun _ _ ho => ?_
  refine Rel.bind (rel_to_hash ho) fun _ _ _ => ?_
  rw [hc.1]
  refine Rel.bind (rel_push_chunk_hash _ _ _ (g := { g with chunk := c }) (h := { h' with chunk := c' }) ⟨hs.1, hc⟩) fun g h'' hs => ?_
  rw [hs.2.1]
  refine Rel.liftBind (rel_addU64 _ _) fun o _ e => ?_
  subst e
  refine Rel.liftBind (rel_reset hs.2 _) fun _ _ hc => ?_
  exact rel_update_rest cfg hd ⟨hs.1, hc⟩

theorem rel_finalize_loop {g h : Hasher} (hs : SimH g h) (S : List (Vector Byte 32)) : ∀ (S' : List (Vector Byte 32)) (w w' : Vector Byte 32),
    S.length = S'.length → Rel SimO (I.Hasher.finalize_loop g w S) (I.Hasher.finalize_loop h w' S') := by
  induction S with
  | nil =>
    intro S' w w' e
    cases S' with
    | nil => exact Rel.error _
    | cons _ _ => cases e
  | cons s S ih =>
    intro S' w w' e
    cases S' with
    | nil => cases e
    | cons s' S' =>
      simp only [List.length_cons, Nat.add_right_cancel_iff] at e
      have f1 := hs.2.2.2.2.1
      have f2 := hs.2.2.2.2.2
      cases S with
      | nil =>
        cases S' with
        | nil =>
          rw [I.Hasher.finalize_loop, I.Hasher.finalize_loop, f2]
          exact Rel.pure (sim_parent _ _ _ _ _ _ _ f1 _)
        | cons _ _ => cases e
      | cons t S =>
        cases S' with
        | nil => cases e
        | cons t' S' =>
          rw [I.Hasher.finalize_loop, I.Hasher.finalize_loop, f2]
          · refine Rel.bind (rel_to_hash (sim_parent _ _ _ _ _ _ _ f1 _)) fun a b _ => ?_
            exact ih _ _ _ e
          · simp
          · simp

theorem rel_finalize_xof {g h : Hasher} (hs : SimH g h) : Rel SimO (I.Hasher.finalize_xof g) (I.Hasher.finalize_xof h) := by
  unfold I.Hasher.finalize_xof
  refine Rel.ite (nil_iff hs.1) (fun _ _ => Rel.lift (rel_chunk_finalize hs.2 _)) (fun _ _ => ?_)
  refine Rel.ite (by rw [hs.2.len]) (fun _ _ => ?_) (fun _ _ => ?_)
  · refine Rel.liftBind (rel_assert (by unfold Hasher.needs_merge; rw [hs.1, hs.2.1])) fun _ _ _ => ?_
    refine Rel.liftBind (rel_chunk_finalize hs.2 _) fun _ _ ho => ?_
    refine Rel.bind (rel_to_hash ho) fun _ _ _ => ?_
    exact rel_finalize_loop hs _ _ _ _ hs.1
  · refine Rel.liftBind (rel_assert (by rw [hs.1])) fun _ _ _ => ?_
    have e := hs.1
    rcases e1 : g.subtree_hashes with _ | ⟨a, l⟩ <;> rcases e2 : h.subtree_hashes with _ | ⟨a', l'⟩ <;> rw [e1, e2] at e
    · exact Rel.error _
    · cases e
    · cases e
    · simp only [List.length_cons, Nat.add_right_cancel_iff] at e
      exact rel_finalize_loop hs _ _ _ _ e

theorem rel_session (cfg : Config) (prof : Profile) {cs ds : List HCall} (hc : SameCalls cs ds) : ∀ {g h : Hasher}, SimH g h →
    Rel Any (I.Hasher.session cfg prof cs g) (I.Hasher.session cfg prof ds h) := by
  induction hc with
  | nil => intro g h hs; exact Rel.pure trivial
  | cons h1 h2 ih =>
    intro g h hs
    cases h1 with
    | update s t e => exact Rel.bind (rel_update cfg e hs) fun _ _ hs => ih hs
    | output os =>
      refine Rel.bind (rel_finalize_xof hs) fun _ _ ho => ?_
      refine Rel.bind (rel_run prof os ho) fun _ _ _ => ?_
      exact Rel.bind (ih hs) fun _ _ _ => Rel.pure trivial

theorem rel_oneShotRun (cfg : Config) (prof : Profile) (m m' : Spec.Mode) {x y : Bytes} (h : SameLen x y)
    (os : List OutCall) : Rel Any (I.oneShotRun cfg prof m x os) (I.oneShotRun cfg prof m' y os) := by
  have e : Rel SimO (I.oneShotXof cfg m x) (I.oneShotXof cfg m' y) := by
    cases m <;> cases m' <;> exact rel_hash_internal cfg (by unfold Low; decide) _ _ h
  unfold I.oneShotRun
  refine Rel.bind e fun _ _ ho => ?_
  exact Rel.bind (rel_run prof os ho) fun _ _ _ => Rel.pure trivial

end Baokeshed.Proofs.Perf
