import Verif.Model.Par
import Verif.Proofs.Trace
import Verif.Proofs.Depth
import Verif.Proofs.Rayon

/-! # Work and span of the one-shot functions with the `rayon` feature -/

set_option linter.unusedVariables false
set_option linter.unusedSimpArgs false

namespace Baokeshed.Proofs.P
open Baokeshed.Model Baokeshed.Model.P Baokeshed.Model.T Baokeshed.Proofs Baokeshed.Proofs.T
open Baokeshed.Spec (Work)

/-! ## Same results, same compressions -/

/-- the same result and, if there is one, the same compressions -/
def Same {α} (x : PR α) (y : TR α) : Prop :=
  x.res = y.res ∧ ∀ a, y.res = .ok a → x.work.all = y.log

theorem same_bind {α β} {x : PR α} {y : TR α} {f : α → PR β} {g : α → TR β} (h : Same x y)
    (hf : ∀ a, Same (f a) (g a)) : Same (x >>= f) (y >>= g) := by
  obtain ⟨rx, wx⟩ := x
  obtain ⟨ry, ly⟩ := y
  obtain ⟨h1, h2⟩ := h
  dsimp only at h1 h2
  subst h1
  cases rx with
  | error e => exact ⟨rfl, fun a h => by cases h⟩
  | ok a =>
    refine ⟨(hf a).1, fun b hb => ?_⟩
    show wx.all ++ (f a).work.all = ly ++ (g a).log
    rw [h2 a rfl, (hf a).2 b hb]

theorem same_tr {α} (y : TR α) : Same (liftM y : PR α) y := ⟨rfl, fun _ _ => rfl⟩

theorem same_r {α} (r : R α) : Same (liftM r : PR α) (liftM r : TR α) := ⟨rfl, fun _ _ => rfl⟩

theorem same_pure {α} (a : α) : Same (pure a : PR α) (pure a : TR α) := ⟨rfl, fun _ _ => rfl⟩

theorem same_join {α β γ} {x : PR α} {y : TR α} {x' : PR β} {y' : TR β} {f : α × β → PR γ} {g : α → β → TR γ}
    (h : Same x y) (h' : Same x' y') (hf : ∀ a b, Same (f (a, b)) (g a b)) :
    Same (P.join x x' >>= f) (y >>= fun a => y' >>= fun b => g a b) := by
  obtain ⟨rx, wx⟩ := x
  obtain ⟨rx', wx'⟩ := x'
  obtain ⟨ry, ly⟩ := y
  obtain ⟨ry', ly'⟩ := y'
  obtain ⟨h1, h2⟩ := h
  obtain ⟨h1', h2'⟩ := h'
  dsimp only at h1 h2 h1' h2'
  subst h1 h1'
  cases rx with
  | error e => exact ⟨rfl, fun a h => by cases h⟩
  | ok a =>
    cases rx' with
    | error e => exact ⟨rfl, fun a h => by cases h⟩
    | ok b =>
      refine ⟨(hf a b).1, fun c hc => ?_⟩
      show (wx.all ++ wx'.all) ++ (f (a, b)).work.all = ly ++ (ly' ++ (g a b).log)
      rw [h2 a rfl, h2' b rfl, (hf a b).2 c hc, List.append_assoc]

theorem hash_recurse_same (cfg : Config) (key : Vector Word 8) (flags : Byte) (p : Platform) (input : Bytes) :
    ∀ (off : U64) (out : Bytes),
    Same (P.hash_recurse cfg input key off flags p out) (T.hash_recurse cfg input key off flags p out) := by
  induction hn : input.length using Nat.strongRecOn generalizing input with
  | ind n ih =>
  subst hn
  intro off out
  rw [P.hash_recurse, T.hash_recurse]
  split
  · exact same_tr _
  · split
    next e he =>
      split
      next e' he' => rw [he] at he'; cases he'; exact ⟨rfl, fun a h => by cases h⟩
      next l he' => rw [he] at he'; cases he'
    next l he =>
      split
      next e' he' => rw [he] at he'; cases he'
      next l' he' =>
        rw [he] at he'; obtain rfl := Except.ok.inj he'
        have h1 := left_len_lt he
        have h2 := left_len_pos he
        dsimp only
        refine same_bind (same_r _) fun ro => same_bind (same_r _) fun _ => same_bind (same_r _) fun s => ?_
        obtain ⟨lo, rt⟩ := s
        refine same_join (ih (input.take l).length (by rw [List.length_take]; omega) _ rfl _ _)
          (ih (input.drop l).length (by rw [List.length_drop]; omega) _ rfl _ _) fun a b => ?_
        obtain ⟨ln, lo⟩ := a
        obtain ⟨rn, ro'⟩ := b
        dsimp only
        refine same_bind (same_r _) fun _ => same_bind (same_r _) fun _ => ?_
        split
        · exact same_bind (same_r _) fun _ => same_bind (same_r _) fun _ => same_pure _
        · exact same_bind (same_r _) fun _ => same_tr _

theorem hash_internal_same (cfg : Config) (input : Bytes) (key : Vector Word 8) (flags : Byte) :
    Same (P.hash_internal cfg input key flags) (T.hash_internal cfg input key flags) := by
  rw [P.hash_internal, T.hash_internal]
  dsimp only
  split
  · exact same_tr _
  · exact same_bind (hash_recurse_same ..) fun _ => same_bind (same_r _) fun _ => same_tr _

theorem oneShotXof_same (cfg : Config) (m : Spec.Mode) (input : Bytes) :
    Same (P.oneShotXof cfg m input) (T.oneShotXof cfg m input) := by
  cases m <;> exact hash_internal_same ..

theorem oneShot_same (cfg : Config) (m : Spec.Mode) (input : Bytes) :
    Same (P.oneShot cfg m input) (T.oneShot cfg m input) :=
  same_bind (oneShotXof_same ..) fun _ => same_tr _

/-! ## Numbers of compressions of the sequential parts -/

theorem len_bind {α β : Type} {a b c : Nat} {x : TR α} {f : α → TR β} (hx : x.log.length ≤ a)
    (hc : a + b ≤ c) (hf : ∀ v, x.res = .ok v → (f v).log.length ≤ b) : (x >>= f).log.length ≤ c := by
  obtain ⟨r, l⟩ := x
  cases r with
  | error e => exact Nat.le_trans hx (by omega)
  | ok v =>
    have := hf v rfl
    show (l ++ (f v).log).length ≤ c
    rw [List.length_append]
    dsimp only at hx
    omega

theorem len_lift {α β : Type} {b : Nat} {r : R α} {f : α → TR β} (hf : ∀ v, r = .ok v → (f v).log.length ≤ b) :
    ((liftM r : TR α) >>= f).log.length ≤ b :=
  len_bind (a := 0) (Nat.le_refl 0) (by omega) fun v h => hf v h

theorem loopCalls_len (fl fe : Byte) (off : U64) (cv : Vector Word 8) (bf : Byte) (s : Bytes) :
    (T.hash1_loop fl fe off cv bf s).log.length ≤ s.length / 64 := by
  induction hn : s.length using Nat.strongRecOn generalizing s cv bf with
  | ind n ih =>
    subst hn
    rw [T.hash1_loop]
    split
    next h =>
      have h' : 64 ≤ s.length := h
      refine len_lift fun b _ => len_bind (a := 1) (b := (s.drop 64).length / 64) (Nat.le_refl 1)
        (by rw [List.length_drop]; omega) fun v _ => ?_
      exact ih _ (by rw [List.length_drop]; omega) _ _ _ rfl
    next => exact Nat.zero_le _

theorem hash1_len (x : Bytes) (key : Vector Word 8) (off : U64) (f fs fe : Byte) :
    (T.hash1 x key off f fs fe).log.length ≤ x.length / 64 := by
  rw [T.hash1]
  exact len_lift fun _ _ => len_bind (b := 0) (loopCalls_len ..) (Nat.le_refl _) fun _ _ => Nat.le_refl 0

theorem hash_many_len (p : Platform) (cap : Nat) (xs : List Bytes) (key : Vector Word 8) (o d : U64) (f fs fe : Byte)
    (out : Bytes) (b : Nat) (hx : ∀ x ∈ xs, x.length = 64 * b) :
    (T.hash_many p cap xs key o d f fs fe out).log.length ≤ b * xs.length := by
  rw [T.hash_many, T.hash_many_portable]
  refine len_lift fun u hu => ?_
  clear hu u
  induction xs generalizing o out with
  | nil => exact Nat.zero_le _
  | cons x xs ih =>
    rw [T.hash_many_loop]
    split
    · exact Nat.zero_le _
    · refine len_bind (b := b * xs.length) (hash1_len ..) ?_ fun h _ => ?_
      · have := hx x (List.mem_cons_self ..)
        rw [List.length_cons, Nat.mul_succ]; omega
      · refine len_lift fun o' _ => len_bind (b := 0) (ih _ _ fun y hy => hx y (List.mem_cons_of_mem _ hy)) (by omega) fun _ _ => Nat.le_refl 0

theorem hash_one_chunk_loop_len (p : Platform) (chunk : Bytes) (off : U64) (r : IsRoot) (flags : Byte)
    (cv : Vector Word 8) (bf : Byte) (bo : Nat) :
    (T.hash_one_chunk_loop p chunk off r flags cv bf bo).log.length ≤ (chunk.length - bo - 1) / 64 := by
  induction hn : chunk.length - bo using Nat.strongRecOn generalizing cv bf bo with
  | ind n ih =>
  rw [T.hash_one_chunk_loop]
  split
  next h =>
    simp only [BLOCK_LEN] at h ⊢
    split
    · exact Nat.le_trans (len_lift (b := 0) fun _ _ => Nat.le_refl 0) (Nat.zero_le _)
    · refine len_lift fun b _ => len_bind (a := 1) (b := (chunk.length - (bo + 64) - 1) / 64) (Nat.le_refl 1) (by omega) fun v _ => ?_
      exact ih _ (by omega) _ _ _ rfl
  next h =>
    exact Nat.le_trans (len_lift (b := 0) fun _ _ => len_lift fun _ _ => len_lift fun _ _ => Nat.le_refl 0) (Nat.zero_le _)

theorem hash_one_chunk_len (chunk : Bytes) (key : Vector Word 8) (off : U64) (r : IsRoot) (flags : Byte) (p : Platform) :
    (T.hash_one_chunk chunk key off r flags p).log.length ≤ (chunk.length - 1) / 64 := by
  rw [T.hash_one_chunk]
  exact len_lift fun _ _ => hash_one_chunk_loop_len ..

theorem hash_chunks_parallel_len (cfg : Config) (input : Bytes) (key : Vector Word 8) (off : U64) (flags : Byte)
    (p : Platform) (out : Bytes) :
    (T.hash_chunks_parallel cfg input key off flags p out).log.length ≤ (input.length + 63) / 64 := by
  have hl := length_chunksExact 2048 (by decide) input
  have hm := mem_chunksExact 2048 (by decide) input
  have hrl : (chunksRemainder 2048 input).length = input.length % 2048 := by
    rw [chunksRemainder, List.length_drop]; omega
  rw [T.hash_chunks_parallel]
  refine len_lift fun _ _ => len_lift fun _ _ => len_lift fun _ _ => len_lift fun xs hxs => ?_
  rw [pushAll] at hxs
  split at hxs
  · cases hxs
    refine len_bind (b := ((chunksRemainder 2048 input).length + 63) / 64)
      (hash_many_len _ _ _ _ _ _ _ _ _ _ 32 fun x hx => (hm x hx)) ?_ fun o _ => ?_
    · simp only [CHUNK_LEN]; omega
    · dsimp only
      split
      next hne =>
        have hp : 0 < (chunksRemainder 2048 input).length := List.length_pos_iff.2 hne
        refine len_lift fun _ _ => len_lift fun _ _ => len_bind (b := 1) (hash_one_chunk_len ..)
          (by simp only [CHUNK_LEN]; omega) fun _ _ => ?_
        exact len_bind (a := 1) (b := 0) (Nat.le_refl 1) (by omega) fun _ _ => len_lift fun _ _ => Nat.le_refl 0
      next => exact Nat.zero_le _
  · cases hxs

theorem hash_parents_parallel_len (cfg : Config) (cs : Bytes) (key : Vector Word 8) (flags : Byte) (p : Platform)
    (out : Bytes) : (T.hash_parents_parallel cfg cs key flags p out).log.length ≤ cs.length / 64 := by
  have hl := length_chunksExact 64 (by decide) cs
  have hm := mem_chunksExact 64 (by decide) cs
  rw [T.hash_parents_parallel]
  refine len_lift fun _ _ => ?_
  dsimp only
  refine len_lift fun _ _ => len_lift fun _ _ => len_lift fun xs hxs => ?_
  rw [pushAll] at hxs
  split at hxs
  · cases hxs
    refine len_bind (b := 0) (hash_many_len _ _ _ _ _ _ _ _ _ _ 1 fun x hx => (hm x hx)) ?_ fun o _ => ?_
    · simp only [BLOCK_LEN]; omega
    · split
      · exact len_lift fun _ _ => len_lift fun _ _ => Nat.le_refl 0
      · exact Nat.le_refl 0
  · cases hxs

/-- the number of hashes returned -/
theorem hash_parents_parallel_n {cfg : Config} {cs : Bytes} {key : Vector Word 8} {flags : Byte} {p : Platform}
    {out out' : Bytes} {n : Nat} (h : Model.hash_parents_parallel cfg cs key flags p out = .ok (n, out')) :
    n = (cs.length / 32 + 1) / 2 := by
  have hl := length_chunksExact 64 (by decide) cs
  have hrl : (chunksRemainder 64 cs).length = cs.length % 64 := by
    rw [chunksRemainder, List.length_drop]; omega
  rw [Model.hash_parents_parallel] at h
  obtain ⟨_, a1, h⟩ := bind_eq_ok h
  dsimp only at h
  obtain ⟨_, -, h⟩ := bind_eq_ok h
  obtain ⟨_, -, h⟩ := bind_eq_ok h
  obtain ⟨xs, hxs, h⟩ := bind_eq_ok h
  obtain ⟨o, -, h⟩ := bind_eq_ok h
  rw [assertR] at a1
  split at a1
  next hm =>
    rw [pushAll] at hxs
    split at hxs
    · cases hxs
      simp only [OUT_LEN, BLOCK_LEN] at *
      split at h
      next hne =>
        have hp : 0 < (chunksRemainder 64 cs).length := List.length_pos_iff.2 hne
        obtain ⟨_, -, h⟩ := bind_eq_ok h
        obtain ⟨o', -, h⟩ := bind_eq_ok h
        cases h
        omega
      next hne =>
        have hp : (chunksRemainder 64 cs).length = 0 := by rw [Classical.not_not.1 hne]; rfl
        cases h
        omega
    · cases hxs
  · cases a1

theorem condense_loop_len (cfg : Config) (key : Vector Word 8) (flags : Byte) (p : Platform) (n : Nat) :
    ∀ (cs out : Bytes), cs.length % 32 = 0 → 64 ≤ cs.length →
    (T.condense_loop cfg key flags p n cs out).log.length ≤ cs.length / 32 - 2 := by
  induction n with
  | zero => intro cs out _ _; exact Nat.zero_le _
  | succ n ih =>
    intro cs out h h2
    rw [T.condense_loop]
    split
    next hc =>
      simp only [BLOCK_LEN] at hc
      refine len_bind (b := (cs.length / 32 + 1) / 2 - 2) (hash_parents_parallel_len ..) (by omega) fun r hr => ?_
      obtain ⟨k, o⟩ := r
      rw [hash_parents_parallel_res] at hr
      have hk := hash_parents_parallel_n hr
      dsimp only
      refine len_lift fun o1 h1 => len_lift fun cs1 h3 => len_lift fun cs2 h4 => ?_
      rw [sliceTo] at h4
      split at h4
      next hle =>
        cases h4
        simp only [OUT_LEN] at hle ⊢
        have hlen : (cs1.take (k * 32)).length = 32 * k := by rw [List.length_take]; omega
        refine Nat.le_trans (ih _ _ (by rw [hlen]; omega) (by rw [hlen]; omega)) (by rw [hlen]; omega)
      next => cases h4
    next => exact Nat.zero_le _

theorem condense_root_len (cfg : Config) (cs : Bytes) (key : Vector Word 8) (flags : Byte) (p : Platform) :
    (T.condense_root cfg cs key flags p).log.length ≤ cs.length / 32 - 2 := by
  rw [T.condense_root]
  refine len_lift fun _ h1 => len_lift fun _ h2 => ?_
  rw [assertR] at h1 h2
  split at h1
  next h1' =>
    split at h2
    next h2' =>
      dsimp only
      exact len_bind (b := 0) (condense_loop_len _ _ _ _ _ _ _ h1' h2') (by omega) fun _ _ => len_lift fun _ _ => Nat.le_refl 0
    next => cases h2
  next => cases h1

/-! ## Span -/

theorem span_bind {α β : Type} {a b c : Nat} {x : PR α} {f : α → PR β} (hx : x.work.span ≤ a)
    (hc : a + b ≤ c) (hf : ∀ v, x.res = .ok v → (f v).work.span ≤ b) : (x >>= f).work.span ≤ c := by
  obtain ⟨r, w⟩ := x
  cases r with
  | error e => exact Nat.le_trans hx (by omega)
  | ok v =>
    have := hf v rfl
    show w.span + (f v).work.span ≤ c
    dsimp only at hx
    omega

theorem span_lift {α β : Type} {b : Nat} {r : R α} {f : α → PR β} (hf : ∀ v, r = .ok v → (f v).work.span ≤ b) :
    ((liftM r : PR α) >>= f).work.span ≤ b :=
  span_bind (a := 0) (Nat.le_refl 0) (by omega) fun v h => hf v h

theorem join_ok {α β : Type} {x : PR α} {y : PR β} {v : α × β} (h : (P.join x y).res = .ok v) :
    x.res = .ok v.1 ∧ y.res = .ok v.2 := by
  obtain ⟨a, e1, h⟩ := bind_eq_ok h
  obtain ⟨b, e2, h⟩ := bind_eq_ok h
  cases h
  exact ⟨e1, e2⟩

theorem assert_ok {c : Prop} [Decidable c] {u : Unit} (h : assertR c = .ok u) : c := by
  rw [assertR] at h
  split at h
  · assumption
  · cases h

theorem hash_recurse_span (cfg : Config) (key : Vector Word 8) (flags : Byte) (p : Platform) (L : Nat) :
    ∀ (input : Bytes) (off : U64) (out : Bytes), input.length < 2 ^ cfg.usizeBits →
    input.length ≤ p.simd_degree * 2048 * 2 ^ L →
    (P.hash_recurse cfg input key off flags p out).work.span ≤ 32 * p.simd_degree + max p.simd_degree 2 * L := by
  obtain ⟨j, hj, -⟩ := simd_pow p
  have leaf : ∀ (L : Nat) (input : Bytes) (off : U64) (out : Bytes), input.length ≤ p.simd_degree * CHUNK_LEN →
      (P.hash_recurse cfg input key off flags p out).work.span ≤ 32 * p.simd_degree + max p.simd_degree 2 * L := by
    intro L input off out h
    rw [P.hash_recurse, if_pos h]
    refine Nat.le_trans (hash_chunks_parallel_len ..) ?_
    simp only [CHUNK_LEN] at h
    omega
  induction L with
  | zero =>
    intro input off out hw h
    exact leaf _ _ _ _ (by simpa using h)
  | succ L ih =>
    intro input off out hw h
    by_cases hl : input.length ≤ p.simd_degree * CHUNK_LEN
    · exact leaf _ _ _ _ hl
    · rw [P.hash_recurse, if_neg hl]
      have hl' : 2 ^ j * 2048 < input.length := by rw [← hj]; simp only [CHUNK_LEN] at hl; omega
      have hjp := Nat.two_pow_pos j
      have hcl : CHUNK_LEN < input.length := by simp only [CHUNK_LEN]; omega
      obtain ⟨p1, p2⟩ := parts_le hl' (by rw [← hj]; exact h)
      rw [← hj] at p1 p2
      split
      next e he => exact Nat.zero_le _
      next l he =>
        rw [left_len_eq hcl hw] at he
        obtain rfl := Except.ok.inj he
        dsimp only
        refine span_lift fun ro _ => span_lift fun _ _ => span_lift fun s _ => ?_
        obtain ⟨lo, rt⟩ := s
        dsimp only
        refine span_bind (a := 32 * p.simd_degree + max p.simd_degree 2 * L) (b := max p.simd_degree 2) ?_
          (by rw [Nat.mul_succ]; omega) fun r hr => ?_
        · exact Nat.max_le.2 ⟨ih _ _ _ (by rw [List.length_take]; omega) (by rw [List.length_take]; omega),
            ih _ _ _ (by rw [List.length_drop]; omega) (by rw [List.length_drop]; omega)⟩
        · obtain ⟨⟨ln, lo⟩, ⟨rn, ro'⟩⟩ := r
          dsimp only
          refine span_lift fun _ h1 => span_lift fun _ h2 => ?_
          have h1 := assert_ok h1
          have h2 := assert_ok h2
          split
          · exact span_lift fun _ _ => span_lift fun _ _ => Nat.zero_le _
          · refine span_lift fun c hc => Nat.le_trans (hash_parents_parallel_len ..) ?_
            rw [sliceTo] at hc
            split at hc
            · cases hc
              have : ln ≤ max p.simd_degree 2 := by
                rw [h1]; split <;> omega
              rw [List.length_take]
              simp only [OUT_LEN]
              omega
            · cases hc

theorem hash_internal_span (cfg : Config) (key : Vector Word 8) (flags : Byte) (L : Nat) (input : Bytes)
    (hw : input.length < 2 ^ cfg.usizeBits) (h64 : input.length < 2 ^ 64)
    (h : input.length ≤ (Platform.detect cfg).simd_degree * 2048 * 2 ^ L) :
    (P.hash_internal cfg input key flags).work.span + 1 ≤
      32 * (Platform.detect cfg).simd_degree + max (Platform.detect cfg).simd_degree 2 * (L + 1) := by
  obtain ⟨j, hj, -⟩ := simd_pow (Platform.detect cfg)
  have hjp := Nat.two_pow_pos j
  rw [P.hash_internal]
  dsimp only
  split
  next hs =>
    have : (P.PR.work (liftM (T.hash_one_chunk input key 0 .root flags (Platform.detect cfg)))).span ≤ (input.length - 1) / 64 :=
      hash_one_chunk_len ..
    simp only [CHUNK_LEN] at hs
    rw [Nat.mul_succ]
    omega
  next hs =>
    simp only [CHUNK_LEN] at hs
    have hor := or_2_ge cfg _ (detect_le cfg)
    obtain ⟨ts, hT, e⟩ := hash_recurse_eq key flags cfg (Platform.detect cfg) (detect_le cfg) input 0
      (List.replicate (MAX_SIMD_DEGREE_OR_2 cfg * OUT_LEN) 0) (by rintro rfl; simp at hs) rfl (by omega) hw
      (by rw [List.length_replicate]; simp only [OUT_LEN]; omega)
    have hTle := hT.le
    have h2 := hT.two (by unfold nChunks; omega)
    have hs := hash_recurse_same cfg key flags (Platform.detect cfg) input 0
      (List.replicate (MAX_SIMD_DEGREE_OR_2 cfg * OUT_LEN) 0)
    have hsp := hash_recurse_span cfg key flags (Platform.detect cfg) L input 0
      (List.replicate (MAX_SIMD_DEGREE_OR_2 cfg * OUT_LEN) 0) hw h
    have key' : ∀ x : PR Output, x.work.span ≤ 32 * (Platform.detect cfg).simd_degree +
        max (Platform.detect cfg).simd_degree 2 * L + (max (Platform.detect cfg).simd_degree 2 - 2) →
        x.work.span + 1 ≤ 32 * (Platform.detect cfg).simd_degree + max (Platform.detect cfg).simd_degree 2 * (L + 1) := by
      intro x hx
      rw [Nat.mul_succ]
      omega
    apply key'
    refine span_bind (b := max (Platform.detect cfg).simd_degree 2 - 2) hsp (Nat.le_refl _) fun r hr => ?_
    rw [hs.1, T.hash_recurse_res] at hr
    obtain ⟨k, o⟩ := r
    have hr' := hr.symm.trans e
    obtain rfl : k = ts.length := by injection hr' with h; injection h
    dsimp only
    refine span_lift fun c hc => Nat.le_trans (condense_root_len ..) ?_
    rw [sliceTo] at hc
    split at hc
    · cases hc
      rw [List.length_take]
      simp only [OUT_LEN]
      omega
    · cases hc

theorem oneShot_span (cfg : Config) (m : Spec.Mode) (L : Nat) (input : Bytes)
    (hw : input.length < 2 ^ cfg.usizeBits) (h64 : input.length < 2 ^ 64)
    (h : input.length ≤ (Platform.detect cfg).simd_degree * 2048 * 2 ^ L) :
    (P.oneShot cfg m input).work.span ≤
      32 * (Platform.detect cfg).simd_degree + max (Platform.detect cfg).simd_degree 2 * (L + 1) := by
  have hx : (P.oneShotXof cfg m input).work.span + 1 ≤
      32 * (Platform.detect cfg).simd_degree + max (Platform.detect cfg).simd_degree 2 * (L + 1) := by
    cases m <;> exact hash_internal_span _ _ _ L _ hw h64 h
  rw [P.oneShot]
  exact span_bind (b := 1) (Nat.le_refl _) hx fun _ _ => Nat.le_refl 1

end Baokeshed.Proofs.P
