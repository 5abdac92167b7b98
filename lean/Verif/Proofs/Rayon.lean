import Verif.Model.Rayon
import Verif.Proofs.Lib

/-! # Schedules do not matter: used by Props/Rayon.lean -/

set_option linter.unusedVariables false

namespace Baokeshed.Proofs
open Baokeshed.Model Baokeshed.Model.Par

/-! ## Sequential runs -/

/-- the sequential run: result, memory, number of steps -/
def Par.run : Proc → Mem → R Nat × Mem × Nat
  | .done r, m => (r, m, 0)
  | .read b i k, m => match m b i with
    | some v => let x := Par.run (k v) m; (x.1, x.2.1, x.2.2 + 1)
    | none => (.error .ub, m, 1)
  | .write b i v k, m => match m b i with
    | some _ => let x := Par.run k (m.set b i v); (x.1, x.2.1, x.2.2 + 1)
    | none => (.error .ub, m, 1)
  | .alloc b init k, m => let x := Par.run k (m.alloc b init); (x.1, x.2.1, x.2.2 + 1)
  | .join l r k, m =>
    let x := Par.run l m
    let y := Par.run r x.2.1
    match x.1, y.1 with
    | .ok a, .ok b => let z := Par.run (k a b) y.2.1; (z.1, z.2.1, x.2.2 + y.2.2 + z.2.2 + 1)
    | .error e, _ => (.error e, y.2.1, 0)
    | .ok _, .error e => (.error e, y.2.1, 0)

/-- a set of bytes in memory -/
abbrev Foot := Buf → Nat → Prop

/-- The process only touches bytes in `F`, and the sides of every `join` touch different bytes. -/
def Sep : Foot → Proc → Prop
  | _, .done _ => True
  | F, .read b i k => F b i ∧ ∀ v, Sep F (k v)
  | F, .write b i _ k => F b i ∧ Sep F k
  | F, .alloc b _ k => (∀ i, F b i) ∧ Sep F k
  | F, .join l r k => ∃ F1 F2 : Foot, (∀ b i, F1 b i → F b i) ∧ (∀ b i, F2 b i → F b i) ∧
      (∀ b i, F1 b i → ¬ F2 b i) ∧ Sep F1 l ∧ Sep F2 r ∧ ∀ x y, Sep F (k x y)

/-- equal on `F` -/
def Agree (F : Foot) (m m' : Mem) : Prop := ∀ b i, F b i → m b i = m' b i

theorem set_agree {F : Foot} {m m' : Mem} (h : Agree F m m') (b : Buf) (i : Nat) (v : Byte) :
    Agree F (m.set b i v) (m'.set b i v) := by
  intro c j hc
  unfold Mem.set
  split
  · rfl
  · exact h c j hc

theorem alloc_agree {F : Foot} {m m' : Mem} (h : Agree F m m') (b : Buf) (init : Bytes) :
    Agree F (m.alloc b init) (m'.alloc b init) := by
  intro c j hc
  unfold Mem.alloc
  split
  · rfl
  · exact h c j hc

theorem set_out {F : Foot} (m : Mem) {b : Buf} {i : Nat} (v : Byte) (hb : F b i) {c : Buf} {j : Nat} (h : ¬ F c j) :
    m.set b i v c j = m c j := by
  unfold Mem.set
  rw [if_neg]
  rintro ⟨rfl, rfl⟩
  exact h hb

theorem alloc_out {F : Foot} (m : Mem) {b : Buf} (init : Bytes) (hb : ∀ i, F b i) {c : Buf} {j : Nat} (h : ¬ F c j) :
    m.alloc b init c j = m c j := by
  unfold Mem.alloc
  rw [if_neg]
  rintro rfl
  exact h (hb j)

/-- A run depends only on, and changes only, the bytes of its footprint. -/
theorem run_frame (P : Proc) : ∀ (F : Foot) (m m' : Mem), Sep F P → Agree F m m' →
    (Par.run P m).1 = (Par.run P m').1 ∧ (Par.run P m).2.2 = (Par.run P m').2.2 ∧
    Agree F (Par.run P m).2.1 (Par.run P m').2.1 ∧ ∀ b i, ¬ F b i → (Par.run P m).2.1 b i = m b i := by
  induction P with
  | done r => intro F m m' _ h; exact ⟨rfl, rfl, h, fun _ _ _ => rfl⟩
  | read b i k ih =>
    intro F m m' hs h
    rw [Par.run, Par.run, ← h b i hs.1]
    cases hm : m b i with
    | none => exact ⟨rfl, rfl, h, fun _ _ _ => rfl⟩
    | some v =>
      obtain ⟨h1, h2, h3, h4⟩ := ih v F m m' (hs.2 v) h
      exact ⟨h1, congrArg (· + 1) h2, h3, h4⟩
  | write b i v k ih =>
    intro F m m' hs h
    rw [Par.run, Par.run, ← h b i hs.1]
    cases hm : m b i with
    | none => exact ⟨rfl, rfl, h, fun _ _ _ => rfl⟩
    | some w =>
      obtain ⟨h1, h2, h3, h4⟩ := ih F _ _ hs.2 (set_agree h b i v)
      exact ⟨h1, congrArg (· + 1) h2, h3, fun c j hc => (h4 c j hc).trans (set_out m v hs.1 hc)⟩
  | alloc b init k ih =>
    intro F m m' hs h
    rw [Par.run, Par.run]
    obtain ⟨h1, h2, h3, h4⟩ := ih F _ _ hs.2 (alloc_agree h b init)
    exact ⟨h1, congrArg (· + 1) h2, h3, fun c j hc => (h4 c j hc).trans (alloc_out m init hs.1 hc)⟩
  | join l r k ihl ihr ihk =>
    intro F m m' hs h
    obtain ⟨F1, F2, hs1, hs2, hd, hl, hr, hk⟩ := hs
    obtain ⟨l1, l2, l3, l4⟩ := ihl F1 m m' hl (fun b i hb => h b i (hs1 b i hb))
    obtain ⟨-, -, -, l4'⟩ := ihl F1 m' m hl (fun b i hb => (h b i (hs1 b i hb)).symm)
    have hA : Agree F (Par.run l m).2.1 (Par.run l m').2.1 := by
      intro b i hb
      by_cases hf : F1 b i
      · exact l3 b i hf
      · rw [l4 b i hf, l4' b i hf, h b i hb]
    obtain ⟨r1, r2, r3, r4⟩ := ihr F2 _ _ hr (fun b i hb => hA b i (hs2 b i hb))
    obtain ⟨-, -, -, r4'⟩ := ihr F2 _ _ hr (fun b i hb => (hA b i (hs2 b i hb)).symm)
    have hB : Agree F (Par.run r (Par.run l m).2.1).2.1 (Par.run r (Par.run l m').2.1).2.1 := by
      intro b i hb
      by_cases hf : F2 b i
      · exact r3 b i hf
      · rw [r4 b i hf, r4' b i hf, hA b i hb]
    have hO : ∀ b i, ¬ F b i → (Par.run r (Par.run l m).2.1).2.1 b i = m b i := by
      intro b i hb
      rw [r4 b i (fun h => hb (hs2 b i h)), l4 b i (fun h => hb (hs1 b i h))]
    rw [Par.run, Par.run]
    dsimp only
    rw [← l1, ← r1, ← l2, ← r2]
    cases h1 : (Par.run l m).1 with
    | error e => exact ⟨rfl, rfl, hB, hO⟩
    | ok a =>
      cases h2 : (Par.run r (Par.run l m).2.1).1 with
      | error e => exact ⟨rfl, rfl, hB, hO⟩
      | ok b =>
        obtain ⟨k1, k2, k3, k4⟩ := ihk a b F _ _ (hk a b) hB
        exact ⟨k1, by dsimp only; rw [k2], k3, fun c j hc => (k4 c j hc).trans (hO c j hc)⟩

theorem run_ok_join {l r : Proc} {k : Nat → Nat → Proc} {m mf : Mem} {n s : Nat}
    (h : Par.run (.join l r k) m = (.ok n, mf, s)) :
    ∃ a b m1 m2 s1 s2 s3, Par.run l m = (.ok a, m1, s1) ∧ Par.run r m1 = (.ok b, m2, s2) ∧
      Par.run (k a b) m2 = (.ok n, mf, s3) ∧ s = s1 + s2 + s3 + 1 := by
  rw [Par.run] at h
  dsimp only at h
  rcases hl : Par.run l m with ⟨_ | a, m1, s1⟩ <;> rw [hl] at h
  · simp at h
  rcases hr : Par.run r m1 with ⟨_ | b, m2, s2⟩ <;> rw [hr] at h
  · simp at h
  rcases hk : Par.run (k a b) m2 with ⟨z, m3, s3⟩
  simp only [hk, Prod.mk.injEq] at h
  obtain ⟨rfl, rfl, rfl⟩ := h
  exact ⟨a, b, m1, m2, s1, s2, s3, rfl, hr, hk, rfl⟩

theorem run_join {l r : Proc} {k : Nat → Nat → Proc} {m m1 m2 mf : Mem} {a b n s1 s2 s3 : Nat}
    (hl : Par.run l m = (.ok a, m1, s1)) (hr : Par.run r m1 = (.ok b, m2, s2)) (hk : Par.run (k a b) m2 = (.ok n, mf, s3)) :
    Par.run (.join l r k) m = (.ok n, mf, s1 + s2 + s3 + 1) := by
  rw [Par.run]
  simp only [hl, hr, hk]

/-- A step of a separated process whose run returns normally leads to one with the same run, less one step. -/
theorem step_run {P P' : Proc} {m m' : Mem} (hst : Step P m P' m') : ∀ (F : Foot) (n s : Nat) (mf : Mem), Sep F P →
    Par.run P m = (.ok n, mf, s) →
    Sep F P' ∧ (∀ b i, ¬ F b i → m' b i = m b i) ∧ ∃ s', s = s' + 1 ∧ Par.run P' m' = (.ok n, mf, s') := by
  induction hst with
  | @read b i k m v hm =>
    intro F n s mf hs h
    rw [Par.run, hm] at h
    simp only [Prod.mk.injEq] at h
    obtain ⟨h1, h2, h3⟩ := h
    exact ⟨hs.2 v, fun _ _ _ => rfl, _, h3.symm, Prod.ext h1 (Prod.ext h2 rfl)⟩
  | readBad hm => intro F n s mf hs h; rw [Par.run, hm] at h; simp at h
  | @write b i v k m w hm =>
    intro F n s mf hs h
    rw [Par.run, hm] at h
    simp only [Prod.mk.injEq] at h
    obtain ⟨h1, h2, h3⟩ := h
    exact ⟨hs.2, fun _ _ hc => set_out m v hs.1 hc, _, h3.symm, Prod.ext h1 (Prod.ext h2 rfl)⟩
  | writeBad hm => intro F n s mf hs h; rw [Par.run, hm] at h; simp at h
  | @alloc b init k m =>
    intro F n s mf hs h
    rw [Par.run] at h
    simp only [Prod.mk.injEq] at h
    obtain ⟨h1, h2, h3⟩ := h
    exact ⟨hs.2, fun _ _ hc => alloc_out m init hs.1 hc, _, h3.symm, Prod.ext h1 (Prod.ext h2 rfl)⟩
  | @left l l' r k m m' _ ih =>
    intro F n s mf hs h
    obtain ⟨F1, F2, hs1, hs2, hd, hl, hr, hk⟩ := hs
    obtain ⟨a, b, m1, m2, s1, s2, s3, e1, e2, e3, rfl⟩ := run_ok_join h
    obtain ⟨hl', ho, s1', rfl, e1'⟩ := ih F1 a s1 m1 hl e1
    exact ⟨⟨F1, F2, hs1, hs2, hd, hl', hr, hk⟩, fun b i hb => ho b i fun h => hb (hs1 b i h), _, by omega,
      run_join e1' e2 e3⟩
  | @right l r r' k m m' _ ih =>
    intro F n s mf hs h
    obtain ⟨F1, F2, hs1, hs2, hd, hl, hr, hk⟩ := hs
    obtain ⟨a, b, m1, m2, s1, s2, s3, e1, e2, e3, rfl⟩ := run_ok_join h
    -- the left side changes nothing the right side sees
    obtain ⟨-, -, -, fl⟩ := run_frame l F1 m m hl (fun _ _ _ => rfl)
    rw [e1] at fl
    obtain ⟨fr1, fr2, fr3, fr4⟩ := run_frame r F2 m1 m hr (fun b i hb => fl b i (fun h => hd b i h hb))
    obtain ⟨-, -, -, fr4'⟩ := run_frame r F2 m m hr (fun _ _ _ => rfl)
    rw [e2] at fr1 fr2 fr3 fr4
    obtain ⟨mr, hmr⟩ : ∃ mr, (Par.run r m).2.1 = mr := ⟨_, rfl⟩
    rw [hmr] at fr3 fr4'
    have er : Par.run r m = (.ok b, mr, s2) := Prod.ext fr1.symm (Prod.ext hmr fr2.symm)
    obtain ⟨hr', ho, s2', rfl, er'⟩ := ih F2 b s2 mr hr er
    -- the step of the right side changes nothing the left side sees
    have hmm : Agree F1 m m' := fun b i hb => (ho b i (hd b i hb)).symm
    obtain ⟨g1, g2, g3, -⟩ := run_frame l F1 m m' hl hmm
    obtain ⟨-, -, -, g4⟩ := run_frame l F1 m' m hl (fun b i hb => (hmm b i hb).symm)
    rw [e1] at g1 g2 g3
    obtain ⟨m1', hm1'⟩ : ∃ x, (Par.run l m').2.1 = x := ⟨_, rfl⟩
    rw [hm1'] at g3 g4
    have el : Par.run l m' = (.ok a, m1', s1) := Prod.ext g1.symm (Prod.ext hm1' g2.symm)
    obtain ⟨k1, k2, k3, k4⟩ := run_frame r' F2 m1' m' hr' (fun b i hb => g4 b i (fun h => hd b i h hb))
    rw [er'] at k1 k2 k3
    have hfin : (Par.run r' m1').2.1 = m2 := by
      funext c j
      by_cases h2 : F2 c j
      · exact (k3 c j h2).trans (fr3 c j h2).symm
      · rw [k4 c j h2]
        by_cases h1 : F1 c j
        · exact (g3 c j h1).symm.trans (fr4 c j h2).symm
        · exact (g4 c j h1).trans ((ho c j h2).trans ((fr4 c j h2).trans (fl c j h1)).symm)
    have er2 : Par.run r' m1' = (.ok b, m2, s2') := Prod.ext k1 (Prod.ext hfin k2)
    exact ⟨⟨F1, F2, hs1, hs2, hd, hl, hr', hk⟩, fun b i hb => ho b i fun h => hb (hs2 b i h), _, by omega,
      run_join el er2 e3⟩
  | @join a b k m =>
    intro F n s mf hs h
    obtain ⟨F1, F2, hs1, hs2, hd, hl, hr, hk⟩ := hs
    obtain ⟨a', b', m1, m2, s1, s2, s3, e1, e2, e3, rfl⟩ := run_ok_join h
    simp only [Par.run, Prod.mk.injEq, Except.ok.injEq] at e1 e2
    obtain ⟨rfl, rfl, rfl⟩ := e1
    obtain ⟨rfl, rfl, rfl⟩ := e2
    exact ⟨hk _ _, fun _ _ _ => rfl, s3, by omega, e3⟩
  | panicLeft =>
    intro F n s mf hs h
    obtain ⟨a', b', m1, m2, s1, s2, s3, e1, -⟩ := run_ok_join h
    simp [Par.run] at e1
  | panicRight =>
    intro F n s mf hs h
    obtain ⟨a', b', m1, m2, s1, s2, s3, -, e2, -⟩ := run_ok_join h
    simp [Par.run] at e2

theorem steps_run {t : Nat} {P P' : Proc} {m m' : Mem} (hst : Steps t P m P' m') : ∀ (F : Foot) (n s : Nat) (mf : Mem),
    Sep F P → Par.run P m = (.ok n, mf, s) →
    Sep F P' ∧ ∃ s', s = s' + t ∧ Par.run P' m' = (.ok n, mf, s') := by
  induction hst with
  | refl => intro F n s mf hs h; exact ⟨hs, s, rfl, h⟩
  | step h1 _ ih =>
    intro F n s mf hs h
    obtain ⟨hs', -, s', rfl, h'⟩ := step_run h1 F n s mf hs h
    obtain ⟨hs'', s'', rfl, h''⟩ := ih F n s' mf hs' h'
    exact ⟨hs'', s'', by omega, h''⟩

/-- A process that is not done can step. -/
theorem progress (P : Proc) (m : Mem) : (∃ r, P = .done r) ∨ ∃ P' m', Step P m P' m' := by
  induction P with
  | done r => exact Or.inl ⟨r, rfl⟩
  | read b i k _ =>
    right
    cases h : m b i with
    | none => exact ⟨_, _, .readBad h⟩
    | some v => exact ⟨_, _, .read h⟩
  | write b i v k _ =>
    right
    cases h : m b i with
    | none => exact ⟨_, _, .writeBad h⟩
    | some v => exact ⟨_, _, .write h⟩
  | alloc b init k _ => exact Or.inr ⟨_, _, .alloc⟩
  | join l r k ihl ihr _ =>
    right
    rcases ihl with ⟨x, rfl⟩ | ⟨P', m', h⟩
    · rcases ihr with ⟨y, rfl⟩ | ⟨P', m', h⟩
      · cases x with
        | error e => exact ⟨_, _, .panicLeft⟩
        | ok a => cases y with
          | error e => exact ⟨_, _, .panicRight⟩
          | ok b => exact ⟨_, _, .join⟩
      · exact ⟨_, _, .right h⟩
    · exact ⟨_, _, .left h⟩

/-! ## `hash_recurse` is separated -/

/-- the footprint of a call: the slice it writes to, and the arrays of its own frames -/
def footOf (out : Slice) (frame : Buf) : Foot := fun b i =>
  (b = out.buf ∧ out.start ≤ i ∧ i < out.start + out.len) ∨ frame <+: b

theorem sep_readFrom (F : Foot) (b : Buf) (n : Nat) : ∀ (i : Nat) (k : Bytes → Proc), (∀ j, i ≤ j → j < i + n → F b j) →
    (∀ vs, vs.length = n → Sep F (k vs)) → Sep F (readFrom b i n k) := by
  induction n with
  | zero => intro i k _ hk; exact hk [] rfl
  | succ n ih =>
    intro i k hF hk
    exact ⟨hF i (Nat.le_refl _) (by omega), fun v => ih (i + 1) _ (fun j h1 h2 => hF j (by omega) (by omega))
      fun vs hvs => hk (v :: vs) (by simp [hvs])⟩

theorem sep_writeFrom (F : Foot) (b : Buf) (vs : Bytes) : ∀ (i : Nat) (k : Proc),
    (∀ j, i ≤ j → j < i + vs.length → F b j) → Sep F k → Sep F (writeFrom b i vs k) := by
  induction vs with
  | nil => intro i k _ hk; exact hk
  | cons v vs ih =>
    intro i k hF hk
    rw [List.length_cons] at hF
    exact ⟨hF i (Nat.le_refl _) (by omega), ih (i + 1) k (fun j h1 h2 => hF j (by omega) (by omega)) hk⟩

theorem sep_onSlice (F : Foot) (s : Slice) (f : Bytes → R (Nat × Bytes))
    (hF : ∀ j, s.start ≤ j → j < s.start + s.len → F s.buf j)
    (hf : ∀ o n o', o.length = s.len → f o = .ok (n, o') → o'.length ≤ s.len) : Sep F (onSlice s f) := by
  refine sep_readFrom F s.buf s.len s.start _ hF fun vs hvs => ?_
  cases h : f vs with
  | error e => exact trivial
  | ok x =>
    have := hf vs x.1 x.2 hvs h
    exact sep_writeFrom F s.buf x.2 s.start _ (fun j h1 h2 => hF j h1 (by omega)) trivial

theorem sep_guard {α} (F : Foot) (r : R α) (k : α → Proc) (h : ∀ a, r = .ok a → Sep F (k a)) : Sep F (guardP r k) := by
  cases r with
  | error e => exact trivial
  | ok a => exact h a rfl

/-! ## Functions on slices keep the length -/

theorem bind_eq_ok {α β} {x : R α} {f : α → R β} {b : β} (h : (x >>= f) = .ok b) : ∃ a, x = .ok a ∧ f a = .ok b := by
  cases x with
  | error e => cases h
  | ok a => exact ⟨a, rfl, h⟩

theorem ite_pos_ok {α} {c : Prop} [Decidable c] {x : α} {y : R α} {e : Panic}
    (h : (if c then .ok x else .error e) = y) {z : α} (hy : y = .ok z) : c ∧ x = z := by
  subst hy
  split at h
  · exact ⟨by assumption, Except.ok.inj h⟩
  · cases h

theorem writeAt_length {s d s' : Bytes} {off : Nat} (h : writeAt s off d = .ok s') : s'.length = s.length := by
  rw [writeAt] at h
  obtain ⟨hc, rfl⟩ := ite_pos_ok h rfl
  simp only [List.length_append, List.length_take, List.length_drop]
  omega

theorem portable_many_length (key : Vector Word 8) (d : U64) (flags fs fe : Byte) (xs : List Bytes) :
    ∀ (off : U64) (out o' : Bytes), Portable.hash_many_loop key d flags fs fe xs off out = .ok o' → o'.length = out.length := by
  induction xs with
  | nil => intro off out o' h; rw [Portable.hash_many_loop] at h; cases h; rfl
  | cons x xs ih =>
    intro off out o' h
    rw [Portable.hash_many_loop] at h
    split at h
    · cases h; rfl
    · obtain ⟨hh, -, h⟩ := bind_eq_ok h
      obtain ⟨off', -, h⟩ := bind_eq_ok h
      obtain ⟨rest, hr, h⟩ := bind_eq_ok h
      cases h
      have := ih _ _ _ hr
      rw [List.length_append, this, List.length_drop, Vector.length_toList]
      simp only [OUT_LEN] at *
      omega

theorem plat_hash_many_length {p : Platform} {cap : Nat} (hcap : cap % 64 = 0) {xs : List Bytes} {key : Vector Word 8}
    {off d : U64} {flags fs fe : Byte} {out o' : Bytes} (hx : ∀ x ∈ xs, x.length = cap)
    (h : p.hash_many cap xs key off d flags fs fe out = .ok o') : o'.length = out.length := by
  have e : p.hash_many cap xs key off d flags fs fe out =
      Portable.hash_many xs key off d flags fs fe out := by
    cases p
    · rfl
    · exact sse41_hash_many_eq cap hcap xs key off d flags fs fe out hx
    · exact avx2_hash_many_eq cap hcap xs key off d flags fs fe out hx
  rw [e, Portable.hash_many] at h
  obtain ⟨_, _, h⟩ := bind_eq_ok h
  exact portable_many_length key d flags fs fe xs off out o' h

theorem pushAll_eq {α} {n : Nat} {xs ys : List α} (h : pushAll n xs = .ok ys) : ys = xs := by
  rw [pushAll] at h
  exact (ite_pos_ok h rfl).2.symm

theorem hash_chunks_parallel_length {cfg : Config} {input : Bytes} {key : Vector Word 8} {off : U64} {flags : Byte}
    {p : Platform} {out o' : Bytes} {n : Nat} (h : hash_chunks_parallel cfg input key off flags p out = .ok (n, o')) :
    o'.length = out.length := by
  rw [hash_chunks_parallel] at h
  obtain ⟨_, _, h⟩ := bind_eq_ok h
  obtain ⟨_, _, h⟩ := bind_eq_ok h
  obtain ⟨_, _, h⟩ := bind_eq_ok h
  obtain ⟨cs, hcs, h⟩ := bind_eq_ok h
  have hcs := pushAll_eq hcs
  subst hcs
  obtain ⟨o1, ho1, h⟩ := bind_eq_ok h
  have hl1 := plat_hash_many_length (by decide) (mem_chunksExact CHUNK_LEN (by decide) input) ho1
  dsimp only at h
  split at h
  · obtain ⟨_, _, h⟩ := bind_eq_ok h
    obtain ⟨_, _, h⟩ := bind_eq_ok h
    obtain ⟨_, _, h⟩ := bind_eq_ok h
    obtain ⟨o2, ho2, h⟩ := bind_eq_ok h
    cases h
    rw [writeAt_length ho2, hl1]
  · cases h
    exact hl1

theorem hash_parents_parallel_length {cfg : Config} {c : Bytes} {key : Vector Word 8} {flags : Byte}
    {p : Platform} {out o' : Bytes} {n : Nat} (h : hash_parents_parallel cfg c key flags p out = .ok (n, o')) :
    o'.length = out.length := by
  rw [hash_parents_parallel] at h
  obtain ⟨_, _, h⟩ := bind_eq_ok h
  obtain ⟨_, _, h⟩ := bind_eq_ok h
  obtain ⟨_, _, h⟩ := bind_eq_ok h
  obtain ⟨cs, hcs, h⟩ := bind_eq_ok h
  have hcs := pushAll_eq hcs
  subst hcs
  obtain ⟨o1, ho1, h⟩ := bind_eq_ok h
  have hl1 := plat_hash_many_length (by decide) (mem_chunksExact BLOCK_LEN (by decide) c) ho1
  dsimp only at h
  split at h
  · obtain ⟨_, _, h⟩ := bind_eq_ok h
    obtain ⟨o2, ho2, h⟩ := bind_eq_ok h
    cases h
    rw [writeAt_length ho2, hl1]
  · cases h
    exact hl1

/-! ## `hash_recurse` is separated -/

theorem append_ne_prefix (a : Buf) (x : Bool) : ¬ a ++ [x] <+: a := by
  rintro ⟨t, ht⟩
  have := congrArg List.length ht
  simp at this

theorem prefix_of_append {a : Buf} {x : Bool} {c : Buf} (h : a ++ [x] <+: c) : a <+: c :=
  (List.prefix_append a [x]).trans h

theorem prefix_both {a : Buf} {c : Buf} (h : a ++ [false] <+: c) (h' : a ++ [true] <+: c) : False := by
  obtain ⟨t, ht⟩ := h
  obtain ⟨t', ht'⟩ := h'
  rw [← ht', List.append_assoc, List.append_assoc] at ht
  have := List.append_cancel_left ht
  simp at this

theorem sep_hash_recurse (cfg : Config) (key : Vector Word 8) (flags : Byte) (p : Platform) (input : Bytes) :
    ∀ (off : U64) (out : Slice) (frame : Buf), Sep (footOf out frame) (Par.hash_recurse cfg input key off flags p out frame) := by
  induction hn : input.length using Nat.strongRecOn generalizing input with
  | ind n ih =>
  intro off out frame
  have hout : ∀ j, out.start ≤ j → j < out.start + out.len → footOf out frame out.buf j :=
    fun j h1 h2 => Or.inl ⟨rfl, h1, h2⟩
  have hfr : ∀ j, footOf out frame frame j := fun j => Or.inr (List.prefix_refl _)
  rw [Par.hash_recurse]
  split
  · exact sep_onSlice _ out _ hout fun o n o' ho h => by rw [hash_chunks_parallel_length h, ho]; exact Nat.le_refl _
  · split
    · exact trivial
    · rename_i l hl
      have h1 := left_len_lt hl
      have h2 := left_len_pos hl
      dsimp only
      refine sep_guard _ _ _ fun roff _ => sep_guard _ _ _ fun _ _ => ⟨hfr, sep_guard _ _ _ fun _ hle => ?_⟩
      generalize (if (input.take l).length = CHUNK_LEN then 1 else max p.simd_degree 2) = deg at *
      generalize 2 * MAX_SIMD_DEGREE_OR_2 cfg * OUT_LEN = size at *
      have hle := (ite_pos_ok rfl hle).1
      refine ⟨footOf ⟨frame, 0, deg * OUT_LEN⟩ (frame ++ [false]),
        footOf ⟨frame, deg * OUT_LEN, size - deg * OUT_LEN⟩ (frame ++ [true]), ?_, ?_, ?_, ?_, ?_, ?_⟩
      · rintro b i (⟨rfl, -⟩ | h)
        · exact hfr i
        · exact Or.inr (prefix_of_append h)
      · rintro b i (⟨rfl, -⟩ | h)
        · exact hfr i
        · exact Or.inr (prefix_of_append h)
      · rintro b i (⟨hb, h3, h4⟩ | h) (⟨hb', h5, h6⟩ | h')
        · dsimp only at *; omega
        · dsimp only at hb; subst hb; exact append_ne_prefix _ _ h'
        · dsimp only at hb'; subst hb'; exact append_ne_prefix _ _ h
        · exact prefix_both h h'
      · exact ih _ (by rw [List.length_take]; omega) _ rfl _ _ _
      · exact ih _ (by rw [List.length_drop]; omega) _ rfl _ _ _
      · intro ln rn
        refine sep_guard _ _ _ fun _ _ => sep_guard _ _ _ fun _ _ => ?_
        split
        · refine sep_guard _ _ _ fun _ _ => sep_readFrom _ _ _ _ _ (fun j _ _ => hfr j) fun c hc => ?_
          refine sep_onSlice _ out _ hout fun o n o' ho h => ?_
          obtain ⟨o2, ho2, h⟩ := bind_eq_ok h
          cases h
          rw [writeAt_length ho2, ho]; exact Nat.le_refl _
        · refine sep_guard _ _ _ fun _ _ => sep_readFrom _ _ _ _ _ (fun j _ _ => hfr j) fun c hc => ?_
          exact sep_onSlice _ out _ hout fun o n o' ho h => by
            rw [hash_parents_parallel_length h, ho]; exact Nat.le_refl _

/-! ## The sequential run is the sequential program -/

/-- the bytes `vs` are in memory, from index `i` on -/
def Holds (m : Mem) (b : Buf) (i : Nat) (vs : Bytes) : Prop := ∀ j (h : j < vs.length), m b (i + j) = some vs[j]

theorem Holds.tail {m : Mem} {b : Buf} {i : Nat} {v : Byte} {vs : Bytes} (h : Holds m b i (v :: vs)) :
    Holds m b (i + 1) vs := by
  intro j hj
  have := h (j + 1) (by simp; omega)
  rw [show i + 1 + j = i + (j + 1) by omega, this]
  rfl

theorem Holds.take {m : Mem} {b : Buf} {i : Nat} {vs : Bytes} (h : Holds m b i vs) (n : Nat) :
    Holds m b i (vs.take n) := by
  intro j hj
  rw [List.length_take] at hj
  rw [h j (by omega), List.getElem_take]

theorem Holds.append {m : Mem} {b : Buf} {i : Nat} {vs ws : Bytes} (h : Holds m b i vs) (h' : Holds m b (i + vs.length) ws) :
    Holds m b i (vs ++ ws) := by
  intro j hj
  by_cases hlt : j < vs.length
  · rw [h j hlt, List.getElem_append_left hlt]
  · rw [List.length_append] at hj
    have := h' (j - vs.length) (by omega)
    rw [show i + vs.length + (j - vs.length) = i + j by omega] at this
    rw [this, List.getElem_append_right (by omega)]

theorem run_readFrom (b : Buf) (vs : Bytes) : ∀ (i : Nat) (k : Bytes → Proc) (m : Mem) (r : R Nat) (mf : Mem) (s : Nat),
    Holds m b i vs → Par.run (k vs) m = (r, mf, s) → ∃ s', Par.run (readFrom b i vs.length k) m = (r, mf, s') := by
  induction vs with
  | nil => intro i k m r mf s _ h; exact ⟨s, h⟩
  | cons v vs ih =>
    intro i k m r mf s hh h
    obtain ⟨s', h'⟩ := ih (i + 1) (fun vs => k (v :: vs)) m r mf s hh.tail h
    refine ⟨s' + 1, ?_⟩
    have h0 := hh 0 (by simp)
    rw [Nat.add_zero] at h0
    rw [List.length_cons, readFrom, Par.run, h0]
    dsimp only
    rw [show (v :: vs)[0] = v from rfl, h']

theorem run_writeFrom (b : Buf) (new : Bytes) : ∀ (old : Bytes) (i : Nat) (m : Mem), Holds m b i old → new.length = old.length →
    ∃ m', Holds m' b i new ∧ (∀ c j, (c = b → j < i ∨ i + new.length ≤ j) → m' c j = m c j) ∧
      ∀ k r mf s, Par.run k m' = (r, mf, s) → ∃ s', Par.run (writeFrom b i new k) m = (r, mf, s') := by
  induction new with
  | nil => intro old i m _ _; exact ⟨m, fun j h => absurd h (by simp), fun _ _ _ => rfl, fun k r mf s h => ⟨s, h⟩⟩
  | cons v vs ih =>
    intro old i m hh hl
    cases old with
    | nil => simp at hl
    | cons o os =>
      have h0 := hh 0 (by simp)
      rw [Nat.add_zero] at h0
      have hh' : Holds (m.set b i v) b (i + 1) os := by
        intro j hj
        rw [Mem.set, if_neg (by rintro ⟨-, h⟩; omega)]
        exact hh.tail j hj
      obtain ⟨m', h1, h2, h3⟩ := ih os (i + 1) (m.set b i v) hh' (by simpa using hl)
      refine ⟨m', ?_, ?_, ?_⟩
      · intro j hj
        rcases j with _ | j
        · rw [Nat.add_zero, h2 b i (fun _ => Or.inl (by omega)), Mem.set, if_pos ⟨rfl, rfl⟩]; rfl
        · have := h1 j (by simpa using hj)
          rw [show i + (j + 1) = i + 1 + j by omega, this]; rfl
      · intro c j hc
        rw [List.length_cons] at hc
        rw [h2 c j (fun h => by have := hc h; omega), Mem.set, if_neg]
        rintro ⟨rfl, rfl⟩
        have := hc rfl
        omega
      · intro k r mf s hk
        obtain ⟨s', hs'⟩ := h3 k r mf s hk
        refine ⟨s' + 1, ?_⟩
        rw [writeFrom, Par.run, h0]
        dsimp only
        rw [hs']

theorem run_onSlice {out : Slice} {f : Bytes → R (Nat × Bytes)} {m : Mem} {old new : Bytes} {n : Nat}
    (hh : Holds m out.buf out.start old) (hl : old.length = out.len) (hf : f old = .ok (n, new)) (hn : new.length = old.length) :
    ∃ mf s, Par.run (onSlice out f) m = (.ok n, mf, s) ∧ Holds mf out.buf out.start new := by
  obtain ⟨m', h1, -, h3⟩ := run_writeFrom out.buf new old out.start m hh hn
  obtain ⟨s, hs⟩ := h3 (.done (.ok n)) _ _ _ rfl
  obtain ⟨s', hs'⟩ := run_readFrom out.buf old out.start (fun old => match f old with
    | .error e => .done (.error e)
    | .ok (n, new) => writeFrom out.buf out.start new (.done (.ok n))) m _ _ s hh (by rw [hf]; exact hs)
  rw [hl] at hs'
  exact ⟨m', s', hs', h1⟩

/-- The sequential run of the process does what `hash_recurse` does. -/
theorem run_hash_recurse (cfg : Config) (key : Vector Word 8) (flags : Byte) (p : Platform) (input : Bytes) :
    ∀ (off : U64) (out : Slice) (frame : Buf) (old new : Bytes) (n : Nat) (m : Mem), ¬ frame <+: out.buf →
    Holds m out.buf out.start old → old.length = out.len →
    Model.hash_recurse cfg input key off flags p old = .ok (n, new) →
    new.length = old.length ∧
    ∃ mf s, Par.run (Par.hash_recurse cfg input key off flags p out frame) m = (.ok n, mf, s) ∧
      Holds mf out.buf out.start new := by
  induction hn : input.length using Nat.strongRecOn generalizing input with
  | ind N ih =>
  intro off out frame old new n m hfr hh hl h
  rw [Model.hash_recurse] at h
  rw [Par.hash_recurse]
  split at h
  · rename_i hle
    rw [if_pos hle]
    have hnl := hash_chunks_parallel_length h
    exact ⟨hnl, run_onSlice hh hl h hnl⟩
  · rename_i hle
    rw [if_neg hle]
    split at h
    · cases h
    rename_i l hll
    have h1 := left_len_lt hll
    have h2 := left_len_pos hll
    split
    · rename_i e he; rw [hll] at he; cases he
    rename_i l' hll'
    rw [hll] at hll'
    obtain rfl := Except.ok.inj hll'
    dsimp only at h ⊢
    obtain ⟨roff, hroff, h⟩ := bind_eq_ok h
    obtain ⟨_, hpc, h⟩ := bind_eq_ok h
    generalize (if (input.take l).length = CHUNK_LEN then 1 else max p.simd_degree 2) = deg at *
    generalize hsz : 2 * MAX_SIMD_DEGREE_OR_2 cfg * OUT_LEN = size at *
    obtain ⟨⟨lo, ro⟩, hsp, h⟩ := bind_eq_ok h
    rw [splitAtR] at hsp
    obtain ⟨hdl, hsp⟩ := ite_pos_ok hsp rfl
    rw [List.length_replicate] at hdl
    simp only [Prod.mk.injEq] at hsp
    obtain ⟨rfl, rfl⟩ := hsp
    obtain ⟨⟨ln, lout⟩, hL, h⟩ := bind_eq_ok h
    obtain ⟨⟨rn, rout⟩, hR, h⟩ := bind_eq_ok h
    dsimp only at hL hR h
    obtain ⟨_, ha1, h⟩ := bind_eq_ok h
    obtain ⟨_, ha2, h⟩ := bind_eq_ok h
    rw [hroff, hpc]
    simp only [guardP]
    rw [if_pos hdl]
    -- the array of children
    have hA : ∀ j, j < size → (m.alloc frame (List.replicate size 0)) frame j = some 0 := by
      intro j hj
      rw [Mem.alloc, if_pos rfl, List.getElem?_replicate, if_pos hj]
    have hlt : (List.take (deg * OUT_LEN) (List.replicate size (0 : Byte))).length = deg * OUT_LEN := by
      rw [List.length_take, List.length_replicate]; omega
    have hld : (List.drop (deg * OUT_LEN) (List.replicate size (0 : Byte))).length = size - deg * OUT_LEN := by
      rw [List.length_drop, List.length_replicate]
    obtain ⟨hlo, m1, s1, e1, hh1⟩ := ih _ (by rw [List.length_take]; omega) _ rfl off ⟨frame, 0, deg * OUT_LEN⟩ (frame ++ [false])
      _ lout ln (m.alloc frame (List.replicate size 0)) (append_ne_prefix _ _) (by
        intro j hj
        rw [hlt] at hj
        dsimp only
        rw [hA _ (by omega), List.getElem_take, List.getElem_replicate]) hlt hL
    have hs1 := sep_hash_recurse cfg key flags p (input.take l) off ⟨frame, 0, deg * OUT_LEN⟩ (frame ++ [false])
    obtain ⟨-, -, -, f1⟩ := run_frame _ _ (m.alloc frame (List.replicate size 0)) _ hs1 (fun _ _ _ => rfl)
    rw [e1] at f1
    dsimp only at f1
    obtain ⟨hro, m2, s2, e2, hh2⟩ := ih _ (by rw [List.length_drop]; omega) _ rfl roff
      ⟨frame, deg * OUT_LEN, size - deg * OUT_LEN⟩ (frame ++ [true]) _ rout rn m1 (append_ne_prefix _ _) (by
        intro j hj
        rw [hld] at hj
        dsimp only
        rw [f1 _ _ (by
          rintro (⟨-, -, h⟩ | h)
          · dsimp only at h; omega
          · exact append_ne_prefix _ _ h), hA _ (by omega), List.getElem_drop, List.getElem_replicate]) hld hR
    have hs2 := sep_hash_recurse cfg key flags p (input.drop l) roff ⟨frame, deg * OUT_LEN, size - deg * OUT_LEN⟩ (frame ++ [true])
    obtain ⟨-, -, -, f2⟩ := run_frame _ _ m1 _ hs2 (fun _ _ _ => rfl)
    rw [e2] at f2
    dsimp only at f2
    -- both sides together
    have hch : Holds m2 frame 0 (lout ++ rout) := by
      refine Holds.append ?_ ?_
      · intro j hj
        rw [f2 _ _ (by
          rintro (⟨-, h, -⟩ | h)
          · rw [hlo, hlt] at hj; dsimp only at h; omega
          · exact append_ne_prefix _ _ h)]
        exact hh1 j hj
      · rw [hlo, hlt, Nat.zero_add]; exact hh2
    have hchl : (lout ++ rout).length = size := by
      rw [List.length_append, hlo, hro, hlt, hld]; omega
    have hold : Holds m2 out.buf out.start old := by
      intro j hj
      rw [f2 _ _ (by
        rintro (⟨h, -⟩ | h)
        · exact hfr (h ▸ List.prefix_refl _)
        · exact hfr (prefix_of_append h)), f1 _ _ (by
        rintro (⟨h, -⟩ | h)
        · exact hfr (h ▸ List.prefix_refl _)
        · exact hfr (prefix_of_append h)), Mem.alloc, if_neg (by
        intro h
        exact hfr (h ▸ List.prefix_refl _))]
      exact hh j hj
    -- what follows the join
    have fin : ∀ (k : Nat → Nat → Proc), (∃ mf s, Par.run (k ln rn) m2 = (.ok n, mf, s) ∧ Holds mf out.buf out.start new) →
        ∃ mf s, Par.run (.alloc frame (List.replicate size 0) (.join
          (Par.hash_recurse cfg (input.take l) key off flags p ⟨frame, 0, deg * OUT_LEN⟩ (frame ++ [false]))
          (Par.hash_recurse cfg (input.drop l) key roff flags p ⟨frame, deg * OUT_LEN, size - deg * OUT_LEN⟩ (frame ++ [true])) k)) m
          = (.ok n, mf, s) ∧ Holds mf out.buf out.start new := by
      rintro k ⟨mf, s3, e3, hf⟩
      refine ⟨mf, s1 + s2 + s3 + 1 + 1, ?_, hf⟩
      rw [Par.run, run_join e1 e2 e3]
    split at h
    · rename_i h1
      obtain ⟨c, hc, h⟩ := bind_eq_ok h
      rw [sliceTo] at hc
      obtain ⟨hcl, rfl⟩ := ite_pos_ok hc rfl
      obtain ⟨o2, ho2, h⟩ := bind_eq_ok h
      cases h
      refine ⟨writeAt_length ho2, fin _ ?_⟩
      rw [ha1, ha2]
      dsimp only
      rw [if_pos h1, if_pos (by rw [hchl] at hcl; exact hcl)]
      have hr := run_onSlice (out := out) (f := fun o => do let o ← writeAt o 0 (List.take (2 * OUT_LEN) (lout ++ rout)); return (2, o))
        (n := 2) (new := new) hold hl (by rw [ho2]; rfl) (writeAt_length ho2)
      obtain ⟨mf, s, e, hf⟩ := hr
      obtain ⟨s', e'⟩ := run_readFrom frame (List.take (2 * OUT_LEN) (lout ++ rout)) 0 (fun c => onSlice out fun o => do
        let o ← writeAt o 0 c
        return (2, o)) m2 _ mf s (hch.take _) e
      rw [show (List.take (2 * OUT_LEN) (lout ++ rout)).length = 2 * OUT_LEN by rw [List.length_take]; omega] at e'
      exact ⟨mf, s', e', hf⟩
    · rename_i h1
      obtain ⟨c, hc, h⟩ := bind_eq_ok h
      rw [sliceTo] at hc
      obtain ⟨hcl, rfl⟩ := ite_pos_ok hc rfl
      refine ⟨hash_parents_parallel_length h, fin _ ?_⟩
      rw [ha1, ha2]
      dsimp only
      rw [if_neg h1, if_pos (by rw [hchl] at hcl; exact hcl)]
      obtain ⟨mf, s, e, hf⟩ := run_onSlice (out := out) (f := fun o => hash_parents_parallel cfg
        (List.take ((ln + rn) * OUT_LEN) (lout ++ rout)) key flags p o) hold hl h (hash_parents_parallel_length h)
      obtain ⟨s', e'⟩ := run_readFrom frame (List.take ((ln + rn) * OUT_LEN) (lout ++ rout)) 0 (fun c => onSlice out fun o =>
        hash_parents_parallel cfg c key flags p o) m2 _ mf s (hch.take _) e
      rw [show (List.take ((ln + rn) * OUT_LEN) (lout ++ rout)).length = (ln + rn) * OUT_LEN by
        rw [List.length_take]; omega] at e'
      exact ⟨mf, s', e', hf⟩

/-! ## No races -/

theorem next_foot {P : Proc} {w : Bool} {b : Buf} {i : Nat} (h : Next P w b i) : ∀ F, Sep F P → F b i := by
  induction h with
  | read => intro F hs; exact hs.1
  | write => intro F hs; exact hs.1
  | alloc => intro F hs; exact hs.1 _
  | left _ ih => rintro F ⟨F1, F2, hs1, hs2, hd, hl, hr, hk⟩; exact hs1 _ _ (ih F1 hl)
  | right _ ih => rintro F ⟨F1, F2, hs1, hs2, hd, hl, hr, hk⟩; exact hs2 _ _ (ih F2 hr)

theorem no_race {P : Proc} (h : Race P) : ∀ F, ¬ Sep F P := by
  induction h with
  | here h1 h2 _ =>
    rintro F ⟨F1, F2, hs1, hs2, hd, hl, hr, hk⟩
    exact hd _ _ (next_foot h1 F1 hl) (next_foot h2 F2 hr)
  | left _ ih => rintro F ⟨F1, F2, hs1, hs2, hd, hl, hr, hk⟩; exact ih F1 hl
  | right _ ih => rintro F ⟨F1, F2, hs1, hs2, hd, hl, hr, hk⟩; exact ih F2 hr

/-! ## `hash_internal` -/

theorem sep_mono {P : Proc} : ∀ {F G : Foot}, (∀ b i, F b i → G b i) → Sep F P → Sep G P := by
  induction P with
  | done r => intro F G _ _; trivial
  | read b i k ih => intro F G h hs; exact ⟨h _ _ hs.1, fun v => ih v h (hs.2 v)⟩
  | write b i v k ih => intro F G h hs; exact ⟨h _ _ hs.1, ih h hs.2⟩
  | alloc b init k ih => intro F G h hs; exact ⟨fun i => h _ _ (hs.1 i), ih h hs.2⟩
  | join l r k _ _ ih =>
    rintro F G h ⟨F1, F2, hs1, hs2, hd, hl, hr, hk⟩
    exact ⟨F1, F2, fun b i hb => h b i (hs1 b i hb), fun b i hb => h b i (hs2 b i hb), hd, hl, hr,
      fun x y => ih x y h (hk x y)⟩

/-- no steps left -/
theorem run_zero {P : Proc} {m mf : Mem} {n : Nat} (h : Par.run P m = (.ok n, mf, 0)) : P = .done (.ok n) ∧ m = mf := by
  cases P with
  | done r => rw [Par.run] at h; simp only [Prod.mk.injEq] at h; exact ⟨by rw [h.1], h.2.1⟩
  | read b i k =>
    rw [Par.run] at h
    split at h
    · simp at h
    · simp at h
  | write b i v k =>
    rw [Par.run] at h
    split at h
    · simp at h
    · simp at h
  | alloc b init k => rw [Par.run] at h; simp at h
  | join l r k =>
    obtain ⟨_, _, _, _, _, _, _, _, _, _, h⟩ := run_ok_join h
    omega

theorem sep_root (cfg : Config) (input : Bytes) (key : Vector Word 8) (flags : Byte) :
    Sep (fun _ _ => True) (Par.root cfg input key flags) :=
  ⟨fun _ => trivial, sep_mono (fun _ _ _ => trivial) (sep_hash_recurse cfg key flags _ input _ _ _)⟩

/-- With enough memory for `usize`, the run ends normally, with the bytes of the sequential program. -/
theorem run_root (cfg : Config) (input : Bytes) (key : Vector Word 8) (flags : Byte) (hw : input.length < 2 ^ cfg.usizeBits)
    (h64 : input.length < 2 ^ 64) (hlt : CHUNK_LEN < input.length) (m : Mem) :
    ∃ n mf s, Par.run (Par.root cfg input key flags) m = (.ok n, mf, s) ∧
      Par.finish cfg key flags n mf = hash_internal cfg input key flags := by
  obtain ⟨o, e, -, -⟩ := hash_internal_eq key flags cfg input hw h64
  rw [hash_internal, if_neg (by omega)] at e ⊢
  dsimp only at e ⊢
  obtain ⟨⟨n, out⟩, h, -⟩ := bind_eq_ok e
  rw [h, bind_ok]
  obtain ⟨hl, mf, s, hr, hh⟩ := run_hash_recurse cfg key flags (Platform.detect cfg) input 0
    ⟨[], 0, MAX_SIMD_DEGREE_OR_2 cfg * OUT_LEN⟩ [false] _ out n
    (m.alloc [] (List.replicate (MAX_SIMD_DEGREE_OR_2 cfg * OUT_LEN) 0)) (by simp) (by
      intro j hj
      dsimp only
      rw [Mem.alloc, if_pos rfl, Nat.zero_add, List.getElem?_eq_getElem hj]) (by rw [List.length_replicate]) h
  refine ⟨n, mf, s + 1, ?_, ?_⟩
  · rw [Par.root, Par.run, hr]
  · rw [Par.finish]
    rw [List.length_replicate] at hl
    have : Par.contents mf [] (MAX_SIMD_DEGREE_OR_2 cfg * OUT_LEN) = out := by
      refine List.ext_getElem (by rw [Par.contents, List.length_map, List.length_range, hl]) fun j h1 h2 => ?_
      have := hh j h2
      dsimp only at this
      rw [Nat.zero_add] at this
      simp only [Par.contents, List.getElem_map, List.getElem_range]
      rw [this]; rfl
    rw [this]

end Baokeshed.Proofs
