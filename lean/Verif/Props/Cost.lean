import Verif.Props.Trace
import Verif.Proofs.Copies

/-!
# C59: what calls cost

Bounds for the number of compressions and of copied bytes.  The functions of Model/Trace.lean and Model/Isa.lean return what
the functions of the model return (`C39_same_results`, `C52_same_results`).
-/

namespace Baokeshed.Props
open Baokeshed.Model Baokeshed.Proofs Baokeshed.Spec

theorem length_bind {α β : Type} {a b : Nat} {x : T.TR α} {f : α → T.TR β} (hx : x.log.length ≤ a)
    (hf : ∀ v, x.res = .ok v → (f v).log.length ≤ b) : (x >>= f).log.length ≤ a + b := by
  obtain ⟨r, l⟩ := x
  cases r with
  | error e => exact Nat.le_trans hx (Nat.le_add_right _ _)
  | ok v =>
    show (l ++ (f v).log).length ≤ a + b
    rw [List.length_append]
    exact Nat.add_le_add hx (hf v rfl)

theorem length_bind' {α β : Type} {a b c : Nat} {x : T.TR α} {f : α → T.TR β} (hx : x.log.length ≤ a)
    (hc : a + b ≤ c) (hf : ∀ v, (f v).log.length ≤ b) : (x >>= f).log.length ≤ c :=
  Nat.le_trans (length_bind hx fun v _ => hf v) hc

theorem length_lift {α β : Type} {b : Nat} {r : R α} {f : α → T.TR β} (hf : ∀ v, (f v).log.length ≤ b) :
    ((liftM r : T.TR α) >>= f).log.length ≤ b :=
  length_bind' (a := 0) (Nat.zero_le 0) (by omega) hf

theorem finalize_loop_length (h : Hasher) (S : List (Vector Byte 32)) : ∀ w,
    (T.Hasher.finalize_loop h w S).log.length ≤ S.length - 1 := by
  induction S with
  | nil => intro w; exact Nat.le_refl _
  | cons s S ih =>
    intro w
    cases S with
    | nil => exact Nat.le_refl _
    | cons t S =>
      rw [T.Hasher.finalize_loop]
      · refine length_bind' (a := 1) (Nat.le_refl 1) ?_ ih
        simp only [List.length_cons]; omega
      · simp

theorem finalize_xof_length (h : Hasher) : (T.Hasher.finalize_xof h).log.length ≤ h.subtree_hashes.length := by
  unfold T.Hasher.finalize_xof
  split
  · exact Nat.zero_le _
  next hn =>
    have hp : 0 < h.subtree_hashes.length := List.length_pos_iff.2 hn
    split
    · refine length_lift fun _ => length_lift fun _ => ?_
      exact length_bind' (a := 1) (Nat.le_refl 1) (by omega) fun v => finalize_loop_length h h.subtree_hashes v
    · refine length_lift fun _ => ?_
      split
      next last rest e =>
        refine Nat.le_trans (finalize_loop_length h _ _) ?_
        rw [e, List.length_cons]; omega
      · exact Nat.zero_le _

theorem read_length (prof : Profile) (o : Output) : (T.Output.read prof o).log.length ≤ 1 := by
  refine length_bind' (a := 1) (b := 0) (Nat.le_refl 1) (Nat.le_refl 1) fun v => ?_
  exact length_lift fun _ => Nat.zero_le 0

theorem run_length (prof : Profile) (os : List OutCall) : ∀ o, (T.Output.run prof os o).log.length ≤ os.length := by
  induction os with
  | nil => intro o; exact Nat.le_refl _
  | cons c os ih =>
    intro o
    cases c
    · refine length_bind' (b := os.length) (read_length prof o) (by rw [List.length_cons]; omega) fun v => ?_
      exact length_bind' (b := 0) (ih v.2) (Nat.le_refl _) fun _ => Nat.zero_le 0
    · refine length_bind' (a := 1) (b := os.length) (Nat.le_refl 1) (by rw [List.length_cons]; omega) fun v => ?_
      exact length_bind' (b := 0) (ih o) (Nat.le_refl _) fun _ => Nat.zero_le 0

theorem calls_length (m : Mode) (x : Bytes) : (Spec.calls m x).length = compressions x.length := by
  rw [Spec.calls, Spec.inner, List.length_append, below_length, List.length_singleton, compressions]
  omega

/-- the hasher has done everything but what `finalize_xof` still has to do -/
theorem work_length {cfg : Config} {m : Mode} {bytes : Bytes} {h : Hasher} {W : List Spec.Input} (hw : WorkAt cfg m bytes h W) :
    W.length + (T.Hasher.finalize_xof h).log.length + 1 = compressions bytes.length := by
  obtain ⟨o, l, e, -, hp⟩ := hw.finalize_xof
  have := hp.length_eq
  rw [e, ← calls_length m bytes, Spec.calls, List.length_append, ← this, List.length_append]
  rfl

/-- The greatest number of hashes on the stack of a hasher that has received `n` bytes. -/
def depth (n : Nat) : Nat := Nat.log2 (n / 2048) + 1

theorem stack_le {cfg : Config} {m : Mode} {bytes : Bytes} {h : Hasher} (hh : HasherAt cfg m bytes h) :
    h.subtree_hashes.length ≤ depth bytes.length := (hh.1.memory _ _ hh.2).2.1

/-- C59.  Depth. -/
theorem C59_depth (n : Nat) (h : n < 2 ^ 64) : depth n ≤ 53 ∧ 2048 * 2 ^ (depth n - 1) ≤ max 2048 n := by
  unfold depth
  by_cases h0 : n / 2048 = 0
  · rw [h0]
    refine ⟨by decide, ?_⟩
    show 2048 * 2 ^ 0 ≤ _
    omega
  · have h1 : Nat.log2 (n / 2048) < 53 := (Nat.log2_lt h0).2 (by omega)
    have h2 := Nat.log2_self_le h0
    rw [Nat.add_sub_cancel]
    omega

/-- C59.  `finalize_xof` performs at most `depth n` compressions, so `finalize` at most `depth n + 1`, after `n` bytes in
any slices. -/
theorem C59_finalize (cfg : Config) (m : Mode) (ss : List Bytes) (hl : ss.flatten.length < 2 ^ 64) :
    ∃ h, (newHasher cfg m).updates cfg ss = .ok h ∧
      (T.Hasher.finalize_xof h).log.length ≤ depth ss.flatten.length ∧
      (T.Hasher.finalize h).log.length ≤ depth ss.flatten.length + 1 := by
  obtain ⟨h, e, hh⟩ := (HasherAt.new cfg m).updates ss (by simpa using hl)
  rw [List.nil_append] at hh
  have hx := Nat.le_trans (finalize_xof_length h) (stack_le hh)
  exact ⟨h, e, hx, length_bind hx fun _ _ => Nat.le_refl _⟩

/-- C59.  One `update` of `s` performs at most one compression per block and one per chunk of `s`, rounded up, and `depth n`
more, after `n` bytes in any slices. -/
theorem C59_update (cfg : Config) (m : Mode) (ss : List Bytes) (s : Bytes) (hl : ss.flatten.length + s.length < 2 ^ 64) :
    ∃ h, (newHasher cfg m).updates cfg ss = .ok h ∧
      (T.Hasher.update cfg h s).log.length ≤ (s.length + 63) / 64 + (s.length + 2047) / 2048 + depth ss.flatten.length := by
  obtain ⟨h, l, e, hw⟩ := (WorkAt.new cfg m).updates ss (by simpa using Nat.lt_of_le_of_lt (Nat.le_add_right _ _) hl)
  rw [List.nil_append, List.nil_append] at hw
  obtain ⟨h', l', e', hw'⟩ := hw.update s hl
  have e2 : (newHasher cfg m).updates cfg ss = .ok h := by rw [← T.updates_res, e]
  refine ⟨h, e2, ?_⟩
  have h1 := work_length hw
  have h2 := work_length hw'
  have h3 := Nat.le_trans (finalize_xof_length h) (stack_le hw.2)
  rw [e']
  simp only [List.length_append, compressions] at *
  omega

/-- how often a session asks for an output -/
def outputs (cs : List HCall) : Nat := (cs.filter fun | .update _ => false | .output _ => true).length

theorem depth_mono {a b : Nat} (h : a ≤ b) : depth a ≤ depth b := by
  unfold depth
  have hd : a / 2048 ≤ b / 2048 := Nat.div_le_div_right h
  by_cases h0 : a / 2048 = 0
  · rw [h0]; exact Nat.succ_le_succ (Nat.zero_le _)
  · have h1 := Nat.log2_self_le h0
    exact Nat.succ_le_succ ((Nat.le_log2 (by omega)).2 (Nat.le_trans h1 hd))

theorem session_length (cfg : Config) (prof : Profile) (m : Mode) (cs : List HCall) :
    ∀ (bytes : Bytes) (h : Hasher) (W : List Spec.Input), WorkAt cfg m bytes h W → bytes.length + (fedBytes cs).length < 2 ^ 64 →
    W.length + (T.Hasher.session cfg prof cs h).log.length ≤
      compressions (bytes.length + (fedBytes cs).length) +
        outputs cs * depth (bytes.length + (fedBytes cs).length) + (outCalls cs).length := by
  induction cs with
  | nil =>
    intro bytes h W hw _
    have := work_length hw
    show W.length + 0 ≤ compressions (bytes.length + 0) + 0 * _ + 0
    rw [Nat.add_zero bytes.length]
    omega
  | cons c cs ih =>
    intro bytes h W hw hlen
    cases c with
    | update s =>
      have hfd : (fedBytes (.update s :: cs)).length = s.length + (fedBytes cs).length := by
        rw [fedBytes, List.flatMap_cons, List.length_append]; rfl
      rw [hfd] at hlen ⊢
      obtain ⟨h1, l1, e1, hw1⟩ := hw.update s (by omega)
      have := ih _ h1 _ hw1 (by rw [List.length_append]; omega)
      rw [T.Hasher.session, tr_bind _ e1]
      have ho : outputs (.update s :: cs) = outputs cs := rfl
      have ho' : outCalls (.update s :: cs) = outCalls cs := rfl
      rw [ho, ho']
      rw [List.length_append, List.length_append] at *
      rw [← Nat.add_assoc bytes.length]
      omega
    | output os =>
      have hfd : fedBytes (.output os :: cs) = fedBytes cs := rfl
      have ho : outputs (.output os :: cs) = outputs cs + 1 := rfl
      have ho' : outCalls (.output os :: cs) = os ++ outCalls cs := rfl
      rw [hfd] at hlen ⊢
      rw [ho, ho']
      have := ih _ h _ hw hlen
      have h3 := Nat.le_trans (Nat.le_trans (finalize_xof_length h) (stack_le hw.2))
        (depth_mono (Nat.le_add_right bytes.length (fedBytes cs).length))
      have : (T.Hasher.session cfg prof (.output os :: cs) h).log.length ≤
          (T.Hasher.finalize_xof h).log.length + (os.length + ((T.Hasher.session cfg prof cs h).log.length + 0)) :=
        length_bind (Nat.le_refl _) fun o _ => length_bind (run_length prof os o) fun _ _ => length_bind (Nat.le_refl _) fun _ _ => Nat.le_refl _
      rw [List.length_append, Nat.add_mul]
      omega

/-- C59.  Any session of `update`s, `finalize_xof`s and reads of their outputs performs at most the compressions of one hash of
all bytes, `depth n` more for each output asked for, and one for each block read.  So a session that asks for the hash
after each of `k` writes costs `O(n + k log n)`. -/
theorem C59_session (cfg : Config) (prof : Profile) (m : Mode) (cs : List HCall) (hl : (fedBytes cs).length < 2 ^ 64) :
    (T.Hasher.session cfg prof cs (newHasher cfg m)).log.length ≤
      compressions (fedBytes cs).length + outputs cs * depth (fedBytes cs).length + (outCalls cs).length := by
  have := session_length cfg prof m cs [] _ [] (WorkAt.new cfg m) (by simpa using hl)
  simpa using this

theorem I_session_copies (cfg : Config) (prof : Profile) (cs : List HCall) : ∀ h,
    I.Cp (fedBytes cs).length (fun _ => 0) (Model.I.Hasher.session cfg prof cs h) := by
  induction cs with
  | nil => intro h; exact I.Cp.pure (Nat.le_refl _)
  | cons c cs ih =>
    intro h
    cases c with
    | update s =>
      have hfd : (fedBytes (.update s :: cs)).length = s.length + (fedBytes cs).length := by
        rw [fedBytes, List.flatMap_cons, List.length_append]; rfl
      refine I.Cp.bind (Q := fun _ => (fedBytes cs).length) ?_ fun h' _ => ih h'
      have := I.cp_update cfg h s
      refine ⟨by have := this.le; omega, fun a ha => ?_⟩
      have := this.ok a ha
      omega
    | output os =>
      exact (I.free_finalize_xof h _).bind fun _ _ => (I.free_run prof os _ _).bind fun _ _ => (ih h).bind fun _ _ =>
        I.Cp.pure (Nat.le_refl _)

/-- C59.  No byte of the input is copied more than once by a hasher, whatever its state and the slices; the one-shot
functions copy the bytes of an incomplete last block only. -/
theorem C59_copies (cfg : Config) (prof : Profile) (cs : List HCall) (h : Hasher) (m : Mode) (x : Bytes) (os : List OutCall) :
    copied (Model.I.Hasher.session cfg prof cs h).log ≤ (fedBytes cs).length ∧
    copied (Model.I.oneShotRun cfg prof m x os).log ≤ x.length % 64 ∧
    (∀ rs, (Model.I.oneShotRun cfg prof m x os).res = .ok rs → copied (Model.I.oneShotRun cfg prof m x os).log = x.length % 64) :=
  ⟨(I_session_copies cfg prof cs h).le, (I.cx_oneShotRun cfg prof m x os).le, (I.cx_oneShotRun cfg prof m x os).eq⟩

/-! Examples: the hash of 5000 bytes takes 81 compressions; that and the hash of these bytes and one more at most 87; one
update of 100 bytes to a hasher that has received 5000 at most 5. -/

example : compressions 5000 = 81 ∧ compressions 5001 = 81 ∧ depth 5000 = 2 ∧ depth 5001 = 2 := by decide
example (cfg : Config) (m : Mode) : (T.Hasher.session cfg .debug
    [.update (rep 5000 1), .output [.toHash], .update [1], .output [.toHash]] (newHasher cfg m)).log.length ≤ 87 := by
  have e : (fedBytes [.update (rep 5000 1), .output [.toHash], .update [1], .output [.toHash]]).length = 5001 := by
    simp [fedBytes]
  have := C59_session cfg .debug m [.update (rep 5000 1), .output [.toHash], .update [1], .output [.toHash]] (by rw [e]; decide)
  rw [e] at this
  exact Nat.le_trans this (by decide)
example (cfg : Config) (m : Mode) : ∃ h, (newHasher cfg m).updates cfg [rep 5000 1] = .ok h ∧
    (T.Hasher.update cfg h (rep 100 2)).log.length ≤ 5 := by
  have := C59_update cfg m [rep 5000 1] (rep 100 2) (by simp)
  simpa [show depth 5000 = 2 by decide] using this

end Baokeshed.Props
