import Verif.Model.CopyStep
import Verif.Props.Copy

/-!
# C78: `copy_wide` holds nothing back, with any reader

`Feeds read b s n segs b' s'`: `n` calls of `read`, the first on the buffer `b` in the state `s`, deliver the non-empty pieces `segs`,
neither the end of the stream nor an error other than `Interrupted`, and leave the buffer `b'` and the state `s'`.
-/

set_option linter.unusedVariables false

namespace Baokeshed.Props.CopyStep
open Baokeshed.Model Baokeshed.Proofs

variable {B : Nat} {W S : Type}

inductive Feeds (read : Reader B S) : Vector Byte B → S → Nat → List Bytes → Vector Byte B → S → Prop where
  | nil (b s) : Feeds read b s 0 [] b s
  | retry {b s b1 s1 n segs b' s'} : read s b = (.error .interrupted, b1, s1) → Feeds read b1 s1 n segs b' s' →
      Feeds read b s (n + 1) segs b' s'
  | data {b s b1 s1 n segs b' s'} (k : Nat) : read s b = (.ok k, b1, s1) → 0 < k → k ≤ B → Feeds read b1 s1 n segs b' s' →
      Feeds read b s (n + 1) (b1.toList.take k :: segs) b' s'

/-- a length that the counter can hold, if it is checked -/
def Counts (prof : Profile) (n : Nat) : Prop := prof = .debug → n < 2 ^ 64

theorem addTotal_iff (prof : Profile) (t t' : U64) (k : Nat) (hk : k < 2 ^ 64) :
    addTotal prof t k = .ok t' ↔ t' = t + BitVec.ofNat 64 k ∧ Counts prof (t.toNat + k) := by
  have hn : (BitVec.ofNat 64 k).toNat = k := by rw [BitVec.toNat_ofNat, Nat.mod_eq_of_lt hk]
  cases prof with
  | release =>
    show Except.ok (t + BitVec.ofNat 64 k) = _ ↔ _
    exact ⟨fun h => ⟨(Except.ok.inj h).symm, fun h => by cases h⟩, fun h => by rw [h.1]⟩
  | debug =>
    show addU64 t (BitVec.ofNat 64 k) = _ ↔ _
    rw [addU64, hn]
    split
    next h => exact ⟨fun h' => ⟨(Except.ok.inj h').symm, fun _ => h⟩, fun h => by rw [h.1]⟩
    next h => exact ⟨(fun h => by cases h), (fun h' => absurd (h'.2 rfl) h)⟩

/-- What one turn does, from the contracts of `read` and `write_all` alone. -/
inductive Turn (prof : Profile) (write_all : W → Bytes → R (Except IoError Unit × W)) (read : Reader B S)
    (b : Vector Byte B) (t : U64) (w : W) (s : S) : R (Copying B W S) → Prop where
  | retry {b1 s1} : read s b = (.error .interrupted, b1, s1) → Turn prof write_all read b t w s (.ok (.running b1 t w s1))
  | data {b1 s1 w1} (k : Nat) : read s b = (.ok k, b1, s1) → 0 < k → k ≤ B → write_all w (b1.toList.take k) = .ok (.ok (), w1) →
      Counts prof (t.toNat + k) → Turn prof write_all read b t w s (.ok (.running b1 (t + BitVec.ofNat 64 k) w1 s1))
  | eof {b1 s1} : read s b = (.ok 0, b1, s1) → Turn prof write_all read b t w s (.ok (.returned (.ok t) w s1))
  | fail {b1 s1} (m : List Char) : read s b = (.error (.other m), b1, s1) →
      Turn prof write_all read b t w s (.ok (.returned (.error (.other m)) w s1))
  | write {b1 s1 w1} (k : Nat) (e : IoError) : read s b = (.ok k, b1, s1) → 0 < k → k ≤ B →
      write_all w (b1.toList.take k) = .ok (.error e, w1) → Turn prof write_all read b t w s (.ok (.returned (.error e) w1 s1))
  | lie {b1 s1} (k : Nat) : read s b = (.ok k, b1, s1) → B < k → Turn prof write_all read b t w s (.error .bounds)
  | panic {b1 s1} (k : Nat) (p : Panic) : read s b = (.ok k, b1, s1) → 0 < k → k ≤ B →
      write_all w (b1.toList.take k) = .error p → Turn prof write_all read b t w s (.error p)
  | over {b1 s1 w1} (k : Nat) : read s b = (.ok k, b1, s1) → 0 < k → k ≤ B → write_all w (b1.toList.take k) = .ok (.ok (), w1) →
      ¬ Counts prof (t.toNat + k) → Turn prof write_all read b t w s (.error .overflow)

theorem addTotal_over (prof : Profile) (t : U64) (k : Nat) (hk : k < 2 ^ 64) (h : ¬ Counts prof (t.toNat + k)) :
    addTotal prof t k = .error .overflow := by
  have hn : (BitVec.ofNat 64 k).toNat = k := by rw [BitVec.toNat_ofNat, Nat.mod_eq_of_lt hk]
  cases prof with
  | release => exact absurd (fun h => by cases h) h
  | debug =>
    show addU64 t (BitVec.ofNat 64 k) = _
    rw [addU64, hn, if_neg (fun h' => h (fun _ => h'))]

theorem turn_spec (hB : B < 2 ^ 64) (prof : Profile) (write_all : W → Bytes → R (Except IoError Unit × W)) (read : Reader B S)
    (b : Vector Byte B) (t : U64) (w : W) (s : S) :
    Turn prof write_all read b t w s (copy_turn prof write_all read (.running b t w s)) := by
  rw [copy_turn]
  generalize hr : read s b = r
  obtain ⟨r, b1, s1⟩ := r
  dsimp only
  cases r with
  | error e =>
    cases e with
    | interrupted => exact .retry hr
    | other m => exact .fail m hr
  | ok k =>
    dsimp only
    split
    next h => subst h; exact .eof hr
    next h =>
      by_cases hk : k ≤ B
      · rw [sliceTo, if_pos (by rw [Vector.length_toList]; exact hk), bind_ok]
        generalize hw : write_all w (b1.toList.take k) = x
        match x, hw with
        | .error p, hw => exact .panic k p hr (by omega) hk hw
        | .ok (.error e, w1), hw => exact .write k e hr (by omega) hk hw
        | .ok (.ok (), w1), hw =>
          rw [bind_ok]
          dsimp only
          by_cases hc : Counts prof (t.toNat + k)
          · rw [(addTotal_iff prof t _ k (by omega)).2 ⟨rfl, hc⟩, bind_ok]
            exact .data k hr (by omega) hk hw hc
          · rw [addTotal_over prof t k (by omega) hc]
            exact .over k hr (by omega) hk hw hc
      · rw [sliceTo, if_neg (by rw [Vector.length_toList]; exact hk)]
        exact .lie k hr (by omega)

theorem turn_iff (hB : B < 2 ^ 64) (prof : Profile) (write_all : W → Bytes → R (Except IoError Unit × W)) (read : Reader B S)
    (b : Vector Byte B) (t : U64) (w : W) (s : S) (c : R (Copying B W S)) :
    copy_turn prof write_all read (.running b t w s) = c ↔ Turn prof write_all read b t w s c := by
  refine ⟨fun h => h ▸ turn_spec hB prof write_all read b t w s, fun h => ?_⟩
  have h' := turn_spec hB prof write_all read b t w s
  generalize copy_turn prof write_all read (.running b t w s) = c' at h'
  cases h <;> cases h' <;> simp_all <;> omega

theorem run_returned (prof : Profile) (write_all : W → Bytes → R (Except IoError Unit × W)) (read : Reader B S)
    (r : Except IoError U64) (w : W) (s : S) : ∀ n, copy_run prof write_all read n (.returned r w s) = .ok (.returned r w s)
  | 0 => rfl
  | n + 1 => by rw [copy_run, copy_turn, bind_ok]; exact run_returned prof write_all read r w s n

theorem run_succ (hB : B < 2 ^ 64) {prof : Profile} {write_all : W → Bytes → R (Except IoError Unit × W)} {read : Reader B S}
    {b : Vector Byte B} {t : U64} {w : W} {s : S} {c : Copying B W S} (h : Turn prof write_all read b t w s (.ok c)) (n : Nat) :
    copy_run prof write_all read (n + 1) (.running b t w s) = copy_run prof write_all read n c := by
  rw [copy_run, (turn_iff hB _ _ _ _ _ _ _ _).2 h, bind_ok]

theorem run_succ_error (hB : B < 2 ^ 64) {prof : Profile} {write_all : W → Bytes → R (Except IoError Unit × W)}
    {read : Reader B S} {b : Vector Byte B} {t : U64} {w : W} {s : S} {p : Panic}
    (h : Turn prof write_all read b t w s (.error p)) (n : Nat) :
    copy_run prof write_all read (n + 1) (.running b t w s) = .error p := by
  rw [copy_run, (turn_iff hB _ _ _ _ _ _ _ _).2 h]
  rfl

theorem counts_next {prof : Profile} {t : U64} {k l : Nat} (hk : k < 2 ^ 64) (h : Counts prof (t.toNat + k)) :
    Counts prof ((t + BitVec.ofNat 64 k).toNat + l) ↔ Counts prof (t.toNat + (k + l)) := by
  cases prof with
  | release => exact ⟨fun _ h => (by cases h), fun _ h => (by cases h)⟩
  | debug =>
    have h := h rfl
    have e : (t + BitVec.ofNat 64 k).toNat = t.toNat + k := by
      rw [BitVec.toNat_add, BitVec.toNat_ofNat, Nat.mod_eq_of_lt hk, Nat.mod_eq_of_lt h]
    rw [e, Nat.add_assoc]

theorem counts_mono {prof : Profile} {m n : Nat} (h : m ≤ n) (hc : Counts prof n) : Counts prof m := fun hp =>
  Nat.lt_of_le_of_lt h (hc hp)

theorem length_take {b : Vector Byte B} {k : Nat} (h : k ≤ B) : (b.toList.take k).length = k := by
  rw [List.length_take, Vector.length_toList, Nat.min_eq_left h]

/-- If the reader feeds `segs` and the writer takes them, `copy_run` gets there. -/
theorem run_feeds (hB : B < 2 ^ 64) {prof : Profile} {write_all : W → Bytes → R (Except IoError Unit × W)} {read : Reader B S}
    {b b' : Vector Byte B} {s s' : S} {n : Nat} {segs : List Bytes} (hf : Feeds read b s n segs b' s') :
    ∀ {w w' : W} {t : U64}, Accepts write_all w segs w' → Counts prof (t.toNat + segs.flatten.length) → ∀ m,
    copy_run prof write_all read (n + m) (.running b t w s) =
      copy_run prof write_all read m (.running b' (t + BitVec.ofNat 64 segs.flatten.length) w' s') := by
  induction hf with
  | nil b s =>
    intro w w' t ha hc m
    cases ha
    rw [Nat.zero_add, List.flatten_nil, List.length_nil, BitVec.add_zero]
  | @retry b s b1 s1 n segs b' s' hr hf ih =>
    intro w w' t ha hc m
    rw [Nat.add_right_comm, run_succ hB (.retry hr), ih ha hc]
  | @data b s b1 s1 n segs b' s' k hr h0 hk hf ih =>
    intro w w' t ha hc m
    cases ha with
    | cons hw ha =>
    rw [List.flatten_cons, List.length_append, length_take hk] at hc ⊢
    have hc1 : Counts prof (t.toNat + k) := counts_mono (by omega) hc
    rw [Nat.add_right_comm, run_succ hB (.data k hr h0 hk hw hc1), ih ha ((counts_next (by omega) hc1).2 hc), BitVec.ofNat_add,
      BitVec.add_assoc]

/-- Every run of `n` turns consists of a part in which the reader feeds and the writer accepts, and perhaps one last turn. -/
theorem run_cases (hB : B < 2 ^ 64) (prof : Profile) (write_all : W → Bytes → R (Except IoError Unit × W)) (read : Reader B S) :
    ∀ (n : Nat) (b : Vector Byte B) (t : U64) (w : W) (s : S), ∃ m segs b1 s1 w1, Feeds read b s m segs b1 s1 ∧
      Accepts write_all w segs w1 ∧ Counts prof (t.toNat + segs.flatten.length) ∧
      (m = n ∨ m < n ∧
        ((∃ r w2 s2, Turn prof write_all read b1 (t + BitVec.ofNat 64 segs.flatten.length) w1 s1 (.ok (.returned r w2 s2))) ∨
          ∃ p, Turn prof write_all read b1 (t + BitVec.ofNat 64 segs.flatten.length) w1 s1 (.error p)))
  | 0, b, t, w, s => ⟨0, [], b, s, w, .nil b s, .nil w, fun _ => t.isLt, .inl rfl⟩
  | n + 1, b, t, w, s => by
    have h := turn_spec hB prof write_all read b t w s
    generalize copy_turn prof write_all read (.running b t w s) = c at h
    match c, h with
    | .error p, h =>
      exact ⟨0, [], b, s, w, .nil b s, .nil w, fun _ => t.isLt, .inr ⟨Nat.succ_pos n, .inr ⟨p, by simpa using h⟩⟩⟩
    | .ok (.returned r w2 s2), h =>
      exact ⟨0, [], b, s, w, .nil b s, .nil w, fun _ => t.isLt, .inr ⟨Nat.succ_pos n, .inl ⟨r, w2, s2, by simpa using h⟩⟩⟩
    | .ok (.running b2 t2 w2 s2), h =>
      obtain ⟨m, segs, b1, s1, w1, hf, ha, hc, hl⟩ := run_cases hB prof write_all read n b2 t2 w2 s2
      cases h with
      | retry hr => exact ⟨m + 1, segs, b1, s1, w1, .retry hr hf, ha, hc, by
          rcases hl with hl | hl
          · exact .inl (by omega)
          · exact .inr ⟨by omega, hl.2⟩⟩
      | data k hr h0 hk hw hc1 =>
        refine ⟨m + 1, _ :: segs, b1, s1, w1, .data k hr h0 hk hf, .cons hw ha, ?_, ?_⟩
        · rw [List.flatten_cons, List.length_append, length_take hk]
          exact (counts_next (by omega) hc1).1 hc
        · rw [List.flatten_cons, List.length_append, length_take hk, BitVec.ofNat_add, ← BitVec.add_assoc]
          rcases hl with hl | hl
          · exact .inl (by omega)
          · exact .inr ⟨by omega, hl.2⟩

theorem buf_small (cfg : Config) : COPY_BUF_LEN cfg < 2 ^ 64 := by
  simp only [COPY_BUF_LEN, WIDE_BUF_LEN, MAX_SIMD_DEGREE, STD_DEFAULT_BUF_LEN, CHUNK_LEN]
  split <;> (try split) <;> decide

/-- the buffer at the beginning of `copy_wide` -/
abbrev zeros (B : Nat) : Vector Byte B := Vector.replicate B 0

/-- A run that is over: there was a last turn, and before it the reader fed and the writer accepted. -/
theorem run_over (hB : B < 2 ^ 64) (prof : Profile) (write_all : W → Bytes → R (Except IoError Unit × W)) (read : Reader B S)
    (n : Nat) (b : Vector Byte B) (t : U64) (w : W) (s : S) (c : R (Copying B W S)) (hc : ∀ b t w s, c ≠ .ok (.running b t w s)) :
    copy_run prof write_all read n (.running b t w s) = c ↔ ∃ m segs b1 s1 w1, m < n ∧ Feeds read b s m segs b1 s1 ∧
      Accepts write_all w segs w1 ∧ Counts prof (t.toNat + segs.flatten.length) ∧
      Turn prof write_all read b1 (t + BitVec.ofNat 64 segs.flatten.length) w1 s1 c := by
  have last : ∀ {m segs b1 s1 w1 c'}, m < n → Feeds read b s m segs b1 s1 → Accepts write_all w segs w1 →
      Counts prof (t.toNat + segs.flatten.length) → (∀ b t w s, c' ≠ .ok (.running b t w s)) →
      Turn prof write_all read b1 (t + BitVec.ofNat 64 segs.flatten.length) w1 s1 c' →
      copy_run prof write_all read n (.running b t w s) = c' := by
    intro m segs b1 s1 w1 c' hm hf ha hl hc' ht
    obtain ⟨k, rfl⟩ : ∃ k, n = m + (k + 1) := ⟨n - m - 1, by omega⟩
    rw [run_feeds hB hf ha hl]
    match c', ht with
    | .error p, ht => exact run_succ_error hB ht k
    | .ok (.returned r w2 s2), ht => rw [run_succ hB ht k, run_returned]
    | .ok (.running b t w s), _ => exact absurd rfl (hc' b t w s)
  constructor
  · intro h
    obtain ⟨m, segs, b1, s1, w1, hf, ha, hl, h1 | ⟨h1, h2⟩⟩ := run_cases hB prof write_all read n b t w s
    · subst h1
      have := run_feeds hB hf ha hl 0
      rw [Nat.add_zero, h] at this
      exact absurd this (hc _ _ _ _)
    · rcases h2 with ⟨r, w2, s2, ht⟩ | ⟨p, ht⟩
      · have e := last h1 hf ha hl (by intro _ _ _ _ h; cases h) ht
        exact ⟨m, segs, b1, s1, w1, h1, hf, ha, hl, (h.symm.trans e) ▸ ht⟩
      · have e := last h1 hf ha hl (by intro _ _ _ _ h; cases h) ht
        exact ⟨m, segs, b1, s1, w1, h1, hf, ha, hl, (h.symm.trans e) ▸ ht⟩
  · rintro ⟨m, segs, b1, s1, w1, hm, hf, ha, hl, ht⟩
    exact last hm hf ha hl hc ht

theorem run_on (hB : B < 2 ^ 64) (prof : Profile) (write_all : W → Bytes → R (Except IoError Unit × W)) (read : Reader B S)
    (n : Nat) (b b' : Vector Byte B) (t t' : U64) (w w' : W) (s s' : S) :
    copy_run prof write_all read n (.running b t w s) = .ok (.running b' t' w' s') ↔ ∃ segs, Feeds read b s n segs b' s' ∧
      Accepts write_all w segs w' ∧ Counts prof (t.toNat + segs.flatten.length) ∧ t' = t + BitVec.ofNat 64 segs.flatten.length := by
  constructor
  · intro h
    obtain ⟨m, segs, b1, s1, w1, hf, ha, hl, h1 | ⟨h1, h2⟩⟩ := run_cases hB prof write_all read n b t w s
    · subst h1
      have := run_feeds hB hf ha hl 0
      rw [Nat.add_zero, h, copy_run] at this
      cases this
      exact ⟨segs, hf, ha, hl, rfl⟩
    · rcases h2 with ⟨r, w2, s2, ht⟩ | ⟨p, ht⟩
      · have e := (run_over hB prof write_all read n b t w s (.ok (.returned r w2 s2)) (by intro _ _ _ _ h; cases h)).2
          ⟨m, segs, b1, s1, w1, h1, hf, ha, hl, ht⟩
        rw [h] at e
        cases e
      · have e := (run_over hB prof write_all read n b t w s (.error p) (by intro _ _ _ _ h; cases h)).2
          ⟨m, segs, b1, s1, w1, h1, hf, ha, hl, ht⟩
        rw [h] at e
        cases e
  · rintro ⟨segs, hf, ha, hl, rfl⟩
    have := run_feeds hB hf ha hl 0
    rwa [Nat.add_zero] at this

/-- C78.  `copy_wide` is still at work after `n` calls of `read` exactly if these delivered data and interruptions only, and the
writer accepted all the data.  Then the writer has got every byte that was read, each piece as soon as it was read, in order, and nothing else. -/
theorem C78_running (cfg : Config) (prof : Profile) (write_all : W → Bytes → R (Except IoError Unit × W))
    (read : Reader (COPY_BUF_LEN cfg) S) (w w' : W) (s s' : S) (b' : Vector Byte (COPY_BUF_LEN cfg)) (t' : U64) (n : Nat) :
    copy_run prof write_all read n (copy_start cfg w s) = .ok (.running b' t' w' s') ↔
      ∃ segs, Feeds read (zeros _) s n segs b' s' ∧ Accepts write_all w segs w' ∧ Counts prof segs.flatten.length ∧
        t' = BitVec.ofNat 64 segs.flatten.length := by
  rw [copy_start, run_on (buf_small cfg)]
  simp only [BitVec.toNat_zero, Nat.zero_add, BitVec.zero_add, BitVec.ofNat_eq_ofNat]
  exact Iff.rfl

/-- C78.  `copy_wide` returns `Ok(t)` exactly if some call of `read`, at last, returns `Ok(0)`, after calls that delivered data and
interruptions only, all the data having been accepted by the writer; `t` is their length (modulo `2 ^ 64` without overflow checks). The reader is not called
again, and nothing is written afterwards. -/
theorem C78_ok (cfg : Config) (prof : Profile) (write_all : W → Bytes → R (Except IoError Unit × W))
    (read : Reader (COPY_BUF_LEN cfg) S) (w w' : W) (s s' : S) (t' : U64) (n : Nat) :
    copy_run prof write_all read n (copy_start cfg w s) = .ok (.returned (.ok t') w' s') ↔
      ∃ m segs b1 s1 b2, m < n ∧ Feeds read (zeros _) s m segs b1 s1 ∧ read s1 b1 = (.ok 0, b2, s') ∧
        Accepts write_all w segs w' ∧ Counts prof segs.flatten.length ∧ t' = BitVec.ofNat 64 segs.flatten.length := by
  rw [copy_start, run_over (buf_small cfg) _ _ _ _ _ _ _ _ _ (by intro _ _ _ _ h; cases h)]
  simp only [BitVec.toNat_zero, Nat.zero_add, BitVec.zero_add, BitVec.ofNat_eq_ofNat]
  constructor
  · rintro ⟨m, segs, b1, s1, w1, hm, hf, ha, hl, ht⟩
    cases ht with
    | eof hr => exact ⟨m, segs, b1, s1, _, hm, hf, hr, ha, hl, rfl⟩
  · rintro ⟨m, segs, b1, s1, b2, hm, hf, hr, ha, hl, rfl⟩
    exact ⟨m, segs, b1, s1, w', hm, hf, ha, hl, .eof hr⟩

/-- C78.  `copy_wide` returns an error exactly if, after calls that delivered data and interruptions only, all the data having been
accepted, a call of `read` fails with this error, which is not `Interrupted`; or a call delivers one more piece and the writer refuses it with this error. -/
theorem C78_error (cfg : Config) (prof : Profile) (write_all : W → Bytes → R (Except IoError Unit × W))
    (read : Reader (COPY_BUF_LEN cfg) S) (w w' : W) (s s' : S) (e : IoError) (n : Nat) :
    copy_run prof write_all read n (copy_start cfg w s) = .ok (.returned (.error e) w' s') ↔
      ∃ m segs b1 s1 w1, m < n ∧ Feeds read (zeros _) s m segs b1 s1 ∧ Accepts write_all w segs w1 ∧
        Counts prof segs.flatten.length ∧ ∃ b2,
        ((read s1 b1 = (.error e, b2, s') ∧ e ≠ .interrupted ∧ w' = w1) ∨
          ∃ k, read s1 b1 = (.ok k, b2, s') ∧ 0 < k ∧ k ≤ COPY_BUF_LEN cfg ∧
            write_all w1 (b2.toList.take k) = .ok (.error e, w')) := by
  rw [copy_start, run_over (buf_small cfg) _ _ _ _ _ _ _ _ _ (by intro _ _ _ _ h; cases h)]
  simp only [BitVec.toNat_zero, Nat.zero_add, BitVec.zero_add, BitVec.ofNat_eq_ofNat]
  constructor
  · rintro ⟨m, segs, b1, s1, w1, hm, hf, ha, hl, ht⟩
    refine ⟨m, segs, b1, s1, w1, hm, hf, ha, hl, ?_⟩
    cases ht with
    | fail msg hr => exact ⟨_, .inl ⟨hr, by simp, rfl⟩⟩
    | write k e hr h0 hk hw => exact ⟨_, .inr ⟨k, hr, h0, hk, hw⟩⟩
  · rintro ⟨m, segs, b1, s1, w1, hm, hf, ha, hl, b2, ⟨hr, he, rfl⟩ | ⟨k, hr, h0, hk, hw⟩⟩
    · cases e with
      | interrupted => exact absurd rfl he
      | other msg => exact ⟨m, segs, b1, s1, w', hm, hf, ha, hl, .fail msg hr⟩
    · exact ⟨m, segs, b1, s1, w1, hm, hf, ha, hl, .write k e hr h0 hk hw⟩

/-- C78.  `copy_wide` panics exactly if a call of `read` claims to have delivered more than the buffer holds, or the writer panics, or overflow
is checked and the bytes accepted are 2^64 or more. -/
theorem C78_panic (cfg : Config) (prof : Profile) (write_all : W → Bytes → R (Except IoError Unit × W))
    (read : Reader (COPY_BUF_LEN cfg) S) (w : W) (s : S) (p : Panic) (n : Nat) :
    copy_run prof write_all read n (copy_start cfg w s) = .error p ↔
      ∃ m segs b1 s1 w1, m < n ∧ Feeds read (zeros _) s m segs b1 s1 ∧ Accepts write_all w segs w1 ∧
        Counts prof segs.flatten.length ∧ ∃ k b2 s2, read s1 b1 = (.ok k, b2, s2) ∧
        ((COPY_BUF_LEN cfg < k ∧ p = .bounds) ∨
          (0 < k ∧ k ≤ COPY_BUF_LEN cfg ∧ write_all w1 (b2.toList.take k) = .error p) ∨
          (0 < k ∧ k ≤ COPY_BUF_LEN cfg ∧ (∃ w2, write_all w1 (b2.toList.take k) = .ok (.ok (), w2)) ∧ prof = .debug ∧
            2 ^ 64 ≤ segs.flatten.length + k ∧ p = .overflow)) := by
  rw [copy_start, run_over (buf_small cfg) _ _ _ _ _ _ _ _ _ (by intro _ _ _ _ h; cases h)]
  simp only [BitVec.toNat_zero, Nat.zero_add, BitVec.zero_add, BitVec.ofNat_eq_ofNat]
  have tot : ∀ {segs : List Bytes} {k : Nat}, Counts prof segs.flatten.length →
      (¬ Counts prof ((BitVec.ofNat 64 segs.flatten.length).toNat + k) ↔ prof = .debug ∧ 2 ^ 64 ≤ segs.flatten.length + k) := by
    intro segs k hl
    cases prof with
    | release => exact ⟨fun h => absurd (fun h => by cases h) h, fun h => by cases h.1⟩
    | debug =>
      rw [BitVec.toNat_ofNat, Nat.mod_eq_of_lt (hl rfl)]
      exact ⟨fun h => ⟨rfl, Nat.not_lt.1 fun h' => h fun _ => h'⟩, fun h h' => Nat.not_lt.2 h.2 (h' rfl)⟩
  constructor
  · rintro ⟨m, segs, b1, s1, w1, hm, hf, ha, hl, ht⟩
    refine ⟨m, segs, b1, s1, w1, hm, hf, ha, hl, ?_⟩
    cases ht with
    | lie k hr hk => exact ⟨k, _, _, hr, .inl ⟨hk, rfl⟩⟩
    | panic k p hr h0 hk hw => exact ⟨k, _, _, hr, .inr (.inl ⟨h0, hk, hw⟩)⟩
    | over k hr h0 hk hw hc =>
      have := (tot hl).1 hc
      exact ⟨k, _, _, hr, .inr (.inr ⟨h0, hk, ⟨_, hw⟩, this.1, this.2, rfl⟩)⟩
  · rintro ⟨m, segs, b1, s1, w1, hm, hf, ha, hl, k, b2, s2, hr, ⟨hk, rfl⟩ | ⟨h0, hk, hw⟩ | ⟨h0, hk, ⟨w2, hw⟩, hp, hc, rfl⟩⟩
    · exact ⟨m, segs, b1, s1, w1, hm, hf, ha, hl, .lie k hr hk⟩
    · exact ⟨m, segs, b1, s1, w1, hm, hf, ha, hl, .panic k p hr h0 hk hw⟩
    · exact ⟨m, segs, b1, s1, w1, hm, hf, ha, hl, .over k hr h0 hk hw ((tot hl).2 ⟨hp, hc⟩)⟩

/-- C78.  A reader that is only ever interrupted keeps `copy_wide` busy for ever, and the writer is not touched. -/
theorem C78_interrupted (cfg : Config) (prof : Profile) (write_all : W → Bytes → R (Except IoError Unit × W))
    (read : Reader (COPY_BUF_LEN cfg) S) (w : W) (s : S) (h : ∀ s b, (read s b).1 = .error .interrupted) (n : Nat) :
    ∃ b' s', copy_run prof write_all read n (copy_start cfg w s) = .ok (.running b' 0 w s') := by
  have feed : ∀ n s b, ∃ b' s', Feeds read b s n [] b' s' := by
    intro n
    induction n with
    | zero => exact fun s b => ⟨b, s, .nil b s⟩
    | succ n ih =>
      intro s b
      obtain ⟨b', s', hf⟩ := ih (read s b).2.2 (read s b).2.1
      exact ⟨b', s', .retry (Prod.ext (h s b) rfl) hf⟩
  obtain ⟨b', s', hf⟩ := feed n s (zeros _)
  exact ⟨b', s', (C78_running cfg prof write_all read w w s s' b' 0 n).2 ⟨[], hf, .nil w, fun _ => Nat.two_pow_pos 64, rfl⟩⟩

/-- C78.  A reader that never ends, and always delivers: with a writer that always accepts, `copy_wide` never returns if
overflow is not checked; if it is checked, it panics, after at most `2 ^ 64` calls. -/
theorem C78_endless (cfg : Config) (write_all : W → Bytes → R (Except IoError Unit × W))
    (read : Reader (COPY_BUF_LEN cfg) S) (w : W) (s : S)
    (h : ∀ s b, ∃ k, (read s b).1 = .ok k ∧ 0 < k ∧ k ≤ COPY_BUF_LEN cfg)
    (hw : ∀ w d, ∃ w', write_all w d = .ok (.ok (), w')) :
    (∀ n, ∃ b' t' w' s', copy_run .release write_all read n (copy_start cfg w s) = .ok (.running b' t' w' s')) ∧
    copy_run .debug write_all read (2 ^ 64) (copy_start cfg w s) = .error .overflow := by
  have feed : ∀ n s b, ∃ segs b' s', Feeds read b s n segs b' s' ∧ n ≤ segs.flatten.length := by
    intro n
    induction n with
    | zero => exact fun s b => ⟨[], b, s, .nil b s, Nat.le_refl _⟩
    | succ n ih =>
      intro s b
      obtain ⟨k, e, h0, hk⟩ := h s b
      obtain ⟨segs, b', s', hf, hl⟩ := ih (read s b).2.2 (read s b).2.1
      refine ⟨_, b', s', .data k (Prod.ext e rfl) h0 hk hf, ?_⟩
      rw [List.flatten_cons, List.length_append, length_take hk]
      omega
  have acc : ∀ (segs : List Bytes) w, ∃ w', Accepts write_all w segs w' := by
    intro segs
    induction segs with
    | nil => exact fun w => ⟨w, .nil w⟩
    | cons d ds ih =>
      intro w
      obtain ⟨w1, e⟩ := hw w d
      obtain ⟨w2, a⟩ := ih w1
      exact ⟨w2, .cons e a⟩
  constructor
  · intro n
    obtain ⟨segs, b', s', hf, -⟩ := feed n s (zeros _)
    obtain ⟨w', ha⟩ := acc segs w
    exact ⟨b', _, w', s', (C78_running cfg .release write_all read w w' s s' b' _ n).2 ⟨segs, hf, ha, (fun h => by cases h), rfl⟩⟩
  · have feeds_le : ∀ {b s n segs b' s'}, Feeds read b s n segs b' s' → n ≤ segs.flatten.length := by
      intro b s n segs b' s' hf
      induction hf with
      | nil => exact Nat.le_refl _
      | @retry b s b1 s1 n segs b' s' hr hf ih =>
        obtain ⟨k, e, -, -⟩ := h s b
        rw [hr] at e
        cases e
      | data k hr h0 hk hf ih =>
        rw [List.flatten_cons, List.length_append, length_take hk]
        omega
    generalize hN : 2 ^ 64 = N
    generalize hc : copy_run .debug write_all read N (copy_start cfg w s) = c
    match c, hc with
    | .ok (.running b' t' w' s'), hc =>
      obtain ⟨segs, hf, ha, hl, -⟩ := (C78_running cfg .debug write_all read w w' s s' b' t' N).1 hc
      have := feeds_le hf
      have := hl rfl
      omega
    | .ok (.returned (.ok t') w' s'), hc =>
      obtain ⟨m, segs, b1, s1, b2, -, -, hr, -⟩ := (C78_ok cfg .debug write_all read w w' s s' t' N).1 hc
      obtain ⟨k, e, h0, -⟩ := h s1 b1
      rw [hr] at e
      cases e
      exact absurd h0 (Nat.lt_irrefl 0)
    | .ok (.returned (.error e) w' s'), hc =>
      obtain ⟨m, segs, b1, s1, w1, -, -, -, -, b2, ⟨hr, -⟩ | ⟨k, -, -, -, hw'⟩⟩ :=
        (C78_error cfg .debug write_all read w w' s s' e N).1 hc
      · obtain ⟨k, e, h0, -⟩ := h s1 b1
        rw [hr] at e
        cases e
      · obtain ⟨w2, e⟩ := hw w1 (b2.toList.take k)
        rw [hw'] at e
        cases e
    | .error p, hc =>
      obtain ⟨m, segs, b1, s1, w1, -, -, -, -, k, b2, s2, hr, ⟨hk, -⟩ | ⟨-, -, hw'⟩ | ⟨-, -, -, -, -, rfl⟩⟩ :=
        (C78_panic cfg .debug write_all read w s p N).1 hc
      · obtain ⟨k', e, -, hk'⟩ := h s1 b1
        rw [hr] at e
        cases e
        omega
      · obtain ⟨w2, e⟩ := hw w1 (b2.toList.take k)
        rw [hw'] at e
        cases e
      · rfl

theorem Feeds.nonempty {read : Reader B S} {b b' : Vector Byte B} {s s' : S} {n : Nat} {segs : List Bytes}
    (hf : Feeds read b s n segs b' s') : ∀ d ∈ segs, d ≠ [] := by
  induction hf with
  | nil => intro d h; cases h
  | retry _ _ ih => exact ih
  | data k hr h0 hk hf ih =>
    refine List.forall_mem_cons.2 ⟨fun e => ?_, ih⟩
    have := length_take (b := _) hk ▸ congrArg List.length e
    rw [List.length_nil] at this
    omega

/-- C78.  Copying into a hasher that has got the slices `ss`: after any number of calls of `read` the hasher is the hasher of all bytes read so far.
This holds for a reader that never ends, too. -/
theorem C78_hash (cfg : Config) (prof : Profile) (m : Spec.Mode) (ss : List Bytes) (read : Reader (COPY_BUF_LEN cfg) S) (s s' : S)
    (b' : Vector Byte (COPY_BUF_LEN cfg)) (n : Nat) (segs : List Bytes) (hf : Feeds read (zeros _) s n segs b' s')
    (hl : ss.flatten.length + segs.flatten.length < 2 ^ 64) :
    ∃ h h', (newHasher cfg m).updates cfg ss = .ok h ∧
      copy_run prof (hasherWriter cfg) read n (copy_start cfg h s) =
        .ok (.running b' (BitVec.ofNat 64 segs.flatten.length) h' s') ∧
      h'.finalize = .ok (Spec.hash m (ss.flatten ++ segs.flatten)) := by
  obtain ⟨h, e1, hh⟩ := (HasherAt.new cfg m).updates ss (by rw [List.length_nil]; omega)
  rw [List.nil_append] at hh
  obtain ⟨h', a, ok⟩ := hasher_accepts cfg m segs hf.nonempty hh hl
  exact ⟨h, h', e1, (C78_running cfg prof _ read h h' s s' b' _ n).2 ⟨segs, hf, a, fun _ => by omega, rfl⟩, ok.finalize⟩

/-! ## The readers of C20 -/

theorem length_overwrite' (b d : Bytes) : (overwrite b d).length = b.length := by
  rw [overwrite, List.length_take, List.length_append, List.length_drop]
  omega

/-- a buffer after a reader has written `d` to it -/
def put (b : Vector Byte B) (d : Bytes) : Vector Byte B :=
  ⟨(overwrite b.toList d).toArray, by rw [List.size_toArray, length_overwrite', Vector.length_toList]⟩

/-- the reader with the results `es`, and `Ok(0)` for ever after -/
def listReader : Reader B (List ReadEvent)
  | [], b => (.ok 0, b, [])
  | .ok n d :: es, b => (.ok n, put b d, es)
  | .err e :: es, b => (.error e, b, es)

theorem run_list (write_all : W → Bytes → R (Except IoError Unit × W)) (es : List ReadEvent) :
    ∀ (b : Vector Byte B) (t : U64) (w : W), copy_run .debug write_all listReader (es.length + 1) (.running b t w es) =
      (copy_loop write_all b.toList t w es).map fun x => .returned x.1 x.2.1 x.2.2 := by
  induction es with
  | nil => intro b t w; rfl
  | cons a es ih =>
    intro b t w
    rw [List.length_cons, copy_run]
    match a with
    | .err .interrupted => exact ih b t w
    | .err (.other m) => exact run_returned .debug write_all listReader _ _ _ _
    | .ok n d =>
      have hp : (put b d).toList = overwrite b.toList d := rfl
      rw [copy_loop, copy_turn, listReader]
      dsimp only
      by_cases h : n = 0
      · rw [if_pos h, if_pos h]
        exact run_returned .debug write_all listReader _ _ _ _
      · rw [if_neg h, if_neg h, hp]
        cases hs : sliceTo (overwrite b.toList d) n with
        | error p => rfl
        | ok x =>
          rw [bind_ok, bind_ok]
          match hw : write_all w x with
          | .error p => rfl
          | .ok (.error e, w1) => exact run_returned .debug write_all listReader _ _ _ _
          | .ok (.ok (), w1) =>
            rw [bind_ok, bind_ok]
            dsimp only
            rw [addTotal]
            cases ha : addU64 t (BitVec.ofNat 64 n) with
            | error p => rfl
            | ok t1 =>
              rw [bind_ok, bind_ok]
              exact ih (put b d) t1 w1

/-- C78.  For a reader given by a list of results, this is the `copy_wide` of C20. -/
theorem C78_lists (cfg : Config) (write_all : W → Bytes → R (Except IoError Unit × W)) (es : List ReadEvent) (w : W) :
    copy_run .debug write_all listReader (es.length + 1) (copy_start cfg w es) =
      (copy_wide cfg write_all es w).map fun x => .returned x.1 x.2.1 x.2.2 := by
  rw [copy_start, run_list, copy_wide]
  congr 2

/-! ## Cases -/

/-- an endless reader that counts: the `i`-th call writes the byte `i` and some junk behind it; every third call is interrupted -/
def counter : Reader B Nat := fun i b =>
  if i % 3 = 2 then (.error .interrupted, put b [99], i + 1) else (.ok 1, put b [BitVec.ofNat 8 i, 77], i + 1)

theorem counter_data {b : Vector Byte B} {i n : Nat} {segs : List Bytes} {b' : Vector Byte B} {s' : Nat} (hB : 1 ≤ B)
    (h : i % 3 ≠ 2) (hf : Feeds counter (put b [BitVec.ofNat 8 i, 77]) (i + 1) n segs b' s') :
    Feeds counter b i (n + 1) ([BitVec.ofNat 8 i] :: segs) b' s' := by
  have e : (put b [BitVec.ofNat 8 i, 77]).toList.take 1 = [BitVec.ofNat 8 i] := by
    show (overwrite b.toList _).take 1 = _
    rw [overwrite, List.take_take, Vector.length_toList, Nat.min_eq_left hB]
    rfl
  exact e ▸ Feeds.data 1 (by rw [counter, if_neg h]) Nat.one_pos hB hf

example : ∃ b', Feeds (B := COPY_BUF_LEN exSmall) counter (zeros _) 0 4 [[0], [1], [3]] b' 4 := by
  have h : 1 ≤ COPY_BUF_LEN exSmall := by decide
  exact ⟨_, counter_data h (by decide) (counter_data h (by decide) (.retry (by rw [counter, if_pos (by decide)])
    (counter_data h (by decide) (.nil _ _))))⟩

/-- an endless reader without interruptions, as in `C78_endless` -/
example : ∀ (s : Unit) (b : Vector Byte (COPY_BUF_LEN exSmall)), ∃ k,
    ((fun s b => (.ok 1, b, s) : Reader (COPY_BUF_LEN exSmall) Unit) s b).1 = .ok k ∧ 0 < k ∧ k ≤ COPY_BUF_LEN exSmall :=
  fun _ _ => ⟨1, rfl, by decide, by decide⟩

example : ∀ (w d : Bytes), ∃ w', collect w d = .ok (.ok (), w') := fun w d => ⟨w ++ d, rfl⟩

example : ∀ (s : Unit) (b : Vector Byte (COPY_BUF_LEN exSmall)),
    ((fun s b => (.error .interrupted, put b [1], s) : Reader (COPY_BUF_LEN exSmall) Unit) s b).1 = .error .interrupted :=
  fun _ _ => rfl

example : ([[5], []] : List Bytes).flatten.length + ([[0], [1], [3]] : List Bytes).flatten.length < 2 ^ 64 := by decide

end Baokeshed.Props.CopyStep
