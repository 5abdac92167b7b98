import Verif.Model.CliIo
import Verif.Proofs.HashMany

/-!
# Proofs about standard output
-/

set_option linter.unusedVariables false

namespace Baokeshed.Proofs.Stdout
open Baokeshed.Model Baokeshed.Model.Stdout

/-- one of the writes to the device will fail -/
def Failing (dev : List WriteEvent) : Prop := .fail ∈ dev ∨ .accept 0 ∈ dev

theorem Failing.mono {a b : List WriteEvent} (h : a <:+ b) (f : Failing a) : Failing b :=
  f.imp (fun m => h.subset m) (fun m => h.subset m)

/-- everything printed so far -/
def all (s : State) : Bytes := s.delivered ++ s.buf

theorem drain_spec (dev : List WriteEvent) : ∀ (d b : Bytes),
    (drain dev d b).2.2.1 ++ (drain dev d b).2.1 = d ++ b ∧ (drain dev d b).2.2.2 <:+ dev ∧
    ((drain dev d b).1 = true → (drain dev d b).2.1 = []) ∧ ((drain dev d b).1 = false → Failing dev) := by
  induction dev with
  | nil =>
    intro d b
    rw [drain.eq_def]
    split
    next h => exact ⟨rfl, List.suffix_refl _, fun _ => h, by rintro ⟨⟩⟩
    next h => exact ⟨List.append_nil _, List.suffix_refl _, fun _ => rfl, by rintro ⟨⟩⟩
  | cons e dev ih =>
    intro d b
    rw [drain.eq_def]
    split
    next h => exact ⟨rfl, List.suffix_refl _, fun _ => h, by rintro ⟨⟩⟩
    next h =>
    cases e with
    | accept n =>
      dsimp only
      split
      next h0 => exact ⟨rfl, List.suffix_cons _ _, by rintro ⟨⟩, fun _ => .inr (by rw [h0]; exact List.mem_cons_self)⟩
      next h0 =>
        obtain ⟨h1, h2, h3, h4⟩ := ih (d ++ b.take n) (b.drop n)
        exact ⟨by rw [h1, List.append_assoc, List.take_append_drop], h2.trans (List.suffix_cons _ _), h3,
          fun h => (h4 h).mono (List.suffix_cons _ _)⟩
    | interrupted =>
      obtain ⟨h1, h2, h3, h4⟩ := ih d b
      exact ⟨h1, h2.trans (List.suffix_cons _ _), h3, fun h => (h4 h).mono (List.suffix_cons _ _)⟩
    | fail => exact ⟨rfl, List.suffix_cons _ _, by rintro ⟨⟩, fun _ => .inl List.mem_cons_self⟩

/-- A write of `bytes` turns `s` into `r.2`: on success they are added, on failure some of them may be. -/
structure Good (s : State) (bytes : Bytes) (r : Bool × State) : Prop where
  version : r.2.version = s.version
  cap : r.2.cap = s.cap
  dev : r.2.dev <:+ s.dev
  ok : r.1 = true → all r.2 = all s ++ bytes
  err : r.1 = false → all r.2 <+: all s ++ bytes ∧ Failing s.dev

theorem Good.refl (s : State) : Good s [] (true, s) :=
  ⟨rfl, rfl, List.suffix_refl _, fun _ => (List.append_nil _).symm, by rintro ⟨⟩⟩

theorem Good.trans {s s1 : State} {a b : Bytes} {r : Bool × State} (h1 : Good s a (true, s1)) (h2 : Good s1 b r) :
    Good s (a ++ b) r := by
  have e := h1.ok rfl
  refine ⟨h2.version.trans h1.version, h2.cap.trans h1.cap, h2.dev.trans h1.dev, fun h => ?_, fun h => ?_⟩
  · rw [h2.ok h, e, List.append_assoc]
  · obtain ⟨h3, h4⟩ := h2.err h
    rw [e, List.append_assoc] at h3
    exact ⟨h3, h4.mono h1.dev⟩

theorem Good.fails {s s1 : State} {a b : Bytes} (h1 : Good s a (false, s1)) : Good s (a ++ b) (false, s1) := by
  obtain ⟨h3, h4⟩ := h1.err rfl
  refine ⟨h1.version, h1.cap, h1.dev, (by rintro ⟨⟩), fun _ => ⟨h3.trans ?_, h4⟩⟩
  rw [← List.append_assoc]
  exact List.prefix_append _ _

theorem flush_good (s : State) : Good s [] s.flush_buf := by
  obtain ⟨h1, h2, h3, h4⟩ := drain_spec s.dev s.delivered s.buf
  refine ⟨rfl, rfl, h2, fun _ => ?_, fun h => ⟨?_, h4 h⟩⟩
  · rw [List.append_nil]; exact h1
  · have e : all s.flush_buf.2 = all s := h1
    rw [List.append_nil, e]; exact List.prefix_refl _

theorem flush_all (s : State) : all s.flush_buf.2 = all s := (drain_spec s.dev s.delivered s.buf).1

theorem flush_empty (s : State) (h : s.flush_buf.1 = true) : s.flush_buf.2.buf = [] :=
  (drain_spec s.dev s.delivered s.buf).2.2.1 h

theorem rawWriteAll_good (s : State) (bytes : Bytes) (h0 : s.buf = []) : Good s bytes (s.rawWriteAll bytes) := by
  obtain ⟨h1, h2, h3, h4⟩ := drain_spec s.dev s.delivered bytes
  refine ⟨rfl, rfl, h2, fun h => ?_, fun h => ⟨?_, h4 h⟩⟩
  · rw [h3 h, List.append_nil] at h1
    show _ ++ s.buf = (s.delivered ++ s.buf) ++ bytes
    rw [h0, List.append_nil, List.append_nil]
    exact h1
  · show _ ++ s.buf <+: (s.delivered ++ s.buf) ++ bytes
    rw [h0, List.append_nil, List.append_nil, ← h1]
    exact List.prefix_append _ _

theorem push_good (s : State) (bytes : Bytes) : Good s bytes (true, { s with buf := s.buf ++ bytes }) :=
  ⟨rfl, rfl, List.suffix_refl _, fun _ => (List.append_assoc ..).symm, by rintro ⟨⟩⟩

theorem bufWriteAll_good (s : State) (bytes : Bytes) : Good s bytes (s.bufWriteAll bytes) := by
  rw [State.bufWriteAll]
  split
  · exact push_good s bytes
  next h1 =>
  by_cases h2 : bytes.length > s.cap - s.buf.length
  · rw [if_pos h2]
    have hg := flush_good s
    have he := flush_empty s
    generalize s.flush_buf = r at hg he
    obtain ⟨ok, s1⟩ := r
    cases ok with
    | false => exact hg.fails
    | true =>
      dsimp only
      rw [if_neg (by decide)]
      split
      · exact hg.trans (rawWriteAll_good s1 bytes (he rfl))
      · exact hg.trans (push_good s1 bytes)
  · rw [if_neg h2]
    dsimp only
    rw [if_neg (by decide)]
    split
    next h3 =>
      by_cases hb : s.buf = []
      · exact rawWriteAll_good s bytes hb
      · have := List.length_pos_iff.2 hb
        have h0 : bytes = [] := List.eq_nil_of_length_eq_zero (by omega)
        subst h0
        have : s.rawWriteAll [] = (true, s) := by rw [State.rawWriteAll, drain.eq_def]; rfl
        rw [this]
        exact Good.refl s
    · exact push_good s bytes

theorem splitLines_some {bytes l t : Bytes} (h : splitLines bytes = some (l, t)) : bytes = l ++ t ∧ l ≠ [] := by
  induction bytes generalizing l t with
  | nil => cases h
  | cons b bs ih =>
    rw [splitLines] at h
    split at h
    next l' t' e =>
      cases h
      rw [(ih e).1]
      exact ⟨rfl, List.cons_ne_nil _ _⟩
    · split at h
      · cases h; exact ⟨rfl, List.cons_ne_nil _ _⟩
      · cases h

theorem splitLines_newline (bytes : Bytes) : splitLines (bytes ++ [0x0a]) = some (bytes ++ [0x0a], []) := by
  induction bytes with
  | nil => rfl
  | cons b bs ih => rw [List.cons_append, splitLines, ih]

theorem splitLines_none {bytes : Bytes} (h : ∀ b ∈ bytes, b ≠ 0x0a) : splitLines bytes = none := by
  induction bytes with
  | nil => rfl
  | cons b bs ih =>
    rw [splitLines, ih fun x hx => h x (List.mem_cons_of_mem _ hx)]
    exact if_neg (h b List.mem_cons_self)

theorem newWriteAll_good (s : State) (bytes : Bytes) : Good s bytes (s.newWriteAll bytes) := by
  rw [State.newWriteAll]
  split
  · have hg : Good s [] s.flush_if_completed_line := by
      rw [State.flush_if_completed_line]
      split
      · exact flush_good s
      · exact Good.refl s
    generalize s.flush_if_completed_line = r at hg
    obtain ⟨ok, s1⟩ := r
    cases ok with
    | false => exact hg.fails
    | true => exact hg.trans (bufWriteAll_good s1 bytes)
  next l t e =>
  rw [(splitLines_some e).1]
  split
  next h0 =>
    have hg := rawWriteAll_good s l h0
    generalize s.rawWriteAll l = r at hg
    obtain ⟨ok, s1⟩ := r
    cases ok with
    | false => exact hg.fails
    | true => exact hg.trans (bufWriteAll_good s1 t)
  next h0 =>
    have hg := bufWriteAll_good s l
    generalize s.bufWriteAll l = r at hg
    obtain ⟨ok, s1⟩ := r
    cases ok with
    | false => exact hg.fails
    | true =>
      have hf := flush_good s1
      dsimp only
      rw [if_neg (by decide)]
      generalize s1.flush_buf = r at hf
      obtain ⟨ok, s2⟩ := r
      cases ok with
      | false =>
        have := hg.trans hf
        rw [List.append_nil] at this
        exact this.fails
      | true =>
        have := hg.trans hf
        rw [List.append_nil] at this
        exact this.trans (bufWriteAll_good s2 t)

theorem bufWriteAll_nil (s : State) (h : s.buf = []) : s.bufWriteAll [] = (true, s) := by
  have hp : ({ s with buf := s.buf ++ [] } : State) = s := by rw [List.append_nil]
  have hr : s.rawWriteAll [] = (true, s) := by rw [State.rawWriteAll, drain.eq_def]; rfl
  rw [State.bufWriteAll]
  split
  · rw [hp]
  · rw [if_neg (by simp)]
    dsimp only
    rw [if_neg (by decide), hr, hp]
    split <;> rfl

/-- the new `LineWriter` keeps no completed line in its buffer -/
theorem newWriteAll_clears (s : State) (bytes : Bytes) (h : (s.newWriteAll (bytes ++ [0x0a])).1 = true) :
    (s.newWriteAll (bytes ++ [0x0a])).2.buf = [] := by
  rw [State.newWriteAll, splitLines_newline] at h ⊢
  dsimp only at h ⊢
  split at h
  next h0 =>
    rw [if_pos h0]
    have hb : (s.rawWriteAll (bytes ++ [0x0a])).2.buf = [] := h0
    generalize s.rawWriteAll (bytes ++ [0x0a]) = r at h hb ⊢
    obtain ⟨ok, s1⟩ := r
    cases ok with
    | false => cases h
    | true =>
      dsimp only at h ⊢
      rw [if_neg (by decide), bufWriteAll_nil s1 hb]
      exact hb
  next h0 =>
    rw [if_neg h0]
    generalize s.bufWriteAll (bytes ++ [0x0a]) = r at h ⊢
    obtain ⟨ok, s1⟩ := r
    cases ok with
    | false => cases h
    | true =>
      have hb := flush_empty s1
      dsimp only at h ⊢
      rw [if_neg (by decide)] at h ⊢
      generalize s1.flush_buf = r at h hb ⊢
      obtain ⟨ok, s2⟩ := r
      cases ok with
      | false => cases h
      | true =>
        dsimp only at h ⊢
        rw [if_neg (by decide), bufWriteAll_nil s2 (hb rfl)]
        exact hb rfl

/-! ## The old `LineWriter` -/

/-- A `write` of `bytes` turns `s` into `r.2`. -/
structure GoodW (s : State) (bytes : Bytes) (r : Written × State) : Prop where
  version : r.2.version = s.version
  cap : r.2.cap = s.cap
  dev : r.2.dev <:+ s.dev
  ok : ∀ n, r.1 = .ok n → n ≤ bytes.length ∧ all r.2 = all s ++ bytes.take n ∧ (n = 0 → bytes ≠ [] → Failing s.dev)
  int : r.1 = .interrupted → all r.2 = all s ∧ r.2.dev.length < s.dev.length
  err : r.1 = .error → all r.2 = all s ∧ Failing s.dev

theorem GoodW.after {s s1 : State} {bytes : Bytes} {r : Written × State} (h1 : Good s [] (true, s1))
    (h2 : GoodW s1 bytes r) : GoodW s bytes r := by
  have e := h1.ok rfl
  rw [List.append_nil] at e
  refine ⟨h2.version.trans h1.version, h2.cap.trans h1.cap, h2.dev.trans h1.dev, fun n h => ?_, fun h => ?_, fun h => ?_⟩
  · obtain ⟨a, b, c⟩ := h2.ok n h
    rw [e] at b
    exact ⟨a, b, fun x y => (c x y).mono h1.dev⟩
  · obtain ⟨a, b⟩ := h2.int h
    rw [e] at a
    exact ⟨a, Nat.lt_of_lt_of_le b h1.dev.length_le⟩
  · obtain ⟨a, b⟩ := h2.err h
    rw [e] at a
    exact ⟨a, b.mono h1.dev⟩

theorem GoodW.failed {s s1 : State} {bytes : Bytes} (h1 : Good s [] (false, s1)) (h2 : all s1 = all s) :
    GoodW s bytes (.error, s1) :=
  ⟨h1.version, h1.cap, h1.dev, (by rintro n ⟨⟩), (by rintro ⟨⟩), fun _ => ⟨h2, (h1.err rfl).2⟩⟩

theorem rawWrite_good (s : State) (bytes : Bytes) (h0 : s.buf = []) : GoodW s bytes (s.rawWrite bytes) := by
  have ha : ∀ (d : Bytes) (dev), all { s with delivered := d, dev := dev } = d := fun d dev => by
    show d ++ s.buf = d
    rw [h0, List.append_nil]
  have hs : all s = s.delivered := by rw [all, h0, List.append_nil]
  rw [State.rawWrite]
  split
  next e =>
    refine ⟨rfl, rfl, List.suffix_refl _, fun n h => ?_, by rintro ⟨⟩, by rintro ⟨⟩⟩
    cases h
    refine ⟨Nat.le_refl _, ?_, fun h1 h2 => absurd (List.eq_nil_of_length_eq_zero h1) h2⟩
    rw [List.take_length]
    exact (ha _ _).trans (by rw [hs])
  next m dev e =>
    refine ⟨rfl, rfl, by rw [e]; exact List.suffix_cons _ _, fun n h => ?_, by rintro ⟨⟩, by rintro ⟨⟩⟩
    cases h
    refine ⟨Nat.min_le_right _ _, (ha _ _).trans ?_, fun h1 h2 => ?_⟩
    · rw [hs]
      congr 1
      by_cases hm : m ≤ bytes.length
      · rw [Nat.min_eq_left hm]
      · rw [Nat.min_eq_right (by omega), List.take_length, List.take_of_length_le (by omega)]
    · have := List.length_pos_iff.2 h2
      have h3 : m = 0 := by omega
      rw [e, h3]
      exact .inr List.mem_cons_self
  next dev e =>
    refine ⟨rfl, rfl, by rw [e]; exact List.suffix_cons _ _, by rintro n ⟨⟩, fun _ => ⟨rfl, ?_⟩, by rintro ⟨⟩⟩
    rw [e]; exact Nat.lt_succ_self _
  next dev e =>
    refine ⟨rfl, rfl, by rw [e]; exact List.suffix_cons _ _, by rintro n ⟨⟩, by rintro ⟨⟩, fun _ => ⟨rfl, ?_⟩⟩
    rw [e]; exact .inl List.mem_cons_self

theorem pushW_good (s : State) (bytes : Bytes) : GoodW s bytes (.ok bytes.length, { s with buf := s.buf ++ bytes }) := by
  refine ⟨rfl, rfl, List.suffix_refl _, fun n h => ?_, by rintro ⟨⟩, by rintro ⟨⟩⟩
  cases h
  refine ⟨Nat.le_refl _, ?_, fun h1 h2 => absurd (List.eq_nil_of_length_eq_zero h1) h2⟩
  rw [List.take_length]
  exact (List.append_assoc ..).symm

theorem bufWrite_good (s : State) (bytes : Bytes) : GoodW s bytes (s.bufWrite bytes) := by
  rw [State.bufWrite]
  by_cases h1 : s.buf.length + bytes.length > s.cap
  · rw [if_pos h1]
    have hg := flush_good s
    have he := flush_empty s
    have ha := flush_all s
    generalize s.flush_buf = r at hg he ha
    obtain ⟨ok, s1⟩ := r
    cases ok with
    | false => exact GoodW.failed hg ha
    | true =>
      dsimp only
      rw [if_neg (by decide)]
      split
      · exact GoodW.after hg (rawWrite_good s1 bytes (he rfl))
      · exact GoodW.after hg (pushW_good s1 bytes)
  · rw [if_neg h1]
    dsimp only
    rw [if_neg (by decide)]
    split
    · exact rawWrite_good s bytes (List.eq_nil_of_length_eq_zero (by omega))
    · exact pushW_good s bytes

theorem lineFlush_good (s : State) : Good s [] s.flush ∧ all s.flush.2 = all s := by
  rw [State.flush]
  have hg := flush_good s
  have ha := flush_all s
  generalize s.flush_buf = r at hg ha
  obtain ⟨ok, s1⟩ := r
  cases ok with
  | false => exact ⟨hg, ha⟩
  | true => exact ⟨⟨hg.version, hg.cap, hg.dev, hg.ok, hg.err⟩, ha⟩

theorem oldWrite_good (s : State) (bytes : Bytes) (hb : bytes ≠ []) : GoodW s bytes (s.oldWrite bytes) := by
  rw [State.oldWrite]
  have hg : Good s [] (if s.need_flush then s.flush else (true, s)) ∧
      all (if s.need_flush then s.flush else (true, s)).2 = all s := by
    split
    · exact lineFlush_good s
    · exact ⟨Good.refl s, rfl⟩
  generalize (if s.need_flush then s.flush else (true, s)) = r at hg
  obtain ⟨ok, s1⟩ := r
  obtain ⟨hg, ha⟩ := hg
  cases ok with
  | false => exact GoodW.failed hg ha
  | true =>
  dsimp only
  rw [if_neg (by decide)]
  refine GoodW.after hg ?_
  clear hg ha
  split
  · exact bufWrite_good s1 bytes
  next l t e =>
  obtain ⟨rfl, hl⟩ := splitLines_some e
  have h1 := bufWrite_good s1 l
  generalize s1.bufWrite l = r at h1
  obtain ⟨w, s2⟩ := r
  cases w with
  | interrupted => exact ⟨h1.version, h1.cap, h1.dev, (by rintro n ⟨⟩), h1.int, h1.err⟩
  | error => exact ⟨h1.version, h1.cap, h1.dev, (by rintro n ⟨⟩), h1.int, h1.err⟩
  | ok n =>
    obtain ⟨a, b, c⟩ := h1.ok n rfl
    dsimp only
    obtain ⟨h2, h3⟩ := lineFlush_good { s2 with need_flush := true }
    generalize ({ s2 with need_flush := true } : State).flush = r at h2 h3
    obtain ⟨ok, s3⟩ := r
    have hd : s3.dev <:+ s1.dev := h2.dev.trans h1.dev
    have h3 : all s3 = all s1 ++ l.take n := h3.trans b
    have hpart : GoodW s1 (l ++ t) (.ok n, s3) := by
      refine ⟨h2.version.trans h1.version, h2.cap.trans h1.cap, hd, fun k hk => ?_, (by rintro ⟨⟩), (by rintro ⟨⟩)⟩
      cases hk
      refine ⟨by rw [List.length_append]; omega, ?_, fun h _ => c h hl⟩
      rw [List.take_append_of_le_length a]
      exact h3
    dsimp only
    split
    · exact hpart
    next hcond =>
    have hn : n = l.length := by
      rcases Decidable.em (n = l.length) with h | h
      · exact h
      · exact absurd (by simp [h]) hcond
    have h4 := bufWrite_good s3 t
    generalize s3.bufWrite t = r at h4
    obtain ⟨w, s4⟩ := r
    have hv4 := h4.version.trans (h2.version.trans h1.version)
    have hc4 := h4.cap.trans (h2.cap.trans h1.cap)
    have hd4 := h4.dev.trans hd
    have hstay : all s4 = all s3 → GoodW s1 (l ++ t) (.ok n, s4) := fun h =>
      ⟨hv4, hc4, hd4, fun k hk => by rw [h]; exact hpart.ok k hk, (by rintro ⟨⟩), (by rintro ⟨⟩)⟩
    cases w with
    | interrupted => exact hstay (h4.int rfl).1
    | error => exact hstay (h4.err rfl).1
    | ok i =>
      obtain ⟨a', b', -⟩ := h4.ok i rfl
      refine ⟨hv4, hc4, hd4, fun k hk => ?_, (by rintro ⟨⟩), (by rintro ⟨⟩)⟩
      cases hk
      refine ⟨by rw [List.length_append]; omega, ?_, fun h _ => c (by omega) hl⟩
      show all s4 = _
      rw [b', h3, hn, List.take_length, List.take_length_add_append, List.append_assoc]

theorem oldWriteAll_good (N : Nat) : ∀ (s : State) (bytes : Bytes), s.dev.length + bytes.length = N →
    Good s bytes (s.oldWriteAll bytes) := by
  induction N using Nat.strongRecOn with
  | ind N ih =>
  intro s bytes hN
  rw [State.oldWriteAll]
  split
  next h => rw [h]; exact Good.refl s
  next h0 =>
  have hg := oldWrite_good s bytes h0
  generalize s.oldWrite bytes = r at hg
  obtain ⟨w, s'⟩ := r
  have hv := hg.version
  have hc := hg.cap
  have hd := hg.dev
  cases w with
  | error =>
    obtain ⟨a, b⟩ := hg.err rfl
    refine ⟨hv, hc, hd, (by rintro ⟨⟩), fun _ => ⟨?_, b⟩⟩
    show all s' <+: _
    rw [a]
    exact List.prefix_append _ _
  | interrupted =>
    obtain ⟨a, b⟩ := hg.int rfl
    dsimp only at b ⊢
    rw [dif_pos b]
    have := (Good.mk hv hc hd (fun _ => by rw [List.append_nil]; exact a) (by rintro ⟨⟩) : Good s [] (true, s')).trans
      (ih _ (by omega) s' bytes rfl)
    exact this
  | ok n =>
    obtain ⟨a, b, c⟩ := hg.ok n rfl
    dsimp only at a b c ⊢
    split
    next hn =>
      refine ⟨hv, hc, hd, (by rintro ⟨⟩), fun _ => ⟨?_, c hn h0⟩⟩
      show all s' <+: _
      rw [b]
      exact (List.prefix_append_right_inj _).2 (List.take_prefix _ _)
    next hn =>
      have hlen : s'.dev.length + (bytes.drop n).length < s.dev.length + bytes.length := by
        have := hd.length_le
        dsimp only at this
        rw [List.length_drop]
        omega
      rw [dif_pos hlen]
      have := (Good.mk hv hc hd (fun _ => b) (by rintro ⟨⟩) : Good s (bytes.take n) (true, s')).trans
        (ih _ (by omega) s' (bytes.drop n) rfl)
      rw [List.take_append_drop] at this
      exact this

theorem write_all_good (s : State) (bytes : Bytes) : Good s bytes (s.write_all bytes) := by
  rw [State.write_all]
  split
  · exact oldWriteAll_good _ s bytes rfl
  · exact newWriteAll_good s bytes

/-- At the end of the program everything printed is in the buffer or has been delivered. -/
theorem cleanup_prefix (s : State) : s.cleanup.delivered <+: all s := by
  rw [← flush_all s]
  exact List.prefix_append _ _

theorem cleanup_empty (s : State) (h : s.buf = []) : s.cleanup.delivered = all s := by
  rw [State.cleanup, State.flush_buf, h, drain.eq_def, if_pos rfl, all, h, List.append_nil]

theorem cleanup_sound (s : State) (h : ¬ Failing s.dev) : s.cleanup.delivered = all s := by
  have := flush_all s
  rw [all, flush_empty s ?_, List.append_nil] at this
  · exact this
  · cases hc : s.flush_buf.1 with
    | true => rfl
    | false => exact absurd ((flush_good s).err hc).2 h

end Baokeshed.Proofs.Stdout
