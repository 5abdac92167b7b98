import Verif.Proofs.C.HasherExact
import Verif.Props.CHasherBig

/-!
# C74: exactly when the C hasher fails

C29 and C72 say what a C hasher returns if it returns anything, C30 and C38 name cases in which it fails.  Here is the
complete answer, for every sequence of calls of `hasher_update` and every total length.  It depends on the lengths
of the pieces only: what counts is which chunks lie wholly within one piece, for these are the ones that the main
loop of `hasher_update` pushes without merging the stack before.
-/

set_option linter.unusedVariables false

namespace Baokeshed.Props
open Baokeshed.Model Baokeshed.Proofs
attribute [local irreducible] Spec.compress Spec.cvBytes Spec.outBytes

/-- Chunk number `n`, that is, the bytes from `2048 * n` to `2048 * (n + 1)`, lies wholly within one of the pieces. -/
def wholeIn (ss : List (Bytes × Bytes)) (n : Nat) : Prop :=
  ∃ before s after, ss = before ++ s :: after ∧ (fed before).length ≤ 2048 * n ∧
    2048 * (n + 1) ≤ (fed before).length + s.1.length

/-- the same with `a` bytes before the pieces -/
def wholeFrom (a : Nat) (ss : List (Bytes × Bytes)) (n : Nat) : Prop :=
  ∃ before s after, ss = before ++ s :: after ∧ a + (fed before).length ≤ 2048 * n ∧
    2048 * (n + 1) ≤ a + (fed before).length + s.1.length

theorem wholeFrom_zero (ss : List (Bytes × Bytes)) (n : Nat) : wholeFrom 0 ss n ↔ wholeIn ss n := by
  simp only [wholeFrom, wholeIn, Nat.zero_add]

theorem wholeFrom_nil (a n : Nat) : ¬ wholeFrom a [] n := by
  rintro ⟨before, s, after, h, -⟩
  have := congrArg List.length h
  rw [List.length_append, List.length_cons, List.length_nil] at this
  omega

theorem wholeFrom_cons (a : Nat) (s : Bytes × Bytes) (ss : List (Bytes × Bytes)) (n : Nat) :
    wholeFrom a (s :: ss) n ↔ (a ≤ 2048 * n ∧ 2048 * (n + 1) ≤ a + s.1.length) ∨ wholeFrom (a + s.1.length) ss n := by
  constructor
  · rintro ⟨before, t, after, h, h1, h2⟩
    cases before with
    | nil =>
      rw [List.nil_append] at h
      cases h
      rw [fed_nil, List.length_nil, Nat.add_zero] at h1 h2
      exact Or.inl ⟨h1, h2⟩
    | cons x before =>
      rw [List.cons_append] at h
      cases h
      rw [fed_cons, List.length_append] at h1 h2
      exact Or.inr ⟨before, t, after, rfl, by omega, by omega⟩
  · rintro (⟨h1, h2⟩ | ⟨before, t, after, rfl, h1, h2⟩)
    · exact ⟨[], s, ss, rfl, by rw [fed_nil, List.length_nil]; omega, by rw [fed_nil, List.length_nil]; omega⟩
    · exact ⟨s :: before, t, after, rfl, by rw [fed_cons, List.length_append]; omega, by rw [fed_cons, List.length_append]; omega⟩

/-- all updates succeed -/
def AllUpd (cfg : C.Config) (M : Nat) : Nat → List (Bytes × Bytes) → Prop
  | _, [] => True
  | a, s :: ss => C.UpdOk cfg M a (a + s.1.length) ∧ AllUpd cfg M (a + s.1.length) ss

theorem feed_exact (cfg : C.Config) (h16 : 16 ≤ cfg.bits) {key : Vector Word 8} {flags : Byte} {M : Nat} (hM : M ≤ 1696) (h32 : 32 ≤ M)
    {p : Platform} (I : Nat → Prop) (hI : ∀ a b, I a → C.UpdOk cfg M a b → I b)
    (ss : List (Bytes × Bytes)) (hn : NeonLittle cfg ∨ ∀ s ∈ ss, s.1.length < 2048) : ∀ (bytes : Bytes) (h : C.hasher),
    C.COkR key flags M p bytes h → I bytes.length →
    (AllUpd cfg M bytes.length ss ∧ ∃ h', feed cfg h ss = .ok h' ∧ C.COkR key flags M p (bytes ++ fed ss) h') ∨
    (¬ AllUpd cfg M bytes.length ss ∧ ∃ err a, feed cfg h ss = .error err ∧ I a ∧ C.UpdErr cfg M a err) := by
  induction ss with
  | nil => intro bytes h hok _; exact Or.inl ⟨trivial, h, rfl, by rw [fed_nil, List.append_nil]; exact hok⟩
  | cons s ss ih =>
    obtain ⟨piece, beyond⟩ := s
    intro bytes h hok hi
    rcases C.update_exact key flags h16 hM h32 bytes piece beyond h hok (hn.imp_right fun h => h _ List.mem_cons_self) with
      ⟨hu, h1, e1, hok1⟩ | ⟨hu, err, e1, hb⟩
    · have hi1 := hI _ _ hi hu
      rcases ih (hn.imp_right fun h s hs => h s (List.mem_cons_of_mem _ hs)) (bytes ++ piece) h1 hok1 (by rw [List.length_append]; exact hi1) with
        ⟨ha, h2, e2, hok2⟩ | ⟨ha, err, a, e2, hb⟩
      · rw [List.length_append] at ha
        exact Or.inl ⟨⟨hu, ha⟩, h2, by rw [feed, e1, bind_ok, e2], by rw [fed_cons, ← List.append_assoc]; exact hok2⟩
      · rw [List.length_append] at ha
        exact Or.inr ⟨fun h => ha h.2, err, a, by rw [feed, e1, bind_ok, e2], hb⟩
    · exact Or.inr ⟨fun h => hu h.1, err, _, by rw [feed, e1]; rfl, hi, hb⟩

theorem updOk_le {cfg : C.Config} {M N a b : Nat} (h0 : ¬ C.Room M N) (ha : a ≤ 2048 * (N + 1)) (h : C.UpdOk cfg M a b) :
    b ≤ 2048 * (N + 1) := by
  rcases Nat.lt_or_ge (2048 * (N + 1)) b with hb | hb
  · exfalso
    by_cases h1 : 2048 * N < a
    · exact h0 (h.1 N h1 ha hb)
    · exact h0 (h.2 N (by omega) (by omega)).2
  · exact hb

theorem allUpd_iff {cfg : C.Config} {M N : Nat} (h0 : ¬ C.Room M N) (h1 : ∀ n, n < N → C.Room M n) (ss : List (Bytes × Bytes)) :
    ∀ a, a ≤ 2048 * (N + 1) → (AllUpd cfg M a ss ↔ a + (fed ss).length ≤ 2048 * (N + 1) ∧
      ∀ n, wholeFrom a ss n → C.PushOk cfg M n) := by
  induction ss with
  | nil =>
    intro a ha
    exact ⟨fun _ => ⟨by rw [fed_nil, List.length_nil]; exact ha, fun n h => absurd h (wholeFrom_nil a n)⟩, fun _ => trivial⟩
  | cons s ss ih =>
    intro a ha
    rw [AllUpd, fed_cons, List.length_append]
    constructor
    · rintro ⟨hu, hall⟩
      obtain ⟨h2, h3⟩ := (ih _ (updOk_le h0 ha hu)).1 hall
      refine ⟨by omega, fun n hn => ?_⟩
      rcases (wholeFrom_cons ..).1 hn with ⟨h4, h5⟩ | h4
      · exact hu.2 n h4 h5
      · exact h3 n h4
    · rintro ⟨h2, h3⟩
      refine ⟨⟨fun n h4 h5 h6 => h1 n (by omega), fun n h4 h5 => h3 n ((wholeFrom_cons ..).2 (Or.inl ⟨h4, h5⟩))⟩, ?_⟩
      exact (ih _ (by omega)).2 ⟨by omega, fun n h4 => h3 n ((wholeFrom_cons ..).2 (Or.inr h4))⟩

theorem whole_le {a n : Nat} {ss : List (Bytes × Bytes)} (h : wholeFrom a ss n) : 2048 * (n + 1) ≤ a + (fed ss).length := by
  obtain ⟨before, s, after, rfl, h1, h2⟩ := h
  rw [fed_append, fed_cons, List.length_append, List.length_append]
  omega

/-- numbers of `k` bits with at most one bit missing -/
theorem popcount_missing {k n : Nat} (h : n < 2 ^ k) (hp : k ≤ popcount n + 1) (h1 : n ≠ 2 ^ k - 1) : ∃ j, j < k ∧ n + 2 ^ j + 1 = 2 ^ k := by
  induction k generalizing n with
  | zero => omega
  | succ k ih =>
    have hp0 := Nat.two_pow_pos k
    rw [Nat.pow_succ] at h h1 ⊢
    by_cases hn0 : n = 0
    · subst hn0
      rw [popcount_zero] at hp
      have : k = 0 := by omega
      subst this
      exact ⟨0, by omega, rfl⟩
    have hpc : popcount n = n % 2 + popcount (n / 2) := by rw [popcount, if_neg hn0]
    by_cases hl : popcount (n / 2) = k
    · have := (popcount_le (n := n / 2) (k := k) (by omega)).2 hl
      exact ⟨0, by omega, by rw [Nat.pow_zero]; omega⟩
    · have hle := (popcount_le (n := n / 2) (k := k) (by omega)).1
      have hm := (Nat.mod_two_eq_zero_or_one n)
      obtain ⟨j, hj, e⟩ := ih (n := n / 2) (by omega) (by omega) (fun h => hl (by rw [h, C.popcount_ones]))
      refine ⟨j + 1, by omega, ?_⟩
      rw [Nat.pow_succ]
      omega

theorem popcount_without (k j : Nat) (h : j < k) : popcount (2 ^ k - 2 ^ j - 1) + 1 = k := by
  induction k generalizing j with
  | zero => omega
  | succ k ih =>
    have hp0 := Nat.two_pow_pos k
    rw [Nat.pow_succ]
    cases j with
    | zero =>
      rw [Nat.pow_zero]
      by_cases hk : k = 0
      · subst hk; rw [show 2 ^ 0 * 2 - 1 - 1 = 0 by decide, popcount_zero]
      · have : 2 ^ 1 ≤ 2 ^ k := Nat.pow_le_pow_right (by decide) (by omega)
        rw [popcount, if_neg (by omega), show (2 ^ k * 2 - 1 - 1) % 2 = 0 by omega, show (2 ^ k * 2 - 1 - 1) / 2 = 2 ^ k - 1 by omega,
          C.popcount_ones]
        omega
    | succ j =>
      have hj : 2 ^ j < 2 ^ k := Nat.pow_lt_pow_right (by decide) (by omega)
      have := ih j (by omega)
      rw [Nat.pow_succ, popcount, if_neg (by omega), show (2 ^ k * 2 - 2 ^ j * 2 - 1) % 2 = 1 by omega,
        show (2 ^ k * 2 - 2 ^ j * 2 - 1) / 2 = 2 ^ k - 2 ^ j - 1 by omega]
      omega

theorem pushOk_c {cfg : C.Config} {n : Nat} (hn : n < 2 ^ 53) :
    C.PushOk cfg 1696 n ↔ n ≠ 2 ^ 53 - 1 ∧ (cfg.asserts = true → ∀ j, j ≤ 52 → n ≠ 2 ^ 53 - 2 ^ j) := by
  have hr : 32 * (popcount n + 1) ≤ 1696 ↔ n ≠ 2 ^ 53 - 1 := by
    constructor
    · intro h e
      rw [e, C.popcount_ones] at h
      omega
    · intro h
      have := C.popcount_lt (n := n) (k := 53) (by omega)
      omega
  rw [C.PushOk, hr, and_comm]
  refine and_congr_right fun h53 => ?_
  refine forall_congr' fun ha => ?_
  constructor
  · intro h j hj e
    have := popcount_without 53 j (by omega)
    rw [e] at h
    omega
  · intro h
    rcases Nat.lt_or_ge (popcount (n - 1) + 1) 53 with h1 | h1
    · exact h1
    · exfalso
      obtain ⟨j, hj, e⟩ := popcount_missing (k := 53) (n := n - 1) (by omega) h1 (by omega)
      by_cases h0 : n = 0
      · subst h0
        rw [show 0 - 1 = 0 from rfl, popcount_zero] at h1
        omega
      · exact h j (by omega) (by omega)

/-- C74.  The C hasher with assertions.  It accepts a sequence of pieces exactly if there are at most 2^64 bytes in total and none of
the chunks with the numbers 2^53 - 2^j, where `j` is 0 to 52, lies wholly within one piece.  The first of these chunks has the number 2^52.
Otherwise its assertion fails. -/
theorem C74_asserts (cfg : C.Config) (h16 : 16 ≤ cfg.bits) (ha : cfg.asserts = true) (mem : Bytes)
    (hmem : mem.length = C.OUT_LEN * C.MAX_DEPTH) (key : Vector Byte 32) (beyond : Bytes) (flags : Byte)
    (ss : List (Bytes × Bytes)) (hn : NeonLittle cfg ∨ ∀ s ∈ ss, s.1.length < 2048) :
    ∃ h₀, C.hasher_init mem (key.toList ++ beyond) flags = .ok h₀ ∧
      ((∃ h, feed cfg h₀ ss = .ok h) ↔ (fed ss).length ≤ 2 ^ 64 ∧ ∀ j, j ≤ 52 → ¬ wholeIn ss (2 ^ 53 - 2 ^ j)) ∧
      ((∃ h, feed cfg h₀ ss = .ok h) ∨ feed cfg h₀ ss = .error .assert) := by
  obtain ⟨h0, e0, hok0⟩ := C.init_ok mem key beyond flags
  have hM : mem.length = 1696 := hmem
  have hr0 : ¬ C.Room 1696 (2 ^ 53 - 1) := by unfold C.Room; rw [C.popcount_ones]; omega
  have hiff := allUpd_iff (cfg := cfg) (M := 1696) (N := 2 ^ 53 - 1) hr0 (fun n h => by
    have := C.popcount_lt (n := n) (k := 53) h
    unfold C.Room; omega) ss 0 (by omega)
  have hcond : AllUpd cfg 1696 0 ss ↔ (fed ss).length ≤ 2 ^ 64 ∧ ∀ j, j ≤ 52 → ¬ wholeIn ss (2 ^ 53 - 2 ^ j) := by
    rw [hiff, Nat.zero_add, show 2048 * (2 ^ 53 - 1 + 1) = 2 ^ 64 by decide]
    refine and_congr_right fun hl => ?_
    constructor
    · intro h j hj hw
      have hw := (wholeFrom_zero ..).2 hw
      have := whole_le hw
      exact ((pushOk_c (by omega)).1 (h _ hw)).2 ha j hj rfl
    · intro h n hw
      have hle := whole_le hw
      refine (pushOk_c (by omega)).2 ⟨fun e => ?_, fun _ j hj e => h j hj (by rw [← e]; exact (wholeFrom_zero ..).1 hw)⟩
      exact h 0 (by omega) (by rw [Nat.pow_zero, ← e]; exact (wholeFrom_zero ..).1 hw)
  refine ⟨h0, e0, ?_⟩
  rcases feed_exact cfg h16 (M := mem.length) (by omega) (by omega) (fun _ => True) (fun _ _ _ _ => trivial) ss hn [] h0
    (C.COkR.of _ _ hok0 (by simp)) trivial with ⟨hall, h, e, -⟩ | ⟨hall, err, a, e, -, hb⟩
  · rw [hM] at hall
    exact ⟨⟨fun _ => hcond.1 hall, fun _ => ⟨h, e⟩⟩, Or.inl ⟨h, e⟩⟩
  · rw [hM] at hall hb
    refine ⟨⟨fun ⟨h, e'⟩ => ?_, fun h => absurd (hcond.2 h) hall⟩, Or.inr ?_⟩
    · rw [e] at e'
      cases e'
    · rcases hb with ⟨rfl, -⟩ | ⟨-, hb⟩
      · exact e
      · exact absurd (hb ha) (by decide)

/-- C74.  Without assertions: exactly if there are at most 2^64 bytes in total and chunk number 2^53 - 1, the last
below 2^64 bytes, does not lie wholly within one piece.  Otherwise it writes beyond the end of the object. -/
theorem C74_no_asserts (cfg : C.Config) (h16 : 16 ≤ cfg.bits) (ha : cfg.asserts = false) (mem : Bytes)
    (hmem : mem.length = C.OUT_LEN * C.MAX_DEPTH) (key : Vector Byte 32) (beyond : Bytes) (flags : Byte)
    (ss : List (Bytes × Bytes)) (hn : NeonLittle cfg ∨ ∀ s ∈ ss, s.1.length < 2048) :
    ∃ h₀, C.hasher_init mem (key.toList ++ beyond) flags = .ok h₀ ∧
      ((∃ h, feed cfg h₀ ss = .ok h) ↔ (fed ss).length ≤ 2 ^ 64 ∧ ¬ wholeIn ss (2 ^ 53 - 1)) ∧
      ((∃ h, feed cfg h₀ ss = .ok h) ∨ feed cfg h₀ ss = .error .ub) := by
  obtain ⟨h0, e0, hok0⟩ := C.init_ok mem key beyond flags
  have hM : mem.length = 1696 := hmem
  have hr0 : ¬ C.Room 1696 (2 ^ 53 - 1) := by unfold C.Room; rw [C.popcount_ones]; omega
  have hiff := allUpd_iff (cfg := cfg) (M := 1696) (N := 2 ^ 53 - 1) hr0 (fun n h => by
    have := C.popcount_lt (n := n) (k := 53) h
    unfold C.Room; omega) ss 0 (by omega)
  have hcond : AllUpd cfg 1696 0 ss ↔ (fed ss).length ≤ 2 ^ 64 ∧ ¬ wholeIn ss (2 ^ 53 - 1) := by
    rw [hiff, Nat.zero_add, show 2048 * (2 ^ 53 - 1 + 1) = 2 ^ 64 by decide]
    refine and_congr_right fun hl => ?_
    constructor
    · intro h hw
      exact ((pushOk_c (by omega)).1 (h _ ((wholeFrom_zero ..).2 hw))).1 rfl
    · intro h n hw
      have hle := whole_le hw
      refine (pushOk_c (by omega)).2 ⟨fun e => h (by rw [← e]; exact (wholeFrom_zero ..).1 hw), fun h => ?_⟩
      rw [ha] at h
      cases h
  refine ⟨h0, e0, ?_⟩
  rcases feed_exact cfg h16 (M := mem.length) (by omega) (by omega) (fun _ => True) (fun _ _ _ _ => trivial) ss hn [] h0
    (C.COkR.of _ _ hok0 (by simp)) trivial with ⟨hall, h, e, -⟩ | ⟨hall, err, a, e, -, hb⟩
  · rw [hM] at hall
    exact ⟨⟨fun _ => hcond.1 hall, fun _ => ⟨h, e⟩⟩, Or.inl ⟨h, e⟩⟩
  · rw [hM] at hall hb
    refine ⟨⟨fun ⟨h, e'⟩ => ?_, fun h => absurd (hcond.2 h) hall⟩, Or.inr ?_⟩
    · rw [e] at e'
      cases e'
    · rcases hb with ⟨-, hb, -⟩ | ⟨rfl, -⟩
      · rw [ha] at hb; cases hb
      · exact e

/-- C74.  The smaller object that src/c.rs declares, with or without the padding at its end: exactly if there are at most 2^63 bytes in total and
chunk number 2^52 - 1, the last below 2^63 bytes, does not lie wholly within one piece.  Otherwise, with assertions or without,
`hasher_push_chunk_hash` writes beyond the end of the object. -/
theorem C74_wrapper (cfg : C.Config) (h16 : 16 ≤ cfg.bits) (mem : Bytes) (h1664 : 1664 ≤ mem.length) (hmem : mem.length < 1696)
    (key : Vector Byte 32) (beyond : Bytes) (flags : Byte)
    (ss : List (Bytes × Bytes)) (hn : NeonLittle cfg ∨ ∀ s ∈ ss, s.1.length < 2048) :
    ∃ h₀, C.hasher_init mem (key.toList ++ beyond) flags = .ok h₀ ∧
      ((∃ h, feed cfg h₀ ss = .ok h) ↔ (fed ss).length ≤ 2 ^ 63 ∧ ¬ wholeIn ss (2 ^ 52 - 1)) ∧
      ((∃ h, feed cfg h₀ ss = .ok h) ∨ feed cfg h₀ ss = .error .ub) := by
  obtain ⟨h0, e0, hok0⟩ := C.init_ok mem key beyond flags
  have hr0 : ¬ C.Room mem.length (2 ^ 52 - 1) := by unfold C.Room; rw [C.popcount_ones]; omega
  have hr1 : ∀ n, n < 2 ^ 52 - 1 → C.Room mem.length n := fun n h => by
    have := C.popcount_lt (n := n) (k := 52) h
    unfold C.Room; omega
  have hT : 2048 * (2 ^ 52 - 1 + 1) = 2 ^ 63 := by decide
  have hiff := allUpd_iff (cfg := cfg) hr0 hr1 ss 0 (by omega)
  have hcond : AllUpd cfg mem.length 0 ss ↔ (fed ss).length ≤ 2 ^ 63 ∧ ¬ wholeIn ss (2 ^ 52 - 1) := by
    rw [hiff, Nat.zero_add, hT]
    refine and_congr_right fun hl => ?_
    constructor
    · intro h hw
      exact hr0 (h _ ((wholeFrom_zero ..).2 hw)).2
    · intro h n hw
      have hle := whole_le hw
      have hne : n ≠ 2 ^ 52 - 1 := fun e => h (by rw [← e]; exact (wholeFrom_zero ..).1 hw)
      have := C.popcount_lt (n := n - 1) (k := 52) (by omega)
      exact ⟨fun _ => by omega, hr1 n (by omega)⟩
  refine ⟨h0, e0, ?_⟩
  rcases feed_exact cfg h16 (M := mem.length) (by omega) (by omega) (fun a => a ≤ 2048 * (2 ^ 52 - 1 + 1)) (fun a b h h' => updOk_le hr0 h h') ss hn [] h0
    (C.COkR.of _ _ hok0 (by simp)) (by rw [List.length_nil]; omega) with ⟨hall, h, e, -⟩ | ⟨hall, err, a, e, hi, hb⟩
  · exact ⟨⟨fun _ => hcond.1 hall, fun _ => ⟨h, e⟩⟩, Or.inl ⟨h, e⟩⟩
  · refine ⟨⟨fun ⟨h, e'⟩ => ?_, fun h => absurd (hcond.2 h) hall⟩, Or.inr ?_⟩
    · rw [e] at e'
      cases e'
    · rcases hb with ⟨-, -, n, h1, h2⟩ | ⟨rfl, -⟩
      · exact absurd (h2 (2 ^ 52 - 1) (by omega) hi) hr0
      · exact e

theorem wholeIn_single (s : Bytes × Bytes) (n : Nat) : wholeIn [s] n ↔ 2048 * (n + 1) ≤ s.1.length := by
  rw [← wholeFrom_zero, wholeFrom_cons]
  constructor
  · rintro (⟨-, h⟩ | h)
    · omega
    · exact absurd h (wholeFrom_nil _ _)
  · intro h; exact Or.inl ⟨by omega, by omega⟩

/-- C74.  In particular a single call with assertions is accepted exactly if it passes less than 2^63 + 2048 bytes. -/
theorem C74_one_call (cfg : C.Config) (h16 : 16 ≤ cfg.bits) (ha : cfg.asserts = true) (mem : Bytes)
    (hmem : mem.length = C.OUT_LEN * C.MAX_DEPTH) (key : Vector Byte 32) (beyond : Bytes) (flags : Byte)
    (piece after : Bytes) (hn : NeonLittle cfg) :
    ∃ h₀, C.hasher_init mem (key.toList ++ beyond) flags = .ok h₀ ∧
      ((∃ h, C.hasher_update cfg h₀ (piece ++ after) piece.length = .ok h) ↔ piece.length < 2 ^ 63 + 2048) := by
  obtain ⟨h0, e0, h, -⟩ := C74_asserts cfg h16 ha mem hmem key beyond flags [(piece, after)] (Or.inl hn)
  refine ⟨h0, e0, ?_⟩
  have hf : feed cfg h0 [(piece, after)] = C.hasher_update cfg h0 (piece ++ after) piece.length := feed_append cfg [] (piece, after) h0
  rw [hf, fed_cons, fed_nil, List.append_nil] at h
  rw [h]
  constructor
  · rintro ⟨-, h2⟩
    have := h2 52 (by omega)
    rw [wholeIn_single] at this
    dsimp only at this
    omega
  · intro h
    refine ⟨by show piece.length ≤ _; omega, fun j hj => ?_⟩
    rw [wholeIn_single]
    dsimp only
    have : 2 ^ j ≤ 2 ^ 52 := Nat.pow_le_pow_right (by decide) hj
    omega

-- Pieces that are accepted with assertions although there are more than 2^63 + 2048 bytes and both pieces have many chunks: chunk
-- number 2^52 is divided between the pieces, and chunk number 2^52 + 2^51 is not complete.
example : ∃ ss : List (Bytes × Bytes), 2 ^ 63 + 2 ^ 62 < (fed ss).length ∧ (fed ss).length ≤ 2 ^ 64 ∧ (∀ s ∈ ss, 2 ^ 62 ≤ s.1.length) ∧
    ∀ j, j ≤ 52 → ¬ wholeIn ss (2 ^ 53 - 2 ^ j) := by
  obtain ⟨a, ha⟩ := exists_bytes (2 ^ 63 + 1000)
  obtain ⟨b, hb⟩ := exists_bytes (2 ^ 62)
  refine ⟨[(a, []), (b, [7])], ?_, ?_, ?_, fun j hj => ?_⟩
  · rw [fed_cons, fed_cons, fed_nil, List.append_nil, List.length_append, ha, hb]; decide
  · rw [fed_cons, fed_cons, fed_nil, List.append_nil, List.length_append, ha, hb]; decide
  · intro s hs
    rcases List.mem_cons.1 hs with rfl | hs
    · rw [ha]; decide
    rw [List.mem_singleton.1 hs]
    exact Nat.le_of_eq hb.symm
  · rw [← wholeFrom_zero, wholeFrom_cons, wholeFrom_cons]
    have hj1 : 2 ^ j ≤ 2 ^ 52 := Nat.pow_le_pow_right (by decide) hj
    dsimp only
    rw [ha, hb]
    rintro (⟨-, h⟩ | ⟨h1, h2⟩ | h)
    · omega
    · by_cases h52 : j = 52
      · subst h52; omega
      · have : 2 ^ j ≤ 2 ^ 51 := Nat.pow_le_pow_right (by decide) (by omega)
        omega
    · exact absurd h (wholeFrom_nil _ _)

-- Pieces that are not: a chunk of 2048 bytes, at the wrong place.
example : ∃ ss : List (Bytes × Bytes), (fed ss).length = 2 ^ 63 + 2048 ∧ wholeIn ss (2 ^ 53 - 2 ^ 52) ∧ ¬ wholeIn ss (2 ^ 53 - 1) := by
  obtain ⟨a, ha⟩ := exists_bytes (2 ^ 63)
  obtain ⟨b, hb⟩ := exists_bytes 2048
  refine ⟨[(a, []), (b, [7])], ?_, ?_, ?_⟩
  · rw [fed_cons, fed_cons, fed_nil, List.append_nil, List.length_append, ha, hb]
  · rw [← wholeFrom_zero, wholeFrom_cons, wholeFrom_cons]
    dsimp only
    rw [ha, hb]
    exact Or.inr (Or.inl ⟨by decide, by decide⟩)
  · intro h
    have := whole_le ((wholeFrom_zero ..).2 h)
    rw [fed_cons, fed_cons, fed_nil, List.append_nil, List.length_append, ha, hb] at this
    omega

-- The smaller object takes exactly 2^63 bytes if the last chunk comes in two pieces, and not if it comes in one.
example : ∃ ss : List (Bytes × Bytes), (fed ss).length = 2 ^ 63 ∧ ¬ wholeIn ss (2 ^ 52 - 1) := by
  obtain ⟨a, ha⟩ := exists_bytes (2 ^ 63 - 1)
  refine ⟨[(a, []), ([1], [])], ?_, ?_⟩
  · rw [fed_cons, fed_cons, fed_nil, List.append_nil, List.length_append, ha]; decide
  · rw [← wholeFrom_zero, wholeFrom_cons, wholeFrom_cons]
    dsimp only
    rw [ha, List.length_singleton]
    rintro (⟨-, h⟩ | ⟨h1, h2⟩ | h)
    · omega
    · omega
    · exact absurd h (wholeFrom_nil _ _)

example : ∃ s : Bytes × Bytes, (fed [s]).length = 2 ^ 63 ∧ wholeIn [s] (2 ^ 52 - 1) := by
  obtain ⟨a, ha⟩ := exists_bytes (2 ^ 63)
  refine ⟨(a, []), ?_, ?_⟩
  · rw [fed_cons, fed_nil, List.append_nil, ha]
  · rw [wholeIn_single, ha]; decide

end Baokeshed.Props
