import Verif.Props.Release

/-!
# C75: exactly which sequences of updates the Rust hashers accept

C02 and C11 are about fewer than 2^64 bytes, C71 about the build without checks.  Here is the complete answer for the build with
overflow checks and debug assertions: it accepts the same sequences as the build without them and reaches the same state.
-/

set_option linter.unusedVariables false

namespace Baokeshed.Props
open Baokeshed.Model Baokeshed.Proofs
attribute [local irreducible] Spec.compress Spec.outBytes Spec.cvBytes Spec.pad

/-- Chunk number `n`, that is, the bytes from `2048 * n` to `2048 * (n + 1)`, lies wholly within one of the pieces. -/
def wholeChunk (ss : List Bytes) (n : Nat) : Prop :=
  ∃ before s after, ss = before ++ s :: after ∧ before.flatten.length ≤ 2048 * n ∧
    2048 * (n + 1) ≤ before.flatten.length + s.length

/-- the same with `a` bytes before the pieces -/
def wholeChunkFrom (a : Nat) (ss : List Bytes) (n : Nat) : Prop :=
  ∃ before s after, ss = before ++ s :: after ∧ a + before.flatten.length ≤ 2048 * n ∧
    2048 * (n + 1) ≤ a + before.flatten.length + s.length

theorem wholeChunkFrom_zero (ss : List Bytes) (n : Nat) : wholeChunkFrom 0 ss n ↔ wholeChunk ss n := by
  simp only [wholeChunkFrom, wholeChunk, Nat.zero_add]

theorem wholeChunkFrom_nil (a n : Nat) : ¬ wholeChunkFrom a [] n := by
  rintro ⟨before, s, after, h, -⟩
  have := congrArg List.length h
  rw [List.length_append, List.length_cons, List.length_nil] at this
  omega

theorem wholeChunkFrom_cons (a : Nat) (s : Bytes) (ss : List Bytes) (n : Nat) :
    wholeChunkFrom a (s :: ss) n ↔ (a ≤ 2048 * n ∧ 2048 * (n + 1) ≤ a + s.length) ∨ wholeChunkFrom (a + s.length) ss n := by
  constructor
  · rintro ⟨before, t, after, h, h1, h2⟩
    cases before with
    | nil =>
      rw [List.nil_append] at h
      cases h
      rw [List.flatten_nil, List.length_nil, Nat.add_zero] at h1 h2
      exact Or.inl ⟨h1, h2⟩
    | cons x before =>
      rw [List.cons_append] at h
      cases h
      rw [List.flatten_cons, List.length_append] at h1 h2
      exact Or.inr ⟨before, t, after, rfl, by omega, by omega⟩
  · rintro (⟨h1, h2⟩ | ⟨before, t, after, rfl, h1, h2⟩)
    · exact ⟨[], s, ss, rfl, by rw [List.flatten_nil, List.length_nil]; omega, by rw [List.flatten_nil, List.length_nil]; omega⟩
    · exact ⟨s :: before, t, after, rfl, by rw [List.flatten_cons, List.length_append]; omega,
        by rw [List.flatten_cons, List.length_append]; omega⟩

/-- With checks too, an update that ends exactly at 2^64 and whose bytes all go into the last chunk succeeds. -/
theorem update_limit (cfg : Config) {key : Vector Word 8} {flags : Byte} {p : Platform} {bytes input : Bytes} {h : Hasher}
    (hr : HasherOkR key flags p bytes h) (h1 : 2 ^ 64 - 2048 < bytes.length) (h2 : bytes.length + input.length = 2 ^ 64) :
    ∃ h', h.update cfg input = .ok h' := by
  obtain ⟨cks, tail, rfl, hcks, htail, hch, hst, hn⟩ := hr.ex
  have hfl := length_flatten cks hcks
  rw [List.length_append, hfl] at h1 h2
  have hcl := hch.len
  have ht0 : 0 < tail.length := by omega
  have hi : input.length ≤ 2048 - tail.length := by omega
  rw [Hasher.update]
  dsimp only
  rw [if_pos (Or.inr (by omega))]
  simp only [CHUNK_LEN]
  rw [hcl, subN, if_pos htail, bind_ok, Nat.min_eq_right hi, List.take_length, List.drop_length]
  obtain ⟨s', e, -⟩ := hch.update input (by omega)
  rw [e, bind_ok, if_neg (by simp)]
  exact ⟨_, rfl⟩

theorem update_same (cfg : Config) {key : Vector Word 8} {flags : Byte} {p : Platform} {bytes input : Bytes} {h : Hasher}
    (hr : HasherOkR key flags p bytes h) :
    if bytes.length + input.length < 2 ^ 64 ∨ 2 ^ 64 - 2048 < bytes.length ∧ bytes.length + input.length = 2 ^ 64 then
      ∃ h', h.update cfg input = .ok h' ∧ Rel.Hasher.update cfg h input = .ok h' ∧ HasherOkR key flags p (bytes ++ input) h'
    else (∃ e, h.update cfg input = .error e) ∧ Rel.Hasher.update cfg h input = .error .capacity := by
  by_cases hlen : bytes.length + input.length < 2 ^ 64
  · rw [if_pos (Or.inl hlen)]
    obtain ⟨h', e, hok⟩ := update_eq key flags cfg p bytes input h (hr.ok key flags) hlen
    exact ⟨h', e, (le_update cfg h input).imp _ e, HasherOkR.of key flags hok (by rw [List.length_append]; exact hlen)⟩
  · rcases rel_update_long cfg hr (Nat.le_of_not_lt hlen) with ⟨h1, h2, h', e, hr'⟩ | ⟨hno, e⟩
    · rw [if_pos (Or.inr ⟨h1, h2⟩)]
      obtain ⟨h'', e'⟩ := update_limit cfg hr h1 h2
      have := Except.ok.inj (((le_update cfg h input).imp _ e').symm.trans e)
      exact ⟨h', this ▸ e', e, hr'⟩
    · rw [if_neg (by rintro (h | h); exact hlen h; exact hno h)]
      refine ⟨?_, e⟩
      cases e' : h.update cfg input with
      | error err => exact ⟨err, rfl⟩
      | ok h' => rw [(le_update cfg h input).imp _ e'] at e; cases e

theorem updates_same (cfg : Config) {key : Vector Word 8} {flags : Byte} {p : Platform} (ss : List Bytes) :
    ∀ {bytes : Bytes} {h : Hasher}, HasherOkR key flags p bytes h →
    ((bytes.length + ss.flatten.length ≤ 2 ^ 64 ∧ ¬ wholeChunkFrom bytes.length ss (2 ^ 53 - 1)) ∧
      ∃ h', h.updates cfg ss = .ok h' ∧ Rel.Hasher.updates cfg h ss = .ok h' ∧ HasherOkR key flags p (bytes ++ ss.flatten) h') ∨
    (¬ (bytes.length + ss.flatten.length ≤ 2 ^ 64 ∧ ¬ wholeChunkFrom bytes.length ss (2 ^ 53 - 1)) ∧
      (∃ e, h.updates cfg ss = .error e) ∧ Rel.Hasher.updates cfg h ss = .error .capacity) := by
  induction ss with
  | nil =>
    intro bytes h hr
    refine Or.inl ⟨⟨?_, wholeChunkFrom_nil _ _⟩, h, rfl, rfl, by rw [List.flatten_nil, List.append_nil]; exact hr⟩
    rw [List.flatten_nil, List.length_nil]
    exact hr.length
  | cons s ss ih =>
    intro bytes h hr
    have hb := hr.length
    have h1 := update_same cfg (input := s) hr
    rw [Hasher.updates, Rel.Hasher.updates, List.flatten_cons, List.length_append, wholeChunkFrom_cons]
    split at h1
    next hc =>
      obtain ⟨h', e, e', hr'⟩ := h1
      rw [e, e', bind_ok, bind_ok]
      have hs : ¬ (bytes.length ≤ 2048 * (2 ^ 53 - 1) ∧ 2048 * (2 ^ 53 - 1 + 1) ≤ bytes.length + s.length) := by omega
      rcases ih hr' with ⟨⟨h2, h3⟩, h'', e2, e3, hr2⟩ | ⟨h2, h3⟩
      · rw [List.length_append] at h2 h3
        rw [List.append_assoc] at hr2
        exact Or.inl ⟨⟨by omega, by rintro (h | h); exact hs h; exact h3 h⟩, h'', e2, e3, hr2⟩
      · rw [List.length_append] at h2
        exact Or.inr ⟨fun ⟨h4, h5⟩ => h2 ⟨by omega, fun h => h5 (Or.inr h)⟩, h3⟩
    next hc =>
      obtain ⟨⟨err, e⟩, e'⟩ := h1
      rw [e, e']
      refine Or.inr ⟨fun ⟨h4, h5⟩ => ?_, ⟨err, rfl⟩, rfl⟩
      refine h5 (Or.inl ?_)
      omega

/-- C75.  With overflow checks and debug assertions, a `Hasher` accepts a sequence of updates exactly if there are at most 2^64 bytes
in total and the last chunk below 2^64 does not lie wholly within one piece.  Then it is in the same state as without the
checks, and `finalize` returns the specified hash. -/
theorem C75_hasher (cfg : Config) (m : Spec.Mode) (ss : List Bytes) :
    (∀ h, (newHasher cfg m).updates cfg ss = .ok h ↔ Rel.Hasher.updates cfg (newHasher cfg m) ss = .ok h) ∧
    ((∃ h, (newHasher cfg m).updates cfg ss = .ok h) ↔ ss.flatten.length ≤ 2 ^ 64 ∧ ¬ wholeChunk ss (2 ^ 53 - 1)) ∧
    (∀ h, (newHasher cfg m).updates cfg ss = .ok h → h.finalize = .ok (Spec.hash m ss.flatten) ∧
      ∃ o, h.finalize_xof = .ok o ∧
        ∀ prof, ∀ n ≤ 2 ^ 58 - 1, ∃ o', o.readMany prof n = .ok (Spec.output m ss.flatten (64 * n), o')) := by
  rcases updates_same cfg ss (newHasher_okR cfg m) with ⟨hc, h', e, e', hr⟩ | ⟨hc, ⟨err, e⟩, e'⟩
  · rw [List.length_nil, Nat.zero_add, wholeChunkFrom_zero] at hc
    refine ⟨fun h => by rw [e, e'], ⟨fun _ => hc, fun _ => ⟨h', e⟩⟩, fun h he => ?_⟩
    obtain rfl := Except.ok.inj (e.symm.trans he)
    rw [List.nil_append] at hr
    obtain ⟨o, eo, -, ho⟩ := finalize_xof_eqR _ _ _ _ _ hr
    have ho : toInput o = Spec.root m ss.flatten := ho
    constructor
    · rw [Hasher.finalize, eo, bind_ok, pure_eq]
      refine congrArg Except.ok (Vector.toList_inj.1 ?_)
      rw [hash_toList, (OutAt.zero ho).to_hash]
    · refine ⟨o, eo, fun prof n hn => ?_⟩
      obtain ⟨o', h, -⟩ := (OutAt.zero ho).readMany prof n (Or.inr (by omega))
      exact ⟨o', by rw [h, output_eq_slice]⟩
  · rw [List.length_nil, Nat.zero_add, wholeChunkFrom_zero] at hc
    refine ⟨fun h => ⟨fun h1 => ?_, fun h1 => ?_⟩, ⟨fun ⟨h, h1⟩ => ?_, fun h => absurd h hc⟩, fun h h1 => ?_⟩
    · rw [e] at h1; cases h1
    · rw [e'] at h1; cases h1
    · rw [e] at h1; cases h1
    · rw [e] at h1; cases h1

/-- C75.  The reference implementation with checks accepts every sequence of updates of at most 2^64 bytes in total, and no other. -/
theorem C75_reference (m : Spec.Mode) (ss : List Bytes) (out : Bytes) (ho : out.length ≤ 2 ^ 64 - 64) (r : Bytes) :
    RefProgram m ss out = .ok r ↔ ss.flatten.length ≤ 2 ^ 64 ∧ r = Spec.output m ss.flatten out.length := by
  constructor
  · intro h
    have h1 := (le_refProgram 64 m ss out).imp _ h
    rw [C71_reference 64 m ss out ho] at h1
    split at h1
    next hl => exact ⟨hl, (Except.ok.inj h1).symm⟩
    next => cases h1
  · rintro ⟨h1, rfl⟩
    exact C13_reference m ss out h1 ho

theorem wholeChunk_single (s : Bytes) (n : Nat) : wholeChunk [s] n ↔ 2048 * (n + 1) ≤ s.length := by
  rw [← wholeChunkFrom_zero, wholeChunkFrom_cons]
  constructor
  · rintro (⟨-, h⟩ | h)
    · omega
    · exact absurd h (wholeChunkFrom_nil _ _)
  · intro h; exact Or.inl ⟨by omega, by omega⟩

-- 2^64 bytes, the last one on its own: accepted, with checks
example (cfg : Config) : ∃ (x : Bytes) (h : Hasher), x.length = 2 ^ 64 - 1 ∧ (newHasher cfg .hash).updates cfg [x, [7]] = .ok h ∧
    h.finalize = .ok (Spec.hash .hash (x ++ [7])) := by
  obtain ⟨x, hx⟩ : ∃ x : Bytes, x.length = 2 ^ 64 - 1 := ⟨_, List.length_replicate (a := 0)⟩
  have hc : [x, [7]].flatten.length ≤ 2 ^ 64 ∧ ¬ wholeChunk [x, [7]] (2 ^ 53 - 1) := by
    constructor
    · rw [List.flatten_cons, List.length_append, hx]; simp
    · rw [← wholeChunkFrom_zero, wholeChunkFrom_cons, wholeChunkFrom_cons, hx, List.length_singleton]
      rintro (⟨-, h⟩ | ⟨h, -⟩ | h)
      · omega
      · omega
      · exact absurd h (wholeChunkFrom_nil _ _)
  obtain ⟨-, h1, h2⟩ := C75_hasher cfg .hash [x, [7]]
  obtain ⟨h, e⟩ := h1.2 hc
  have h3 := (h2 h e).1
  rw [List.flatten_cons, List.flatten_singleton] at h3
  exact ⟨x, h, hx, e, h3⟩

-- 2^64 bytes in one piece: not accepted
example (cfg : Config) (x : Bytes) (hx : x.length = 2 ^ 64) : ¬ ∃ h, (newHasher cfg .hash).updates cfg [x] = .ok h := by
  intro h
  have := ((C75_hasher cfg .hash [x]).2.1.1 h).2
  rw [wholeChunk_single, hx] at this
  exact this (by decide)

example : ∃ x : Bytes, x.length = 2 ^ 64 := ⟨_, List.length_replicate (a := 0)⟩
example : (rep 100 0).length ≤ 2 ^ 64 - 64 := by simp

end Baokeshed.Props
