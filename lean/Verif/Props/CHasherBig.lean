import Verif.Proofs.C.HasherBig
import Verif.Props.CHasher

/-!
# C72: the C hasher for inputs of every length

C29 has the C hasher below 2^64 bytes, C30 where its assertion fails.  Here there is no bound on what is passed to the
hasher: a result is never wrong, and beyond 2^64 bytes there is none.  (Without assertions "there is none" means that
`hasher_push_chunk_hash` writes beyond the end of the object.)
-/

set_option linter.unusedVariables false

namespace Baokeshed.Props
open Baokeshed.Model Baokeshed.Proofs
attribute [local irreducible] Spec.compress Spec.cvBytes Spec.outBytes

/-- How a hasher fails whose object has the room that the C struct declares: by its assertion if there is one, else
by a write beyond the object. -/
def cFailure (cfg : C.Config) : Panic := if cfg.asserts then .assert else .ub

theorem bad_eq {cfg : C.Config} {err : Panic} (h : C.Bad cfg 1696 err) : err = cFailure cfg := by
  unfold cFailure
  rcases h with ⟨h1, h2⟩ | ⟨h1, h2⟩
  · rw [if_pos h2]; exact h1
  · rw [if_neg (fun h => absurd (h2 h) (by decide))]; exact h1

theorem feed_any (cfg : C.Config) (h16 : 16 ≤ cfg.bits) {key : Vector Word 8} {flags : Byte} {M : Nat} (hM : M ≤ 1696) {p : Platform}
    (ss : List (Bytes × Bytes)) (hn : NeonLittle cfg ∨ ∀ s ∈ ss, s.1.length < 2048) : ∀ (bytes : Bytes) (h : C.hasher), C.COkR key flags M p bytes h →
    (∃ h', feed cfg h ss = .ok h' ∧ C.COkR key flags M p (bytes ++ fed ss) h') ∨ ∃ err, feed cfg h ss = .error err ∧ C.Bad cfg M err := by
  induction ss with
  | nil => intro bytes h hok; exact Or.inl ⟨h, rfl, by rw [fed_nil, List.append_nil]; exact hok⟩
  | cons s ss ih =>
    obtain ⟨piece, beyond⟩ := s
    intro bytes h hok
    rcases C.update_any key flags h16 hM bytes piece beyond h hok (hn.imp_right fun h => h _ List.mem_cons_self) with
      ⟨h1, e1, hok1, -⟩ | ⟨err, e1, hb⟩
    · rcases ih (hn.imp_right fun h s hs => h s (List.mem_cons_of_mem _ hs)) (bytes ++ piece) h1 hok1 with ⟨h2, e2, hok2⟩ | ⟨err, e2, hb⟩
      · exact Or.inl ⟨h2, by rw [feed, e1, bind_ok, e2], by rw [fed_cons, ← List.append_assoc]; exact hok2⟩
      · exact Or.inr ⟨err, by rw [feed, e1, bind_ok, e2], hb⟩
    · exact Or.inr ⟨err, by rw [feed, e1]; rfl, hb⟩

theorem feed_append (cfg : C.Config) (ss : List (Bytes × Bytes)) (s : Bytes × Bytes) : ∀ (h : C.hasher),
    feed cfg h (ss ++ [s]) = (feed cfg h ss >>= fun h => C.hasher_update cfg h (s.1 ++ s.2) s.1.length) := by
  induction ss with
  | nil =>
    intro h
    obtain ⟨p, b⟩ := s
    show (C.hasher_update cfg h (p ++ b) p.length >>= fun h => feed cfg h []) = C.hasher_update cfg h (p ++ b) p.length
    cases C.hasher_update cfg h (p ++ b) p.length <;> rfl
  | cons x ss ih =>
    intro h
    obtain ⟨p, b⟩ := x
    rw [List.cons_append, feed, feed]
    cases C.hasher_update cfg h (p ++ b) p.length with
    | error e => rfl
    | ok h1 => exact ih h1

theorem fed_append (ss ss' : List (Bytes × Bytes)) : fed (ss ++ ss') = fed ss ++ fed ss' := by
  rw [fed, fed, fed, List.map_append, List.flatten_append]

/-- C72.  Whatever is passed to a C hasher, of any length and in any pieces: either it fails, in the way given by
`cFailure`, or it has received at most 2^64 bytes and returns their specified hash. -/
theorem C72_never_wrong (cfg : C.Config) (h16 : 16 ≤ cfg.bits) (mem : Bytes) (hmem : mem.length = C.OUT_LEN * C.MAX_DEPTH)
    (key : Vector Byte 32) (beyond : Bytes) (flags : Byte) (ss : List (Bytes × Bytes))
    (hn : NeonLittle cfg ∨ ∀ s ∈ ss, s.1.length < 2048) (out : Bytes) (ho : 32 ≤ out.length) :
    ∃ h₀, C.hasher_init mem (key.toList ++ beyond) flags = .ok h₀ ∧
      (feed cfg h₀ ss = .error (cFailure cfg) ∨
       (fed ss).length ≤ 2 ^ 64 ∧ ∃ h, feed cfg h₀ ss = .ok h ∧
         C.hasher_finalize cfg h out = .ok ((keyedTree key flags (fed ss)).toList ++ out.drop 32)) := by
  obtain ⟨h0, e0, hok0⟩ := C.init_ok mem key beyond flags
  refine ⟨h0, e0, ?_⟩
  have hM : mem.length = 1696 := hmem
  rcases feed_any cfg h16 (Nat.le_of_eq hM) ss hn [] h0 (C.COkR.of _ _ hok0 (by simp)) with ⟨h, e, hok⟩ | ⟨err, e, hb⟩
  · rw [List.nil_append] at hok
    refine Or.inr ⟨C.COkR.length _ _ hok, h, e, ?_⟩
    obtain ⟨g, r, hg⟩ := hok
    rw [C.finalize_simR _ _ h16 _ h g r hg out ho, keyWords]
    rfl
  · rw [hM] at hb
    exact Or.inl (by rw [e, bad_eq hb])

example : 16 ≤ exC.bits ∧ NeonLittle exC ∧ cFailure exC = .assert ∧ cFailure exC32 = .ub ∧
    (rep 1696 9).length = C.OUT_LEN * C.MAX_DEPTH ∧ 32 ≤ (rep 40 0).length := by
  simp [NeonLittle, exC, exC32, cFailure, C.OUT_LEN, C.MAX_DEPTH]

/-- C72.  Beyond 2^64 bytes, in any pieces, it fails.  Without assertions this is a write beyond the end of the hasher. -/
theorem C72_limit (cfg : C.Config) (h16 : 16 ≤ cfg.bits) (mem : Bytes) (hmem : mem.length = C.OUT_LEN * C.MAX_DEPTH)
    (key : Vector Byte 32) (beyond : Bytes) (flags : Byte) (ss : List (Bytes × Bytes))
    (hn : NeonLittle cfg ∨ ∀ s ∈ ss, s.1.length < 2048) (hl : 2 ^ 64 < (fed ss).length) :
    ∃ h₀, C.hasher_init mem (key.toList ++ beyond) flags = .ok h₀ ∧ feed cfg h₀ ss = .error (cFailure cfg) := by
  obtain ⟨h0, e0, h⟩ := C72_never_wrong cfg h16 mem hmem key beyond flags ss hn (rep 32 0) (by simp)
  refine ⟨h0, e0, ?_⟩
  rcases h with h | ⟨h, -⟩
  · exact h
  · omega

theorem exists_bytes (n : Nat) : ∃ a : Bytes, a.length = n := ⟨List.replicate n 1, List.length_replicate⟩

-- three pieces of less than 2^64 bytes each
example : ∃ ss : List (Bytes × Bytes), 2 ^ 64 < (fed ss).length ∧ ∀ s ∈ ss, s.1.length < 2 ^ 64 := by
  obtain ⟨a, ha⟩ := exists_bytes (2 ^ 63)
  refine ⟨[(a, []), (a, [7]), ([3], [4])], ?_, ?_⟩
  · rw [fed_cons, fed_cons, fed_cons, fed_nil, List.length_append, List.length_append, List.length_append, ha]
    decide
  · intro s hs
    rcases List.mem_cons.1 hs with rfl | hs
    · rw [ha]; decide
    rcases List.mem_cons.1 hs with rfl | hs
    · rw [ha]; decide
    rw [List.mem_singleton.1 hs]; decide

/-- C72.  Exactly 2^64 bytes, without assertions: it depends on the last piece.  If this is shorter than a chunk, the last chunk
is kept in the chunk state, and the hasher returns the specified hash; else it fails. -/
theorem C72_at_limit (cfg : C.Config) (h16 : 16 ≤ cfg.bits) (ha : cfg.asserts = false) (mem : Bytes)
    (hmem : mem.length = C.OUT_LEN * C.MAX_DEPTH) (key : Vector Byte 32) (beyond : Bytes) (flags : Byte)
    (ss : List (Bytes × Bytes)) (last : Bytes × Bytes) (hn : NeonLittle cfg) (hne : last.1 ≠ [])
    (hl : (fed ss).length + last.1.length = 2 ^ 64) :
    ∃ h₀, C.hasher_init mem (key.toList ++ beyond) flags = .ok h₀ ∧
      ((∃ h, feed cfg h₀ (ss ++ [last]) = .ok h) ↔ last.1.length < 2048) ∧
      (¬ last.1.length < 2048 → feed cfg h₀ (ss ++ [last]) = .error .ub) := by
  have hpos : 0 < last.1.length := List.length_pos_iff.2 hne
  have hM : mem.length = 1696 := hmem
  obtain ⟨h0, e0, hok0⟩ := C.init_ok mem key beyond flags
  refine ⟨h0, e0, ?_⟩
  obtain ⟨h1, e1, hok1⟩ := feed_ok cfg h16 ss [] h0 hok0 ⟨by rw [List.length_nil]; omega, Or.inl (by omega),
    (by rw [ha]; intro h; cases h), Or.inl hn⟩
  rw [List.nil_append] at hok1
  have hok1' := C.COkR.of _ _ hok1 (by omega)
  rw [feed_append, e1, bind_ok]
  by_cases hs : last.1.length < 2048
  · obtain ⟨h2, e2, -⟩ := C.update_last _ _ h16 (Nat.le_of_eq hM) (fed ss) last.1 last.2 h1 hok1' hs hpos hl
    exact ⟨⟨fun _ => hs, fun _ => ⟨h2, e2⟩⟩, fun h => absurd hs h⟩
  · have hfail : C.hasher_update cfg h1 (last.1 ++ last.2) last.1.length = .error .ub := by
      rcases C.update_any _ _ h16 (Nat.le_of_eq hM) (fed ss) last.1 last.2 h1 hok1' (Or.inl hn) with ⟨h2, e2, -, hlt⟩ | ⟨err, e2, hb⟩
      · have := hlt (by omega); omega
      · rw [hM] at hb
        rw [e2, bad_eq hb, cFailure, ha]; rfl
    refine ⟨⟨fun ⟨h, e⟩ => ?_, fun h => absurd h hs⟩, fun _ => hfail⟩
    rw [hfail] at e
    cases e

example : ∃ (ss : List (Bytes × Bytes)) (last : Bytes × Bytes), last.1 ≠ [] ∧ (fed ss).length + last.1.length = 2 ^ 64 ∧ last.1.length < 2048 := by
  obtain ⟨a, ha⟩ := exists_bytes (2 ^ 64 - 5)
  refine ⟨[(a, [])], ([1, 2, 3, 4, 5], []), by simp, ?_, by decide⟩
  rw [fed_cons, fed_nil, List.append_nil, ha]
  decide

example : ∃ (ss : List (Bytes × Bytes)) (last : Bytes × Bytes), last.1 ≠ [] ∧ (fed ss).length + last.1.length = 2 ^ 64 ∧ ¬ last.1.length < 2048 := by
  obtain ⟨a, ha⟩ := exists_bytes (2 ^ 64 - 2048)
  obtain ⟨b, hb⟩ := exists_bytes 2048
  refine ⟨[(a, [])], (b, []), ?_, ?_, ?_⟩
  · intro h; have h : b = [] := h; rw [h, List.length_nil] at hb; omega
  · rw [fed_cons, fed_nil, List.append_nil, ha, hb]
  · rw [hb]; decide

/-- C72.  The hasher of src/c.rs, whose object is smaller (C38), never returns a wrong hash either: whatever it is given, it
fails or returns the specified hash. -/
theorem C72_wrapper (cfg : C.Config) (h16 : 16 ≤ cfg.bits) (mem : Vector Byte 1664) (m : Spec.Mode)
    (ss : List (Bytes × Bytes)) (hn : NeonLittle cfg ∨ ∀ s ∈ ss, s.1.length < 2048) :
    ∃ h₀, C.Ffi.new mem (modeKey m) m.flag = .ok h₀ ∧
      (feed cfg h₀ ss = .error .ub ∨ feed cfg h₀ ss = .error .assert ∧ cfg.asserts = true ∨
       (fed ss).length ≤ 2 ^ 64 ∧ ∃ h, feed cfg h₀ ss = .ok h ∧ C.Ffi.finalize cfg h = .ok (Spec.hash m (fed ss))) := by
  obtain ⟨h0, e0, hok0⟩ := C.init_ok mem.toList (modeKey m) [] m.flag
  rw [List.append_nil] at e0
  refine ⟨h0, e0, ?_⟩
  rcases feed_any cfg h16 (M := mem.toList.length) (by simp) ss hn [] h0 (C.COkR.of _ _ hok0 (by simp)) with ⟨h, e, hok⟩ | ⟨err, e, hb⟩
  · rw [List.nil_append] at hok
    refine Or.inr (Or.inr ⟨C.COkR.length _ _ hok, h, e, ?_⟩)
    obtain ⟨g, r, hg⟩ := hok
    have e2 := C.finalize_simR _ _ h16 _ h g r hg (List.replicate C.OUT_LEN 0) (by simp)
    rw [C.Ffi.finalize, e2, bind_ok, keyWords]
    rw [← keyedTree_mode m (fed ss)]
    have hl : ((keyedTree (modeKey m) m.flag (fed ss)).toList ++ (List.replicate C.OUT_LEN (0 : Byte)).drop 32) =
        (keyedTree (modeKey m) m.flag (fed ss)).toList := by
      rw [List.drop_of_length_le (by simp), List.append_nil]
    refine (congrArg (fun l => arrayRef l 0 C.OUT_LEN) hl).trans ?_
    exact arrayRef_toList _
  · rcases hb with ⟨rfl, h2⟩ | ⟨rfl, -⟩
    · exact Or.inr (Or.inl ⟨e, h2⟩)
    · exact Or.inl e

end Baokeshed.Props
