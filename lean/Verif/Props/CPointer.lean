import Verif.Proofs.C.Pointer
import Verif.Proofs.C.Ends
import Verif.Props.CHasherExact

/-!
# C80: pointers and lengths passed to `hasher_update`

C29, C72 and C74 are about pointers to objects of at least the given length.  Here are the others: objects that are too short, and
null pointers.
-/

set_option linter.unusedVariables false

namespace Baokeshed.Props
open Baokeshed.Model Baokeshed.Proofs
attribute [local irreducible] Spec.compress Spec.cvBytes Spec.outBytes

/-- C80.  With a pointer into an object, what the C standard says about null pointers does not matter. -/
theorem C80_object (zeroOk : Bool) (cfg : C.Config) (h : C.hasher) (object : Bytes) (len : Nat) :
    C.P.hasher_update zeroOk cfg h (some object) len = C.hasher_update cfg h object len :=
  C.p_update zeroOk cfg h object len

/-- the behaviour is undefined, or an assertion fails, which needs assertions -/
def Fails {α : Type} (cfg : C.Config) (x : R α) : Prop := x = .error .ub ∨ cfg.asserts = true ∧ x = .error .assert

/-- C80.  `hasher_update` needs every byte of the input: if the object is shorter than the length, or the pointer is null and the length is
not 0, then its behaviour is undefined, unless an assertion fails first; whatever the state of the hasher. -/
theorem C80_reads (zeroOk : Bool) (cfg : C.Config) (h16 : 16 ≤ cfg.bits) (h : C.hasher) (len : Nat) :
    (∀ object : Bytes, object.length < len → Fails cfg (C.hasher_update cfg h object len)) ∧
    (0 < len → Fails cfg (C.P.hasher_update zeroOk cfg h none len)) := by
  have key : ∀ p : C.P.Ptr, p.avail < len → Fails cfg (C.P.hasher_update zeroOk cfg h p len) := by
    intro p hp
    have hends := C.p_update_ends zeroOk cfg h p len
    rw [Fails]
    cases e : C.P.hasher_update zeroOk cfg h p len with
    | error err =>
      rcases hends err e with rfl | ⟨ha, rfl⟩
      · exact Or.inl rfl
      · exact Or.inr ⟨ha, rfl⟩
    | ok h' => have := C.p_update_reads h16 e; omega
  refine ⟨fun object ho => ?_, key none⟩
  rw [← C80_object zeroOk]
  exact key (some object) ho

/-- The hasher keeps no bytes in its chunk state: it has been given none, or whole chunks, more than one, of which the last lies within
one piece. -/
def KeepsNothing (ss : List (Bytes × Bytes)) : Prop :=
  fed ss = [] ∨ 2048 < (fed ss).length ∧ (fed ss).length % 2048 = 0 ∧ wholeIn ss ((fed ss).length / 2048 - 1)

theorem feed_held (cfg : C.Config) (h16 : 16 ≤ cfg.bits) {key : Vector Word 8} {flags : Byte} {M : Nat} (hM : M ≤ 1696) (h32 : 32 ≤ M)
    {p : Platform} (ss : List (Bytes × Bytes)) (hn : NeonLittle cfg ∨ ∀ s ∈ ss, s.1.length < 2048) : ∀ (bytes : Bytes) (h h' : C.hasher),
    C.COkR key flags M p bytes h → feed cfg h ss = .ok h' →
    C.COkR key flags M p (bytes ++ fed ss) h' ∧
    (C.chunk_state_len cfg h'.chunk = 0 ↔ (bytes.length + (fed ss).length = 0 ∧ C.chunk_state_len cfg h.chunk = 0) ∨
      (2048 < bytes.length + (fed ss).length ∧ (bytes.length + (fed ss).length) % 2048 = 0 ∧
        (wholeFrom bytes.length ss ((bytes.length + (fed ss).length) / 2048 - 1) ∨
          (fed ss).length = 0 ∧ C.chunk_state_len cfg h.chunk = 0))) := by
  induction ss with
  | nil =>
    intro bytes h h' hok e
    cases e
    rw [fed_nil, List.append_nil, List.length_nil]
    refine ⟨hok, fun h0 => ?_, fun h0 => ?_⟩
    · obtain ⟨g, r, hg⟩ := hok
      obtain ⟨cks, tail, heq, hcks, htail, hch, hst, hlt⟩ := hg.ex
      have hl := congrArg List.length heq
      rw [List.length_append, length_flatten cks hcks] at hl
      have hcl := hch.len
      have hlen := r.chunk.len h16 (by rw [hcl]; omega)
      rw [hcl, h0] at hlen
      rcases hst with ⟨h | h, -⟩ | ⟨-, h, -⟩
      · have := List.length_pos_iff.2 h; omega
      · rw [h, List.length_nil] at hl
        exact Or.inl ⟨by omega, h0⟩
      · exact Or.inr ⟨by omega, by omega, Or.inr ⟨rfl, h0⟩⟩
    · rcases h0 with ⟨-, h0⟩ | ⟨-, -, h1 | ⟨-, h1⟩⟩
      · exact h0
      · exact absurd h1 (wholeFrom_nil _ _)
      · exact h1
  | cons s ss ih =>
    obtain ⟨piece, beyond⟩ := s
    intro bytes h h' hok e
    rw [feed] at e
    obtain ⟨h1, e1, e⟩ := C.bind_inv e
    have hn1 := hn.imp_right fun h => h _ List.mem_cons_self
    have hheld := C.update_held key flags h16 hM h32 bytes piece beyond h h1 hok hn1 e1
    have hok1 : C.COkR key flags M p (bytes ++ piece) h1 := by
      rcases C.update_exact key flags h16 hM h32 bytes piece beyond h hok hn1 with ⟨-, h2, e2, hok2⟩ | ⟨-, err, e2, -⟩
      · obtain rfl := Except.ok.inj (e2.symm.trans e1)
        exact hok2
      · rw [e2] at e1; cases e1
    obtain ⟨hok2, hiff⟩ := ih (hn.imp_right fun h s hs => h s (List.mem_cons_of_mem _ hs)) _ _ _ hok1 e
    rw [List.length_append] at hiff
    rw [fed_cons, List.length_append]
    refine ⟨by rw [← List.append_assoc]; exact hok2, hiff.trans ?_⟩
    rw [hheld, wholeFrom_cons]
    dsimp only
    rw [← Nat.add_assoc]
    generalize hT : bytes.length + piece.length + (fed ss).length = T
    have hle : wholeFrom (bytes.length + piece.length) ss (T / 2048 - 1) → 0 < (fed ss).length := by
      intro hw
      obtain ⟨before, s, after, rfl, h1, h2⟩ := hw
      rw [fed_append, fed_cons, List.length_append, List.length_append]
      omega
    have hz : bytes.length = 0 → C.chunk_state_len cfg h.chunk = 0 := by
      intro h0
      obtain ⟨g, r, hg⟩ := hok
      obtain ⟨cks, tail, heq, hcks, htail, hch, hst, hlt⟩ := hg.ex
      have hl := congrArg List.length heq
      rw [List.length_append, length_flatten cks hcks] at hl
      have hcl := hch.len
      have hlen := r.chunk.len h16 (by rw [hcl]; omega)
      rw [hcl] at hlen
      omega
    generalize wholeFrom (bytes.length + piece.length) ss (T / 2048 - 1) = W at *
    by_cases hW : W
    · have := hle hW
      simp only [hW, true_or, or_true, and_true]
      omega
    · simp only [hW, false_or, or_false]
      omega

/-- C80.  A null pointer.  After any sequence of updates that succeeds: with a length other than 0, the behaviour is undefined or an
assertion fails.  With the length 0 nothing
happens to the hasher, except that up to C17 the call is undefined behaviour exactly if the hasher keeps bytes in its chunk
state, for then the null pointer reaches `memcpy`. -/
theorem C80_null (zeroOk : Bool) (cfg : C.Config) (h16 : 16 ≤ cfg.bits) (mem : Bytes) (h1664 : 1664 ≤ mem.length) (hmem : mem.length ≤ 1696)
    (key : Vector Byte 32) (beyond : Bytes) (flags : Byte) (ss : List (Bytes × Bytes)) (hn : NeonLittle cfg ∨ ∀ s ∈ ss, s.1.length < 2048) :
    ∃ h₀, C.hasher_init mem (key.toList ++ beyond) flags = .ok h₀ ∧ ∀ h, feed cfg h₀ ss = .ok h →
      (zeroOk = true ∨ KeepsNothing ss → C.P.hasher_update zeroOk cfg h none 0 = .ok h) ∧
      (¬ (zeroOk = true ∨ KeepsNothing ss) → C.P.hasher_update zeroOk cfg h none 0 = .error .ub) ∧
      (∀ len, 0 < len → Fails cfg (C.P.hasher_update zeroOk cfg h none len)) := by
  obtain ⟨h0, e0, hok0⟩ := C.init_ok mem key beyond flags
  refine ⟨h0, e0, fun h e => ?_⟩
  obtain ⟨hok, hiff⟩ := feed_held cfg h16 hmem (by omega) ss hn [] h0 h (C.COkR.of _ _ hok0 (by simp)) e
  have hz : C.chunk_state_len cfg h0.chunk = 0 := by
    rw [C.hasher_init] at e0
    obtain ⟨k, -, e0⟩ := C.bind_inv e0
    cases e0
    show (0 + 0) % 2 ^ cfg.bits = 0
    rw [Nat.zero_mod]
  have hk : C.chunk_state_len cfg h.chunk = 0 ↔ KeepsNothing ss := by
    rw [hiff, KeepsNothing, List.length_nil, Nat.zero_add, wholeFrom_zero, hz, ← List.length_eq_zero_iff]
    generalize wholeIn ss ((fed ss).length / 2048 - 1) = W
    by_cases hW : W
    · simp only [hW, and_true, true_or]
    · simp only [hW, and_true, and_false, false_or, or_false]
      omega
  rw [C.p_update_null zeroOk cfg h (C.COkR.buf _ _ hok), ← hk]
  exact ⟨fun h => if_pos h, fun h => if_neg h, (C80_reads zeroOk cfg h16 h · |>.2)⟩

-- three bytes are kept
example : ¬ KeepsNothing [([1, 2, 3], [4])] := by
  rintro (h | ⟨h, -⟩)
  · cases h
  · revert h; decide

-- one chunk is kept, because it may be the root
example (x : Bytes) (hx : x.length = 2048) : ¬ KeepsNothing [(x, [])] := by
  rintro (h | ⟨h, -⟩)
  · rw [fed_cons, fed_nil, List.append_nil] at h
    have h : x = [] := h
    rw [h, List.length_nil] at hx; omega
  · rw [fed_cons, fed_nil, List.append_nil] at h
    have h : 2048 < x.length := h
    omega

-- two chunks are not
example (x : Bytes) (hx : x.length = 4096) : KeepsNothing [(x, [])] := by
  have hf : (fed [(x, ([] : Bytes))]).length = 4096 := by rw [fed_cons, fed_nil, List.append_nil]; exact hx
  refine Or.inr ⟨by omega, by omega, ?_⟩
  rw [hf, wholeIn_single, hx]
  decide

-- but they are if the last byte comes on its own
example (x : Bytes) (hx : x.length = 4095) : ¬ KeepsNothing [(x, []), ([7], [])] := by
  have hf : (fed [(x, ([] : Bytes)), ([7], [])]).length = 4096 := by
    rw [fed_cons, fed_cons, fed_nil, List.append_nil, List.length_append, hx]; rfl
  rintro (h | ⟨-, -, h⟩)
  · rw [h] at hf; cases hf
  · rw [hf, ← wholeFrom_zero, wholeFrom_cons, wholeFrom_cons, hx] at h
    rcases h with ⟨-, h⟩ | ⟨h, -⟩ | h
    · omega
    · omega
    · exact absurd h (wholeFrom_nil _ _)

example : 16 ≤ exC.bits ∧ NeonLittle exC ∧ 1664 ≤ (rep 1696 9).length ∧ (rep 1696 9).length ≤ 1696 := by
  simp [NeonLittle, exC]

-- the call that is undefined, in a state that exists
example : ∃ h₀ h, C.hasher_init (rep 1696 9) ((rep 32 1)) 0 = .ok h₀ ∧ feed exC h₀ [([1, 2, 3], [])] = .ok h ∧
    C.P.hasher_update false exC h none 0 = .error .ub ∧ C.P.hasher_update true exC h none 0 = .ok h := by
  have hn : NeonLittle exC := by simp [NeonLittle, exC]
  have hv : (Vector.replicate 32 (1 : Byte)).toList ++ [] = rep 32 1 := rfl
  obtain ⟨h0, e0, hnull⟩ := C80_null false exC (by decide) (rep 1696 9) (by simp) (by simp) (Vector.replicate 32 1) [] 0 [([1, 2, 3], [])] (Or.inl hn)
  obtain ⟨h0', e0', hnull'⟩ := C80_null true exC (by decide) (rep 1696 9) (by simp) (by simp) (Vector.replicate 32 1) [] 0 [([1, 2, 3], [])] (Or.inl hn)
  obtain rfl := Except.ok.inj (e0.symm.trans e0')
  obtain ⟨h0'', e0'', hok, -⟩ := C74_asserts exC (by decide) rfl (rep 1696 9) (by simp [C.OUT_LEN, C.MAX_DEPTH]) (Vector.replicate 32 1) [] 0 [([1, 2, 3], [])] (Or.inl hn)
  obtain rfl := Except.ok.inj (e0.symm.trans e0'')
  obtain ⟨h, e⟩ := hok.2 ⟨by decide, fun j hj hw => by
    rw [wholeIn_single] at hw
    have : 2 ^ j ≤ 2 ^ 52 := Nat.pow_le_pow_right (by decide) hj
    have h3 : ([1, 2, 3] : Bytes).length = 3 := rfl
    dsimp only at hw
    omega⟩
  rw [hv] at e0
  refine ⟨h0, h, e0, e, (hnull h e).2.1 ?_, (hnull' h e).1 (Or.inl rfl)⟩
  rintro (h | h | ⟨h, -⟩)
  · cases h
  · cases h
  · revert h; decide

end Baokeshed.Props
