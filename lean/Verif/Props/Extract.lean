import Verif.Proofs.Extract
import Verif.Props.CTrace

/-!
# C68: what was hashed can be read back from the compressions

`Spec.Record.message` (SpecExtract.lean) searches a record of calls of the compression function for the mode, the key and the
message behind 32 bytes of output.  The record contains the calls of one computation, and any other calls besides.
-/

set_option linter.unusedVariables false

namespace Baokeshed.Props
open Baokeshed.Model Baokeshed.Proofs

attribute [local irreducible] Spec.compress Spec.outBytes Spec.cvBytes Spec.pad

theorem how_length (w : How) (hw : w.Ok) : w.bytes.length < 2 ^ 64 := by
  cases w with
  | rust cfg w =>
    cases w with
    | whole input =>
      exact Nat.lt_of_lt_of_le hw.2 (Nat.pow_le_pow_right (by decide) (by have := hw.1.2; omega))
    | slices ss => exact hw
  | c cfg mem ss => exact Nat.lt_of_lt_of_le hw.2.2.1 (by decide)

/-- C68.  Let `S` be calls of the compression function without a collision, among them those of one computation of a hash by
the Rust library or the C code.  Then the hash leads back to the mode, the key and the input, whatever the other calls in `S`
are. -/
theorem C68_hash (m : Spec.Mode) (w : How) (hw : w.Ok) (S : List Spec.Input)
    (hS : ∀ a ∈ S, ∀ b ∈ S, Spec.compress a = Spec.compress b → a = b) (hin : ∀ a ∈ (w.digest m).log, a ∈ S) :
    ∃ d, (w.digest m).res = .ok d ∧
      Spec.Record.message (S.map fun a => (a, Spec.compress a)) d = some (m, w.bytes) := by
  obtain ⟨e, hp⟩ := how_eq m w hw
  refine ⟨_, e, ?_⟩
  have hc : ∀ a ∈ Spec.calls m w.bytes, a ∈ S := fun a ha => hin a (hp.mem_iff.2 ha)
  refine message_record hS m w.bytes (how_length w hw) (fun a ha => hc a (by simp [Spec.calls, ha])) (Spec.root m w.bytes)
    (hc _ (by simp [Spec.calls])) rfl _ ?_
  have hr : { Spec.root m w.bytes with offset := BitVec.ofNat 64 (64 * 0) } = Spec.root m w.bytes := by
    rw [show BitVec.ofNat 64 (64 * 0) = (Spec.root m w.bytes).offset from (root_offset m w.bytes).symm]
  rw [hash_toList, slice_block m w.bytes 0 32 (by decide), Spec.streamBlock, outBytes_take, hr]

/-- the input that each call on an output of a session belongs to: what was fed before it -/
def outInputs : Bytes → List HCall → List Bytes
  | _, [] => []
  | bytes, .update s :: cs => outInputs (bytes ++ s) cs
  | bytes, .output os :: cs => List.replicate os.length bytes ++ outInputs bytes cs

theorem outs_read {S : List Spec.Input} (hS : NoColl S) (m : Spec.Mode) (bytes : Bytes) (hl : bytes.length < 2 ^ 64)
    (hin : ∀ a ∈ Spec.inner m bytes, a ∈ S) : ∀ (os : List OutCall) (l : List Spec.Input), l.length = os.length →
    (∀ a ∈ l, a ∈ S) → (∀ a ∈ l, a = { Spec.root m bytes with offset := a.offset }) →
    (List.zipWith outOf os l).map (fun r => (record S).message (r.take 32)) = (List.replicate os.length bytes).map fun b => some (m, b) := by
  intro os
  induction os with
  | nil => intro l _ _ _; rfl
  | cons c os ih =>
    intro l hn hm hr
    cases l with
    | nil => cases hn
    | cons a l =>
      rw [List.zipWith_cons_cons, List.map_cons, List.length_cons, List.replicate_succ, List.map_cons,
        ih l (by simpa using hn) (fun a ha => hm a (List.mem_cons_of_mem _ ha)) (fun a ha => hr a (List.mem_cons_of_mem _ ha))]
      congr 1
      refine message_record hS m bytes hl hin a (hm a List.mem_cons_self) (hr a List.mem_cons_self) _ ?_
      cases c with
      | read => exact outBytes_take a
      | toHash =>
        show List.take 32 (Spec.cvBytes (Spec.compress a)).toList = _
        rw [List.take_of_length_le (by simp)]

theorem session_read (cfg : Config) (prof : Profile) (m : Spec.Mode) (cs : List HCall) :
    ∀ (bytes : Bytes) (h : Hasher) (W : List Spec.Input), WorkAt cfg m bytes h W →
    bytes.length + (fedBytes cs).length < 2 ^ 64 → (prof = .release ∨ (outCalls cs).count .read ≤ 2 ^ 58 - 1) →
    ∃ rs l, T.Hasher.session cfg prof cs h = ⟨.ok rs, l⟩ ∧
      ∀ S, NoColl S → (∀ a ∈ W, a ∈ S) → (∀ a ∈ l, a ∈ S) →
        rs.map (fun r => (record S).message (r.take 32)) = (outInputs bytes cs).map fun b => some (m, b) := by
  induction cs with
  | nil => intro bytes h W _ _ _; exact ⟨[], [], rfl, fun _ _ _ _ => rfl⟩
  | cons c cs ih =>
    intro bytes h W hw hlen hr
    cases c with
    | update s =>
      have hfd : (fedBytes (.update s :: cs)).length = s.length + (fedBytes cs).length := by
        rw [fedBytes, List.flatMap_cons, List.length_append]; rfl
      rw [hfd] at hlen
      obtain ⟨h1, l1, e1, hw1⟩ := hw.update s (by omega)
      obtain ⟨rs, l, e, hz⟩ := ih _ h1 _ hw1 (by rw [List.length_append]; omega) hr
      refine ⟨rs, l1 ++ l, by rw [T.Hasher.session, tr_bind _ e1, e], fun S hS hW hm => ?_⟩
      exact hz S hS (fun a ha => (List.mem_append.1 ha).elim (hW a) fun h => hm a (List.mem_append_left _ h))
        fun a ha => hm a (List.mem_append_right _ ha)
    | output os =>
      have ho : outCalls (.output os :: cs) = os ++ outCalls cs := rfl
      rw [ho, List.count_append] at hr
      have hfd : fedBytes (.output os :: cs) = fedBytes cs := rfl
      rw [hfd] at hlen
      obtain ⟨o, l1, e1, hto, hp⟩ := hw.finalize_xof
      have ho0 : o.offset = 0 := (congrArg Spec.Input.offset hto).trans (root_offset m bytes)
      obtain ⟨o', l2, e2, hl2, hfl⟩ := out_run_calls prof os o (hr.imp_right fun h => by
        rw [ho0, show (0 : U64).toNat = 0 from rfl]; omega)
      rw [hto] at hfl
      obtain ⟨rs, l, e, hz⟩ := ih bytes h W hw hlen (hr.imp_right fun h => by omega)
      refine ⟨List.zipWith outOf os l2 ++ rs, l1 ++ (l2 ++ l), ?_, fun S hS hW hm => ?_⟩
      · rw [T.Hasher.session, tr_bind _ e1, tr_bind _ e2]
        dsimp only
        rw [tr_bind _ e, log_pure, List.append_nil]
        rfl
      · rw [List.map_append, outInputs, List.map_append, hz S hS hW fun a ha => hm a (by simp [ha])]
        congr 1
        refine outs_read hS m bytes (by omega) (fun a ha => ?_) os l2 hl2 (fun a ha => hm a (by simp [ha])) hfl
        rcases List.mem_append.1 (hp.mem_iff.2 ha) with h | h
        · exact hW a h
        · exact hm a (by simp [h])

/-- C68.  The same for every sequence of `update`s, `finalize_xof`s, reads and `to_hash`es on a hasher: the first 32 bytes that
any call on an output returns lead back to the mode, the key and exactly the bytes fed before. -/
theorem C68_session (cfg : Config) (prof : Profile) (m : Spec.Mode) (cs : List HCall)
    (hl : (fedBytes cs).length < 2 ^ 64) (hr : prof = .release ∨ (outCalls cs).count .read ≤ 2 ^ 58 - 1) (S : List Spec.Input)
    (hS : ∀ a ∈ S, ∀ b ∈ S, Spec.compress a = Spec.compress b → a = b)
    (hin : ∀ a ∈ (T.Hasher.session cfg prof cs (newHasher cfg m)).log, a ∈ S) :
    ∃ rs, (T.Hasher.session cfg prof cs (newHasher cfg m)).res = .ok rs ∧
      rs.map (fun r => Spec.Record.message (S.map fun a => (a, Spec.compress a)) (r.take 32)) =
        (outInputs [] cs).map fun b => some (m, b) := by
  obtain ⟨rs, l, e, hz⟩ := session_read cfg prof m cs [] _ [] (WorkAt.new cfg m) (by simpa using hl) hr
  rw [e] at hin ⊢
  exact ⟨rs, rfl, hz S hS (by simp) hin⟩

/-- C68.  No chaining value from inside the computation of a hash leads back to a message: nobody can present it as a hash. -/
theorem C68_inner (m : Spec.Mode) (w : How) (hw : w.Ok) (S : List Spec.Input)
    (hS : ∀ a ∈ S, ∀ b ∈ S, Spec.compress a = Spec.compress b → a = b) (hin : ∀ a ∈ (w.digest m).log, a ∈ S)
    (a : Spec.Input) (ha : a ∈ (w.digest m).log) (hne : (w.digest m).res ≠ .ok (Spec.cvBytes (Spec.compress a)).toList) :
    Spec.Record.message (S.map fun a => (a, Spec.compress a)) (Spec.cvBytes (Spec.compress a)).toList = none := by
  obtain ⟨e, hp⟩ := how_eq m w hw
  refine message_none hS a (hin a ha) ?_ _ rfl
  have := hp.mem_iff.1 ha
  rcases List.mem_append.1 this with h | h
  · exact (inner_flags m w.bytes a h).2
  · exfalso
    apply hne
    rw [e, List.mem_singleton.1 h]
    have hr : { Spec.root m w.bytes with offset := BitVec.ofNat 64 (64 * 0) } = Spec.root m w.bytes := by
      rw [show BitVec.ofNat 64 (64 * 0) = (Spec.root m w.bytes).offset from (root_offset m w.bytes).symm]
    rw [hash_toList, slice_block m w.bytes 0 32 (by decide), Spec.streamBlock, outBytes_take, hr]

/-- C68.  Consequently two hashes in one record without a collision are equal only if mode, key and input are. -/
theorem C68_injective (m m' : Spec.Mode) (w w' : How) (hw : w.Ok) (hw' : w'.Ok) (S : List Spec.Input)
    (hS : ∀ a ∈ S, ∀ b ∈ S, Spec.compress a = Spec.compress b → a = b) (hin : ∀ a ∈ (w.digest m).log, a ∈ S)
    (hin' : ∀ a ∈ (w'.digest m').log, a ∈ S) :
    (w.digest m).res = (w'.digest m').res ↔ m = m' ∧ w.bytes = w'.bytes := by
  obtain ⟨d, e, h⟩ := C68_hash m w hw S hS hin
  obtain ⟨d', e', h'⟩ := C68_hash m' w' hw' S hS hin'
  constructor
  · intro he
    rw [e, e'] at he
    cases he
    have := h.symm.trans h'
    simpa using this
  · rintro ⟨rfl, hb⟩
    rw [(how_eq m w hw).1, (how_eq m w' hw').1, hb]

-- the record of the hashes of two inputs; the two calls do not collide
example : (How.rust exAvx2 (.whole [])).Ok ∧ (How.rust exSmall (.slices [[], [1]])).Ok ∧
    ∃ S : List Spec.Input, (∀ a ∈ S, ∀ b ∈ S, Spec.compress a = Spec.compress b → a = b) ∧
      (∀ a ∈ ((How.rust exAvx2 (.whole [])).digest .hash).log, a ∈ S) ∧
      ∀ a ∈ ((How.rust exSmall (.slices [[], [1]])).digest .hash).log, a ∈ S := by
  have h1 : (How.rust exAvx2 (.whole [])).Ok := ⟨exAvx2_valid, by simp⟩
  have h2 : (How.rust exSmall (.slices [[], [1]])).Ok := by simp [How.Ok, Way.Ok]
  refine ⟨h1, h2, [Spec.root .hash [], Spec.root .hash [1]], ?_, fun a ha => ?_, fun a ha => ?_⟩
  · intro a ha b hb h
    simp only [List.mem_cons, List.not_mem_nil, or_false] at ha hb
    rcases ha with rfl | rfl <;> rcases hb with rfl | rfl
    · rfl
    · exact absurd h exCompress
    · exact absurd h.symm exCompress
    · rfl
  · have := (how_eq .hash _ h1).2.mem_iff.1 ha
    simp [How.bytes, Way.bytes, Spec.calls, Spec.inner, Spec.below, Spec.chunkBefore] at this
    simp [this]
  · have := (how_eq .hash _ h2).2.mem_iff.1 ha
    simp [How.bytes, Way.bytes, Spec.calls, Spec.inner, Spec.below, Spec.chunkBefore] at this
    simp [this]

-- a session with outputs of three inputs
example : outInputs [] [.update [1], .output [.read, .toHash], .update [2, 3], .output [.toHash], .output []] = [[1], [1], [1, 2, 3]] :=
  rfl

end Baokeshed.Props
