import Verif.Proofs.TraceRefLog
import Verif.Proofs.TracePyLog
import Verif.Proofs.TraceApi
import Verif.Props.Extract
import Verif.Props.Python

/-!
# C70: the work of the reference implementation and of the Python implementation

`Spec.outCalls` (SpecCallsRef.lean) lists the compressions of the tree and of the output; `Spec.refCall` and `Spec.PyCall`
say how a compression looks as a call of `compress` in reference_impl.rs and in baokeshed.py.
-/

set_option linter.unusedVariables false

namespace Baokeshed.Props
open Baokeshed.Model Baokeshed.Proofs Baokeshed.Proofs.RT

attribute [local irreducible] Spec.compress Spec.outBytes Spec.cvBytes Spec.pad

/-- A chain of updates of the reference implementation, with its calls of `compress`. -/
def refUpdatesT : Ref.Hasher → List Bytes → RefT.TR Ref.Hasher
  | h, [] => pure h
  | h, s :: ss => do
    let h ← RefT.Hasher.update h s
    refUpdatesT h ss

/-- Construct, update, finalize: `RefProgram` with its calls of `compress`. -/
def RefProgramT (m : Spec.Mode) (ss : List Bytes) (out : Bytes) : RefT.TR Bytes := do
  let h ← refUpdatesT (refNew m) ss
  RefT.Hasher.finalize h out

/-- The public functions of baokeshed.py, with their calls of `compress`. -/
def pyHashT (m : Spec.Mode) (input : Bytes) (out_len : Nat) : PyT.TR Bytes :=
  match m with
  | .hash => PyT.hash input out_len
  | .keyedHash k => PyT.keyed_hash k.toList input out_len
  | .deriveKey k => PyT.derive_key k.toList input out_len

/-- C70.  Recording the calls does not change what is computed. -/
theorem C70_same_results (m : Spec.Mode) (ss : List Bytes) (out : Bytes) (input key : Bytes) (out_len : Nat) :
    (RefProgramT m ss out).res = RefProgram m ss out ∧ (pyHashT m input out_len).res = pyHash m input out_len ∧
    (PyT.keyed_hash key input out_len).res = Py.keyed_hash key input out_len ∧
    (PyT.derive_key key input out_len).res = Py.derive_key key input out_len := by
  refine ⟨?_, ?_, Py.hash_internal_res .., Py.hash_internal_res ..⟩
  · have : ∀ (ss : List Bytes) (h : Ref.Hasher), (refUpdatesT h ss).res = refUpdates h ss := by
      intro ss
      induction ss with
      | nil => intro h; rfl
      | cons s ss ih => intro h; simp only [refUpdatesT, refUpdates, RT.res_bind, RT.Ref.update_res, ih]
    simp only [RefProgramT, RefProgram, RT.res_bind, this, RT.Ref.finalize_res]
  · cases m <;> exact Py.hash_internal_res ..

theorem refNew_work (m : Spec.Mode) : RefWork m.key m.flag [] (refNew m) [] := by
  cases m with
  | hash =>
    have : Ref.IV = Vector.ofFn Spec.iv := iv_eq
    rw [refNew, Ref.Hasher.new, this]; exact RefWork.new _ 0
  | keyedHash k =>
    rw [refNew, Ref.Hasher.new_keyed, wordsArray_key]; exact RefWork.new _ Spec.keyedHashFlag
  | deriveKey k =>
    rw [refNew, Ref.Hasher.new_derive_key, wordsArray_key]; exact RefWork.new _ Spec.deriveKeyFlag

theorem refUpdatesT_log (m : Spec.Mode) (ss : List Bytes) : ∀ (bytes : Bytes) (h : Ref.Hasher) (W : List Spec.Input),
    RefWork m.key m.flag bytes h W → bytes.length + ss.flatten.length < 2 ^ 64 →
    ∃ (h' : Ref.Hasher) (l : List Spec.Input), refUpdatesT h ss = ⟨.ok h', l.map Spec.refCall⟩ ∧
      RefWork m.key m.flag (bytes ++ ss.flatten) h' (W ++ l) := by
  induction ss with
  | nil => intro bytes h W hh _; exact ⟨h, [], rfl, by rwa [List.flatten_nil, List.append_nil, List.append_nil]⟩
  | cons s ss ih =>
    intro bytes h W hh hs
    rw [List.flatten_cons, List.length_append] at hs
    obtain ⟨h1, l1, e1, ok1⟩ := update_loop_log _ _ s.length hh s (Nat.le_refl _) (by omega)
    obtain ⟨h2, l2, e2, ok2⟩ := ih _ h1 _ ok1 (by rw [List.length_append]; omega)
    refine ⟨h2, l1 ++ l2, ?_, ?_⟩
    · rw [refUpdatesT, List.map_append]
      exact rec_bind' e1 e2
    · rwa [List.append_assoc, ← List.flatten_cons, List.append_assoc] at ok2

theorem ref_program_log (m : Spec.Mode) (ss : List Bytes) (out : Bytes) (hl : ss.flatten.length < 2 ^ 64)
    (ho : out.length ≤ 2 ^ 64 - 64) :
    ∃ l : List Spec.Input, RefProgramT m ss out = ⟨.ok (Spec.output m ss.flatten out.length), l.map Spec.refCall⟩ ∧
      l.Perm (Spec.outCalls m ss.flatten out.length) := by
  obtain ⟨h, l1, e1, hw⟩ := refUpdatesT_log m ss [] _ [] (refNew_work m) (by simpa using hl)
  rw [List.nil_append, List.nil_append] at hw
  obtain ⟨o, l2, e2, hro, hp⟩ := RefWork.finalize_log _ _ hw
  have e3 := root_output_loop_log (m := m) (input := ss.flatten) hro rfl out 0 (by omega)
  rw [← List.range_eq_range', Nat.mul_zero] at e3
  refine ⟨l1 ++ (l2 ++ (List.range ((out.length + 63) / 64)).map (Spec.outCall m ss.flatten)), ?_, ?_⟩
  · rw [List.map_append, List.map_append, output_eq_slice]
    exact rec_bind' e1 (rec_bind' e2 e3)
  · rw [← List.append_assoc]
    exact hp.append_right _

theorem outCalls_length (m : Spec.Mode) (input : Bytes) (n : Nat) :
    (Spec.outCalls m input n).length = (input.length - 1) / 64 + (input.length - 1) / 2048 + (n + 63) / 64 := by
  rw [Spec.outCalls, Spec.inner, List.length_append, below_length, List.length_map, List.length_range]

/-- C70.  However the input is cut into slices, the reference implementation calls `compress` exactly once for every block of
the input but the last, for every inner node of the tree but the topmost, and for every 64 bytes of output begun, with the
arguments the specification gives, and for nothing else.  For 32 bytes of output that is as many calls as there are
compressions in the library (C39). -/
theorem C70_reference (m : Spec.Mode) (ss : List Bytes) (out : Bytes) (hl : ss.flatten.length < 2 ^ 64)
    (ho : out.length ≤ 2 ^ 64 - 64) :
    let t := RefProgramT m ss out
    t.res = .ok (Spec.output m ss.flatten out.length) ∧
    t.log.Perm ((Spec.outCalls m ss.flatten out.length).map Spec.refCall) ∧
    t.log.length = (ss.flatten.length - 1) / 64 + (ss.flatten.length - 1) / 2048 + (out.length + 63) / 64 := by
  obtain ⟨l, e, hp⟩ := ref_program_log m ss out hl ho
  rw [e]
  refine ⟨rfl, hp.map _, ?_⟩
  rw [List.length_map, hp.length_eq, outCalls_length]

theorem pyHashT_log (m : Spec.Mode) (input : Bytes) (out_len : Nat) :
    ∃ ns, Stand (pyHashT m input out_len).log ns ∧ ns.Perm (Spec.outCalls m input out_len) := by
  cases m with
  | hash =>
    refine py_hash_internal_log .hash input Py.IV ⟨[], ?_⟩ out_len
    decide
  | keyedHash k =>
    have := py_words_key k []
    rw [List.append_nil] at this
    exact py_hash_internal_log (.keyedHash k) input _ this out_len
  | deriveKey k =>
    have := py_words_key k []
    rw [List.append_nil] at this
    exact py_hash_internal_log (.deriveKey k) input _ this out_len

/-- C70.  The Python functions call `compress` for the same compressions, each once; without any bound on the lengths. -/
theorem C70_python (m : Spec.Mode) (input : Bytes) (out_len : Nat) :
    let t := pyHashT m input out_len
    t.res = .ok (Spec.output m input out_len) ∧
    (∃ p : List (PyT.Call × Spec.Input), t.log = p.map Prod.fst ∧ (p.map Prod.snd).Perm (Spec.outCalls m input out_len) ∧
      ∀ x ∈ p, Spec.PyCall x.1 x.2) ∧
    t.log.length = (input.length - 1) / 64 + (input.length - 1) / 2048 + (out_len + 63) / 64 := by
  obtain ⟨ns, hs, hp⟩ := pyHashT_log m input out_len
  refine ⟨((C70_same_results m [] [] input [] out_len).2.1).trans (C14_python m input out_len), ?_, ?_⟩
  · obtain ⟨p, e, rfl, h⟩ := hs
    exact ⟨p, e, hp, h⟩
  · rw [hs.length, hp.length_eq, outCalls_length]

/-- C70.  The bytes of a key after the 32nd make no difference to the compressions. -/
theorem C70_python_long_key (k : Vector Byte 32) (extra input : Bytes) (out_len : Nat) :
    (∃ p : List (PyT.Call × Spec.Input), (PyT.keyed_hash (k.toList ++ extra) input out_len).log = p.map Prod.fst ∧
      (p.map Prod.snd).Perm (Spec.outCalls (.keyedHash k) input out_len) ∧ ∀ x ∈ p, Spec.PyCall x.1 x.2) ∧
    (∃ p : List (PyT.Call × Spec.Input), (PyT.derive_key (k.toList ++ extra) input out_len).log = p.map Prod.fst ∧
      (p.map Prod.snd).Perm (Spec.outCalls (.deriveKey k) input out_len) ∧ ∀ x ∈ p, Spec.PyCall x.1 x.2) := by
  constructor
  · obtain ⟨_, ⟨p, e, rfl, h⟩, hp⟩ := py_hash_internal_log (.keyedHash k) input _ (py_words_key k extra) out_len
    exact ⟨p, e, hp, h⟩
  · obtain ⟨_, ⟨p, e, rfl, h⟩, hp⟩ := py_hash_internal_log (.deriveKey k) input _ (py_words_key k extra) out_len
    exact ⟨p, e, hp, h⟩

/-! ## Calls and compressions -/

theorem byte_of_word (p q r s : Byte) :
    (p ++ q ++ r ++ s : Word).extractLsb' 24 8 = p ∧ (p ++ q ++ r ++ s : Word).extractLsb' 16 8 = q ∧
    (p ++ q ++ r ++ s : Word).extractLsb' 8 8 = r ∧ (p ++ q ++ r ++ s : Word).extractLsb' 0 8 = s := by
  refine ⟨?_, ?_, ?_, ?_⟩ <;>
  · apply BitVec.eq_of_getLsbD_eq
    intro i hi
    simp only [BitVec.getLsbD_extractLsb', BitVec.getLsbD_append]
    simp only [show ¬ 24 + i < 8 by omega, show ¬ 24 + i - 8 < 8 by omega, show ¬ 24 + i - 8 - 8 < 8 by omega,
      show ¬ 16 + i < 8 by omega, show ¬ 16 + i - 8 < 8 by omega, show 16 + i - 8 - 8 < 8 by omega,
      show ¬ 8 + i < 8 by omega, show 8 + i - 8 < 8 by omega, show 0 + i < 8 by omega, hi, decide_true,
      Bool.true_and, if_true, if_false]
    congr 1
    omega

theorem blockWord_inj {b b' : Vector Byte 64} (h : ∀ i, Spec.blockWord b i = Spec.blockWord b' i) : b = b' := by
  apply Vector.ext
  intro i hi
  have h4 := h ⟨i / 4, by omega⟩
  simp only [Spec.blockWord] at h4
  obtain ⟨a3, a2, a1, a0⟩ := byte_of_word b[4 * (i / 4) + 3] b[4 * (i / 4) + 2] b[4 * (i / 4) + 1] b[4 * (i / 4)]
  obtain ⟨b3, b2, b1, b0⟩ := byte_of_word b'[4 * (i / 4) + 3] b'[4 * (i / 4) + 2] b'[4 * (i / 4) + 1] b'[4 * (i / 4)]
  rw [h4] at a3 a2 a1 a0
  have hc : i = 4 * (i / 4) + 3 ∨ i = 4 * (i / 4) + 2 ∨ i = 4 * (i / 4) + 1 ∨ i = 4 * (i / 4) := by omega
  have key : ∀ j (hj : j < 64), b[j] = b'[j] → i = j → b[i] = b'[i] := by intro j hj e ij; subst ij; exact e
  rcases hc with e | e | e | e
  · exact key _ _ (a3.symm.trans b3) e
  · exact key _ _ (a2.symm.trans b2) e
  · exact key _ _ (a1.symm.trans b1) e
  · exact key _ _ (a0.symm.trans b0) e

theorem setWidth_inj {a b : Byte} (h : a.setWidth 32 = b.setWidth 32) : a = b := by
  have h' := congrArg BitVec.toNat h
  rw [BitVec.toNat_setWidth_of_le (by decide), BitVec.toNat_setWidth_of_le (by decide)] at h'
  exact BitVec.eq_of_toNat_eq h'

/-- C70.  A call of `compress` stands for one compression only, and what it returns begins with the outcome of that
compression: in reference_impl.rs and in baokeshed.py. -/
theorem C70_calls (a b : Spec.Input) (c : PyT.Call) :
    (Spec.refCall a = Spec.refCall b → a = b) ∧ (Spec.PyCall c a → Spec.PyCall c b → a = b) ∧
    (let r := Spec.refCall a
     Ref.first_8_words (Ref.compress r.chaining_value r.block_words r.offset r.block_len r.flags) = Spec.compress a) ∧
    (Spec.PyCall c a → ∃ ws, Py.compress c.cv c.block c.block_len c.offset c.flags = .ok ws ∧
      ws.take 8 = (Spec.compress a).toList.map BitVec.toNat) := by
  obtain ⟨c1, b1, l1, o1, f1⟩ := a
  obtain ⟨c2, b2, l2, o2, f2⟩ := b
  refine ⟨fun h => ?_, fun h h' => ?_, ?_, fun h => ?_⟩
  · injection h with hc hb ho hl hf
    dsimp only at hc hb ho hl hf
    have hb' : b1 = b2 := blockWord_inj fun i => by
      have := congrArg (fun v : Vector Word 16 => v[i]) hb
      simpa using this
    rw [hc, hb', ho, setWidth_inj hl, setWidth_inj hf]
  · obtain ⟨⟨u, hc⟩, hb, hl, ho, hf⟩ := h
    obtain ⟨⟨u', hc'⟩, hb', hl', ho', hf'⟩ := h'
    dsimp only at hc hb hl ho hf hc' hb' hl' ho' hf'
    have e1 := (List.append_inj (hc.symm.trans hc') (by simp)).1
    have e1 : c1 = c2 := by
      apply Vector.toList_inj.1
      have inj : ∀ l l' : List Word, l.map BitVec.toNat = l'.map BitVec.toNat → l = l' := by
        intro l
        induction l with
        | nil => intro l' h; cases l' with
          | nil => rfl
          | cons _ _ => simp at h
        | cons x l ih => intro l' h; cases l' with
          | nil => simp at h
          | cons y l' =>
            rw [List.map_cons, List.map_cons, List.cons.injEq] at h
            rw [BitVec.eq_of_toNat_eq h.1, ih _ h.2]
      exact inj _ _ e1
    have e2 : b1 = b2 := Vector.toList_inj.1 (hb.symm.trans hb')
    rw [e1, e2, BitVec.eq_of_toNat_eq (hl.symm.trans hl'), ← ho, ← ho', BitVec.eq_of_toNat_eq (hf.symm.trans hf')]
  · refine Eq.trans ?_ (outWords_first _)
    exact congrArg Ref.first_8_words (ref_compress_eq ⟨c1, b1, l1, o1, f1⟩)
  · refine ⟨(outWords ⟨c1, b1, l1, o1, f1⟩).toList.map BitVec.toNat, ?_, ?_⟩
    · rw [h.block, h.block_len, h.flags]
      exact py_compress ⟨c1, b1, l1, o1, f1⟩ c.cv h.cv c.offset h.offset.symm
    · rw [← List.map_take, outWords_take]

/-! ## All four implementations -/

/-- A computation of a hash: by the Rust library or the C code, by the reference implementation, or by the Python
implementation; the last two may be asked for more output than the 32 bytes of the hash. -/
inductive Any where
  | fast (w : How)
  | reference (ss : List Bytes) (out : Bytes)
  | python (input : Bytes) (out_len : Nat)

/-- the input -/
def Any.bytes : Any → Bytes
  | .fast w => w.bytes
  | .reference ss _ => ss.flatten
  | .python input _ => input

/-- the input can exist on the machine, and the output has the 32 bytes -/
def Any.Ok : Any → Prop
  | .fast w => w.Ok
  | .reference ss out => ss.flatten.length < 2 ^ 64 ∧ 32 ≤ out.length ∧ out.length ≤ 2 ^ 64 - 64
  | .python input out_len => 32 ≤ out_len

/-- the first 32 bytes of what it returns -/
def Any.digest (m : Spec.Mode) : Any → R Bytes
  | .fast w => (w.digest m).res
  | .reference ss out => (RefProgramT m ss out).res.map (List.take 32)
  | .python input out_len => (pyHashT m input out_len).res.map (List.take 32)

/-- `a` is one of the compressions it made -/
def Any.Made (m : Spec.Mode) (a : Spec.Input) : Any → Prop
  | .fast w => a ∈ (w.digest m).log
  | .reference ss out => Spec.refCall a ∈ (RefProgramT m ss out).log
  | .python input out_len => ∃ c ∈ (pyHashT m input out_len).log, Spec.PyCall c a

theorem outCall_zero (m : Spec.Mode) (input : Bytes) : Spec.outCall m input 0 = Spec.root m input := by
  have hr : { Spec.root m input with offset := BitVec.ofNat 64 (64 * 0) } = Spec.root m input := by
    rw [show BitVec.ofNat 64 (64 * 0) = (Spec.root m input).offset from (root_offset m input).symm]
  exact hr

theorem calls_sub (m : Spec.Mode) (input : Bytes) {n : Nat} (hn : 32 ≤ n) : ∀ a ∈ Spec.calls m input, a ∈ Spec.outCalls m input n := by
  intro a ha
  rw [Spec.calls, List.mem_append, List.mem_singleton] at ha
  rw [Spec.outCalls, List.mem_append]
  rcases ha with h | h
  · exact Or.inl h
  · refine Or.inr (List.mem_map.2 ⟨0, List.mem_range.2 (by omega), ?_⟩)
    rw [h, outCall_zero]

theorem spec_output_take (m : Spec.Mode) (input : Bytes) {n : Nat} (hn : 32 ≤ n) :
    (Spec.output m input n).take 32 = (Spec.hash m input).toList := by
  rw [hash_toList, output_eq_slice]
  simp only [slice, ← List.map_take, List.take_range]
  rw [Nat.min_eq_left hn]

theorem any_eq (m : Spec.Mode) (w : Any) (hw : w.Ok) :
    w.digest m = .ok (Spec.hash m w.bytes).toList ∧ ∀ a ∈ Spec.calls m w.bytes, w.Made m a := by
  cases w with
  | fast w =>
    obtain ⟨e, hp⟩ := how_eq m w hw
    exact ⟨e, fun a ha => hp.mem_iff.2 ha⟩
  | reference ss out =>
    obtain ⟨h1, h2, h3⟩ := hw
    obtain ⟨e, hp, -⟩ := C70_reference m ss out h1 h3
    refine ⟨?_, fun a ha => hp.mem_iff.2 (List.mem_map_of_mem (calls_sub m _ h2 a ha))⟩
    rw [Any.digest, e]
    exact congrArg Except.ok (spec_output_take m _ h2)
  | python input out_len =>
    obtain ⟨e, ⟨p, el, hp, hc⟩, -⟩ := C70_python m input out_len
    refine ⟨?_, fun a ha => ?_⟩
    · rw [Any.digest, e]
      exact congrArg Except.ok (spec_output_take m _ hw)
    · have := hp.mem_iff.2 (calls_sub m _ hw a ha)
      obtain ⟨x, hx, rfl⟩ := List.mem_map.1 this
      exact ⟨x.1, by rw [el]; exact List.mem_map_of_mem hx, hc x hx⟩

/-- C70.  If any two of the four implementations, in any modes, return the same 32 bytes, then the modes, the keys and the
inputs are the same, or the two computations contain a collision of the compression function. -/
theorem C70_collision (m m' : Spec.Mode) (w w' : Any) (hw : w.Ok) (hw' : w'.Ok) (h : w.digest m = w'.digest m') :
    (m = m' ∧ w.bytes = w'.bytes) ∨
    ∃ a b, w.Made m a ∧ w'.Made m' b ∧ a ≠ b ∧ Spec.compress a = Spec.compress b := by
  obtain ⟨e, hm⟩ := any_eq m w hw
  obtain ⟨e', hm'⟩ := any_eq m' w' hw'
  rw [e, e', Except.ok.injEq, Vector.toList_inj] at h
  rcases hash_inj m m' _ _ h with h | ⟨a, ha, b, hb, hne, hc⟩
  · exact Or.inl h
  · exact Or.inr ⟨a, b, hm a ha, hm' b hb, hne, hc⟩

/-- C70.  What was hashed can be read back from the compressions any of the four implementations made (C68). -/
theorem C70_extract (m : Spec.Mode) (w : Any) (hw : w.Ok) (hl : w.bytes.length < 2 ^ 64) (S : List Spec.Input)
    (hS : ∀ a ∈ S, ∀ b ∈ S, Spec.compress a = Spec.compress b → a = b) (hin : ∀ a, w.Made m a → a ∈ S) :
    ∃ d, w.digest m = .ok d ∧ Spec.Record.message (S.map fun a => (a, Spec.compress a)) d = some (m, w.bytes) := by
  obtain ⟨e, hm⟩ := any_eq m w hw
  refine ⟨_, e, ?_⟩
  have hc : ∀ a ∈ Spec.calls m w.bytes, a ∈ S := fun a ha => hin a (hm a ha)
  refine message_record hS m w.bytes hl (fun a ha => hc a (by simp [Spec.calls, ha])) (Spec.root m w.bytes)
    (hc _ (by simp [Spec.calls])) rfl _ ?_
  rw [hash_toList, slice_block m w.bytes 0 32 (by decide), Spec.streamBlock, outBytes_take]
  exact congrArg (fun a => (Spec.cvBytes (Spec.compress a)).toList) (outCall_zero m w.bytes)

/-! ## The hypotheses can be met -/

/-- five slices, one of them longer than a chunk, and 100 bytes of output: 48 blocks and one parent -/
example : let ss : List Bytes := [[], [1], List.replicate 3000 2, [], List.replicate 60 3]
    ss.flatten.length < 2 ^ 64 ∧ (ss.flatten.length - 1) / 64 + (ss.flatten.length - 1) / 2048 + (100 + 63) / 64 = 50 := by
  simp only [List.flatten_cons, List.flatten_nil, List.length_append, List.length_replicate, List.length_nil, List.length_cons]
  decide

example : (Any.reference [[1], [2, 3]] (List.replicate 100 0)).Ok :=
  ⟨by decide, by rw [List.length_replicate]; decide, by rw [List.length_replicate]; decide⟩

example : (Any.python (List.replicate 5000 1) 32).Ok := Nat.le_refl 32

/-- the two give the same 32 bytes when they are given the same -/
example : (Any.reference [[1], [2, 3]] (List.replicate 100 0)).digest .hash = (Any.python [1, 2, 3] 32).digest .hash := by
  rw [(any_eq .hash (.reference [[1], [2, 3]] (List.replicate 100 0))
    ⟨by decide, by rw [List.length_replicate]; decide, by rw [List.length_replicate]; decide⟩).1,
    (any_eq .hash (.python [1, 2, 3] 32) (Nat.le_refl 32)).1]
  rfl

/-- a call of baokeshed.py with a key that is too long, and an offset past `2 ^ 64` -/
example : Spec.PyCall ⟨List.replicate 11 7, List.replicate 64 5, 64, 2 ^ 64 + 3, 2⟩
    ⟨Vector.replicate 8 7, Vector.replicate 64 5, 64, 3, 2⟩ :=
  ⟨⟨[7, 7, 7], by decide⟩, by decide, by decide, by decide, by decide⟩

end Baokeshed.Props
