import Verif.Proofs.C.TraceHasher
import Verif.Props.CHasher
import Verif.Props.Trace

/-!
# C60: the calls of the compression function in the C hasher

The `CT.` functions (Model/C/Trace.lean) are the functions of baokeshed.c, recording in `log` the arguments of every
call of the compression function.  `C60_same_results` says that they return what the C functions return.
-/

set_option linter.unusedVariables false

namespace Baokeshed.Props
open Baokeshed.Model Baokeshed.Proofs

attribute [local irreducible] Spec.compress Spec.outBytes Spec.cvBytes Spec.pad

/-- A call of a user of the C hasher.  An update passes a piece of input, followed in memory by `beyond`; finalize
passes 32 bytes (or more) to write to. -/
inductive CCall where
  | update (piece beyond : Bytes)
  | finalize (out : Bytes)

/-- The results of the calls on a C hasher: what the buffers passed to finalize contain afterwards. -/
def cSession (cfg : C.Config) : List CCall → C.hasher → R (List Bytes)
  | [], _ => .ok []
  | .update piece beyond :: cs, h => do
    let h ← C.hasher_update cfg h (piece ++ beyond) piece.length
    cSession cfg cs h
  | .finalize out :: cs, h => do
    let out ← C.hasher_finalize cfg h out
    let outs ← cSession cfg cs h
    return out :: outs

/-- the same, recording compressions -/
def cSessionT (cfg : C.Config) : List CCall → C.hasher → T.TR (List Bytes)
  | [], _ => pure []
  | .update piece beyond :: cs, h => do
    let h ← CT.hasher_update cfg h (piece ++ beyond) piece.length
    cSessionT cfg cs h
  | .finalize out :: cs, h => do
    let out ← CT.hasher_finalize cfg h out
    let outs ← cSessionT cfg cs h
    return out :: outs

/-- the updates in a session -/
def cUpdates (cs : List CCall) : List (Bytes × Bytes) := cs.flatMap fun | .update p b => [(p, b)] | .finalize _ => []

/-- the buffers passed to finalize in a session -/
def cOuts (cs : List CCall) : List Bytes := cs.flatMap fun | .update _ _ => [] | .finalize out => [out]

/-- C60.  Recording calls changes no result. -/
theorem C60_same_results (cfg : C.Config) (cs : List CCall) (h : C.hasher) :
    (cSessionT cfg cs h).res = cSession cfg cs h := by
  induction cs generalizing h with
  | nil => rfl
  | cons c cs ih =>
    cases c with
    | update p b => simp only [cSessionT, cSession, T.res_bind, CT.update_res, ih]
    | finalize out =>
      simp only [cSessionT, cSession, T.res_bind, CT.finalize_res, ih]
      rfl

theorem cwork_init (mem : Bytes) (m : Spec.Mode) (extra : Bytes) :
    ∃ h, C.hasher_init mem ((modeKey m).toList ++ extra) m.flag = .ok h ∧
      CT.CWork m.key m.flag mem.length (Platform.detect ⟨false, false, false, 64⟩) [] h [] := by
  have hk : words_from_key_bytes (modeKey m) = m.key := by
    rw [keyWords]
    cases m with
    | hash => exact keyWords_iv
    | keyedHash k => rfl
    | deriveKey k => rfl
  refine ⟨_, by rw [C.hasher_init, C.load_key_words_eq, bind_ok]; rfl, _, ?_, Work.new _ _ ⟨false, false, false, 64⟩⟩
  rw [← hk]
  exact ⟨C.CRel.init _ _ _, rfl, ⟨mem, rfl⟩, rfl⟩

/-- one update, under the conditions of C29 -/
theorem cwork_update (cfg : C.Config) (h16 : 16 ≤ cfg.bits) {key : Vector Word 8} {flags : Byte} {M : Nat} {p : Platform}
    (piece beyond : Bytes) (ss : List (Bytes × Bytes)) (bytes : Bytes) (h : C.hasher) (W : List Spec.Input)
    (hw : CT.CWork key flags M p bytes h W) (hf : FeedOk cfg M bytes.length ((piece, beyond) :: ss)) :
    ∃ h' l, CT.hasher_update cfg h (piece ++ beyond) piece.length = ⟨.ok h', l⟩ ∧
      CT.CWork key flags M p (bytes ++ piece) h' (W ++ l) ∧ FeedOk cfg M (bytes ++ piece).length ss := by
  have hl := hf.lt
  have hr := hf.room
  have ha := hf.asserts
  have hn := hf.order
  simp only [fed_cons, List.length_append] at hl hr ha
  obtain ⟨h1, l1, e1, hw1⟩ := CT.update_log key flags h16 bytes piece beyond h W hw (by omega)
    (fun n hn => by
      rcases hr with hr | ⟨hr, hr'⟩
      · exact room_c hr (by omega) hn
      · exact room_ffi (t := bytes.length + piece.length) hr (by omega) hn)
    (fun hA => by
      rcases ha hA with h | h
      · left
        intro n hn
        have := C.popcount_lt (n := n - 1) (k := 52) (by omega)
        omega
      · exact Or.inr (h _ List.mem_cons_self))
    (hn.imp_right fun h => h _ List.mem_cons_self)
  refine ⟨h1, l1, e1, hw1, ⟨by rw [List.length_append]; omega, by
    rw [List.length_append]; omega, fun hA => by
      rw [List.length_append]
      rcases ha hA with h | h
      · left; omega
      · exact Or.inr fun s hs => h s (List.mem_cons_of_mem _ hs),
    hn.imp_right fun h s hs => h s (List.mem_cons_of_mem _ hs)⟩⟩

/-- a C hasher only performs compressions of the tree over its input -/
theorem cwork_mem {m : Spec.Mode} {M : Nat} {p : Platform} {bytes : Bytes} {h : C.hasher} {W : List Spec.Input}
    (hw : CT.CWork m.key m.flag M p bytes h W) (hlt : bytes.length < 2 ^ 64) {a : Spec.Input} (ha : a ∈ W) :
    a ∈ Spec.inner m bytes := by
  obtain ⟨l, -, hp⟩ := CT.finalize_log m.key m.flag (cfg := exC) (by simp [exC]) bytes h W hw hlt (rep 32 0) (by simp)
  exact hp.mem_iff.1 (List.mem_append_left _ ha)

/-- the compressions with the ROOT flag -/
def rooted (l : List Spec.Input) : List Spec.Input := l.filter fun a => a.flags &&& 8 ≠ 0

theorem csession_log (cfg : C.Config) (h16 : 16 ≤ cfg.bits) (m : Spec.Mode) {M : Nat} {p : Platform} (cs : List CCall) :
    ∀ (bytes : Bytes) (h : C.hasher) (W : List Spec.Input), CT.CWork m.key m.flag M p bytes h W →
    FeedOk cfg M bytes.length (cUpdates cs) → (∀ out ∈ cOuts cs, 32 ≤ out.length) →
    ∃ rs l, cSessionT cfg cs h = ⟨.ok rs, l⟩ ∧ (∀ a ∈ l, a.flags &&& 0x30 = m.flag) ∧
      rs = List.zipWith (fun a out => (Spec.cvBytes (Spec.compress a)).toList ++ out.drop 32) (rooted l) (cOuts cs) ∧
      (rooted l).length = (cOuts cs).length := by
  induction cs with
  | nil => intro bytes h W _ _ _; exact ⟨[], [], rfl, by simp, rfl, rfl⟩
  | cons c cs ih =>
    intro bytes h W hw hf ho
    cases c with
    | update piece beyond =>
      change FeedOk cfg M bytes.length ((piece, beyond) :: cUpdates cs) at hf
      obtain ⟨h1, l1, e1, hw1, hf1⟩ := cwork_update cfg h16 piece beyond _ bytes h W hw hf
      obtain ⟨rs, l, e, hm, hz, hn⟩ := ih _ h1 _ hw1 hf1 ho
      have hlt : (bytes ++ piece).length < 2 ^ 64 := by have := hf1.lt; omega
      have hin : ∀ a ∈ l1, a.flags &&& 0x30 = m.flag ∧ a.flags &&& 8 = 0 := fun a ha =>
        inner_flags m _ a (cwork_mem hw1 hlt (List.mem_append_right _ ha))
      have hf0 : rooted l1 = [] := by
        rw [rooted, List.filter_eq_nil_iff]; intro a ha; simpa using (hin a ha).2
      have hfa : rooted (l1 ++ l) = rooted l := by
        rw [rooted, List.filter_append, show l1.filter _ = [] from hf0]; rfl
      refine ⟨rs, l1 ++ l, ?_, ?_, ?_, ?_⟩
      · rw [cSessionT]; exact CT.tr_bind' e1 e
      · intro a ha
        rcases List.mem_append.1 ha with ha | ha
        · exact (hin a ha).1
        · exact hm a ha
      · rw [hfa]; exact hz
      · rw [hfa]; exact hn
    | finalize out =>
      have hlt : bytes.length < 2 ^ 64 := by have := hf.lt; omega
      obtain ⟨l1, e1, hp⟩ := CT.finalize_log m.key m.flag h16 bytes h W hw hlt out (ho out (List.mem_cons_self ..))
      change CT.hasher_finalize cfg h out = ⟨.ok ((Spec.cvBytes (Spec.compress (Spec.root m bytes))).toList ++ out.drop 32),
        l1 ++ [Spec.root m bytes]⟩ at e1
      obtain ⟨rs, l, e, hm, hz, hn⟩ := ih bytes h W hw hf (fun x hx => ho x (List.mem_cons_of_mem _ hx))
      have hin : ∀ a ∈ l1, a.flags &&& 0x30 = m.flag ∧ a.flags &&& 8 = 0 := fun a ha =>
        inner_flags m _ a (hp.mem_iff.1 (List.mem_append_right _ ha))
      have hf0 : l1.filter (fun a => a.flags &&& 8 ≠ 0) = [] := by
        rw [List.filter_eq_nil_iff]; intro a ha; simpa using (hin a ha).2
      have hf1 : [Spec.root m bytes].filter (fun a => a.flags &&& 8 ≠ 0) = [Spec.root m bytes] := by
        rw [List.filter_eq_self]; intro a ha
        rw [List.mem_singleton.1 ha]; simpa using (root_flags m bytes).2
      have hfa : rooted (l1 ++ [Spec.root m bytes] ++ l) = Spec.root m bytes :: rooted l := by
        rw [rooted, List.filter_append, List.filter_append, hf0, hf1]; rfl
      refine ⟨((Spec.cvBytes (Spec.compress (Spec.root m bytes))).toList ++ out.drop 32) :: rs,
        l1 ++ [Spec.root m bytes] ++ l, ?_, ?_, ?_, ?_⟩
      · rw [cSessionT]
        refine CT.tr_bind' e1 ?_
        rw [tr_bind _ e, log_pure, List.append_nil]
        rfl
      · intro a ha
        simp only [List.mem_append, List.mem_singleton] at ha
        rcases ha with (ha | ha) | ha
        · exact (hin a ha).1
        · rw [ha]; exact (root_flags m bytes).1
        · exact hm a ha
      · rw [hfa]
        change _ = List.zipWith _ _ (out :: cOuts cs)
        rw [List.zipWith_cons_cons, ← hz]
      · rw [hfa]
        change _ = (out :: cOuts cs).length
        rw [List.length_cons, List.length_cons, hn]

/-- C60.  Feeding an input to the C hasher in any pieces and finalizing performs each compression of the specified
tree exactly once, and no other, whatever the SIMD back ends of the build and however the input is cut. -/
theorem C60_each_once (cfg : C.Config) (h16 : 16 ≤ cfg.bits) (mem : Bytes) (hmem : mem.length = C.OUT_LEN * C.MAX_DEPTH)
    (m : Spec.Mode) (beyond : Bytes) (ss : List (Bytes × Bytes)) (hlt : (fed ss).length < 2 ^ 64)
    (ha : cfg.asserts = true → (fed ss).length < 2 ^ 63 + 2048 ∨ ∀ s ∈ ss, s.1.length < 2048)
    (hn : NeonLittle cfg ∨ ∀ s ∈ ss, s.1.length < 2048) (out : Bytes) (ho : 32 ≤ out.length) :
    ∃ h₀, C.hasher_init mem ((modeKey m).toList ++ beyond) m.flag = .ok h₀ ∧
      let t := cSessionT cfg (ss.map (fun s => .update s.1 s.2) ++ [.finalize out]) h₀
      t.res = .ok [(Spec.hash m (fed ss)).toList ++ out.drop 32] ∧ t.log.Perm (Spec.calls m (fed ss)) ∧
      t.log.length = max 1 (((fed ss).length + 63) / 64) + (max 1 (((fed ss).length + 2047) / 2048) - 1) := by
  obtain ⟨h0, e0, hw0⟩ := cwork_init mem m beyond
  refine ⟨h0, e0, ?_⟩
  have key : ∀ (ss : List (Bytes × Bytes)) (bytes : Bytes) (h : C.hasher) (W : List Spec.Input),
      CT.CWork m.key m.flag mem.length (Platform.detect ⟨false, false, false, 64⟩) bytes h W →
      FeedOk cfg mem.length bytes.length ss →
      ∃ l, cSessionT cfg (ss.map (fun s => .update s.1 s.2) ++ [.finalize out]) h =
          ⟨.ok [(Spec.hash m (bytes ++ fed ss)).toList ++ out.drop 32], l⟩ ∧
        (W ++ l).Perm (Spec.calls m (bytes ++ fed ss)) := by
    intro ss
    induction ss with
    | nil =>
      intro bytes h W hw hf
      have hlt : bytes.length < 2 ^ 64 := by have := hf.lt; omega
      obtain ⟨l1, e1, hp⟩ := CT.finalize_log m.key m.flag h16 bytes h W hw hlt out ho
      have he : Spec.cvBytes (Spec.compress (asRoot (Spec.subtree m.key m.flag 0 bytes))) = Spec.hash m bytes := by
        rw [← keyedTree_mode m bytes, keyedTree]
        have hk : (Spec.Mode.keyedHash (modeKey m)).key = m.key := by
          cases m with
          | hash => exact keyWords_iv
          | keyedHash k => rfl
          | deriveKey k => rfl
        rw [hk]
        rfl
      rw [he] at e1
      rw [fed_nil, List.append_nil]
      refine ⟨l1 ++ [Spec.root m bytes], ?_, ?_⟩
      · rw [List.map_nil, List.nil_append, cSessionT]
        rw [tr_bind _ e1, cSessionT]
        refine congrArg _ ?_
        exact List.append_nil _
      · rw [← List.append_assoc]; exact hp.append_right _
    | cons s ss ih =>
      obtain ⟨piece, beyond⟩ := s
      intro bytes h W hw hf
      obtain ⟨h1, l1, e1, hw1, hf1⟩ := cwork_update cfg h16 piece beyond ss bytes h W hw hf
      obtain ⟨l, e, hp⟩ := ih _ h1 _ hw1 hf1
      rw [fed_cons, ← List.append_assoc]
      refine ⟨l1 ++ l, ?_, by rw [← List.append_assoc]; exact hp⟩
      rw [List.map_cons, List.cons_append, cSessionT]
      exact CT.tr_bind' e1 e
  obtain ⟨l, e, hp⟩ := key ss [] h0 [] hw0 ⟨by simpa using hlt, Or.inl (by rw [hmem]; decide), by simpa using ha, hn⟩
  rw [List.nil_append, List.nil_append] at hp
  rw [List.nil_append] at e
  rw [e]
  refine ⟨rfl, hp, ?_⟩
  rw [hp.length_eq, Spec.calls, Spec.inner, List.length_append, below_length, List.length_singleton]
  omega

-- 9 chunks and 11 bytes in three pieces: 289 blocks and 9 parents
example : 16 ≤ exC.bits ∧ (rep 1696 9).length = C.OUT_LEN * C.MAX_DEPTH ∧ NeonLittle exC ∧
    (fed [(rep 2048 1, []), ([], [7]), (rep 16395 1, [8])]).length = 18443 ∧
    max 1 ((18443 + 63) / 64) + (max 1 ((18443 + 2047) / 2048) - 1) = 298 ∧ 32 ≤ (rep 40 0).length := by
  simp [NeonLittle, exC, fed, C.OUT_LEN, C.MAX_DEPTH]

/-- C60.  In any sequence of updates and finalizes on a C hasher, all compressions carry the mode in flags 0x30.  The
ones with the ROOT flag are, in order, the ones whose chaining values finalize returns; there are as many as calls of
finalize.  Finalize leaves the rest of the buffer alone. -/
theorem C60_flags (cfg : C.Config) (h16 : 16 ≤ cfg.bits) (mem : Bytes) (hmem : mem.length = C.OUT_LEN * C.MAX_DEPTH)
    (m : Spec.Mode) (beyond : Bytes) (cs : List CCall) (hlt : (fed (cUpdates cs)).length < 2 ^ 64)
    (ha : cfg.asserts = true → (fed (cUpdates cs)).length < 2 ^ 63 + 2048 ∨ ∀ s ∈ cUpdates cs, s.1.length < 2048)
    (hn : NeonLittle cfg ∨ ∀ s ∈ cUpdates cs, s.1.length < 2048) (ho : ∀ out ∈ cOuts cs, 32 ≤ out.length) :
    ∃ h₀, C.hasher_init mem ((modeKey m).toList ++ beyond) m.flag = .ok h₀ ∧
      let t := cSessionT cfg cs h₀
      (∀ a ∈ t.log, a.flags &&& 0x30 = m.flag) ∧
      t.res = .ok (List.zipWith (fun a out => (Spec.cvBytes (Spec.compress a)).toList ++ out.drop 32)
        (t.log.filter fun a => a.flags &&& 8 ≠ 0) (cOuts cs)) ∧
      (t.log.filter fun a => a.flags &&& 8 ≠ 0).length = (cOuts cs).length := by
  obtain ⟨h0, e0, hw0⟩ := cwork_init mem m beyond
  obtain ⟨rs, l, e, hm, hz, hn⟩ := csession_log cfg h16 m cs [] h0 [] hw0
    ⟨by simpa using hlt, Or.inl (by rw [hmem]; decide), by simpa using ha, hn⟩ ho
  refine ⟨h0, e0, ?_⟩
  rw [e]
  exact ⟨hm, congrArg Except.ok hz, hn⟩

-- finalize, more input, finalize again
example : (fed (cUpdates [.update (rep 5000 1) [], .finalize (rep 32 0), .update (rep 9 2) [7], .finalize (rep 33 0)])).length = 5009 ∧
    cOuts [.update (rep 5000 1) [], .finalize (rep 32 0), .update (rep 9 2) [7], .finalize (rep 33 0)] = [rep 32 0, rep 33 0] := by
  constructor
  · simp [fed, cUpdates]
  · rfl

/-- how an input is hashed, and in which mode: by the Rust library or by the C code, and there on which machine -/
inductive How where
  | rust (cfg : Config) (w : Way)
  | c (cfg : C.Config) (mem : Bytes) (ss : List (Bytes × Bytes))

/-- the input -/
def How.bytes : How → Bytes
  | .rust _ w => w.bytes
  | .c _ _ ss => fed ss

/-- the input can exist on the machine, and is one the C code handles (C29, C30) -/
def How.Ok : How → Prop
  | .rust cfg w => w.Ok cfg
  | .c cfg mem ss => 16 ≤ cfg.bits ∧ mem.length = C.OUT_LEN * C.MAX_DEPTH ∧ (fed ss).length < 2 ^ 63 ∧ NeonLittle cfg

/-- hash it -/
def How.digest (m : Spec.Mode) : How → T.TR Bytes
  | .rust cfg w => do
    let d ← Props.digest cfg m w
    return d.toList
  | .c cfg mem ss => do
    let h ← C.hasher_init mem (modeKey m).toList m.flag
    let outs ← cSessionT cfg (ss.map (fun s => .update s.1 s.2) ++ [.finalize (List.replicate C.OUT_LEN 0)]) h
    return outs.flatten

theorem how_eq (m : Spec.Mode) (w : How) (hw : w.Ok) :
    (w.digest m).res = .ok (Spec.hash m w.bytes).toList ∧ (w.digest m).log.Perm (Spec.calls m w.bytes) := by
  cases w with
  | rust cfg w =>
    obtain ⟨e, hp⟩ := digest_eq cfg m w hw
    rw [How.digest, tr_bind _ (tr_eq e), log_pure, List.append_nil]
    exact ⟨rfl, hp⟩
  | c cfg mem ss =>
    obtain ⟨h16, hmem, hlt, hn⟩ := hw
    obtain ⟨h0, e0, e1, hp, -⟩ := C60_each_once cfg h16 mem hmem m [] ss (by omega) (fun _ => Or.inl (by omega))
      (Or.inl hn) (List.replicate C.OUT_LEN 0) (by simp)
    rw [List.append_nil] at e0
    rw [How.digest, e0, lift_ok, tr_bind _ (tr_eq e1), log_pure, List.append_nil]
    refine ⟨?_, hp⟩
    rw [List.drop_of_length_le (by simp)]
    show Except.ok ([_ ++ []] : List Bytes).flatten = _
    rw [List.append_nil, List.flatten_cons, List.flatten_nil, List.append_nil]
    rfl

/-- C60.  If the C hasher and the Rust library, or either of them twice, return equal hashes, the two modes, keys and inputs are
equal, or two of the compressions performed have different arguments and the same chaining value. -/
theorem C60_collision (m m' : Spec.Mode) (w w' : How) (hw : w.Ok) (hw' : w'.Ok)
    (h : (w.digest m).res = (w'.digest m').res) :
    (m = m' ∧ w.bytes = w'.bytes) ∨
    ∃ a ∈ (w.digest m).log, ∃ b ∈ (w'.digest m').log, a ≠ b ∧ Spec.compress a = Spec.compress b := by
  obtain ⟨e, hp⟩ := how_eq m w hw
  obtain ⟨e', hp'⟩ := how_eq m' w' hw'
  rw [e, e'] at h
  have h : Spec.hash m w.bytes = Spec.hash m' w'.bytes := Vector.toList_inj.1 (Except.ok.inj h)
  rcases hash_inj m m' w.bytes w'.bytes h with h | ⟨a, ha, b, hb, hne, hc⟩
  · exact Or.inl h
  · exact Or.inr ⟨a, hp.mem_iff.2 ha, b, hp'.mem_iff.2 hb, hne, hc⟩

-- the C code, given an input in two pieces, against the Rust library
example : (How.c exC (rep 1696 9) [(rep 5000 1, [7]), (rep 3 2, [])]).Ok ∧ (How.rust exAvx2 (.whole (rep 5003 1))).Ok := by
  refine ⟨⟨by simp [exC], by simp [C.OUT_LEN, C.MAX_DEPTH], by simp [fed], fun _ => rfl⟩, exAvx2_valid, by simp [Config.Fits, exAvx2]⟩

end Baokeshed.Props
