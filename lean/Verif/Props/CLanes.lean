import Verif.Proofs.C.Copies
import Verif.Props.CCost

/-!
# C66: the C hasher uses the SIMD lanes of its build, and no others

The functions of Model/C/Isa.lean return what the functions of the model return (`C66_same_results`).
-/

set_option linter.unusedVariables false
set_option linter.unusedSimpArgs false

namespace Baokeshed.Props.CLanes
open Baokeshed.Model Baokeshed.Model.CI Baokeshed.Proofs Baokeshed.Spec Baokeshed.Spec.CLanes

attribute [local irreducible] Spec.compress Spec.outBytes Spec.cvBytes Spec.pad

/-- The calls of a session, recording the functions entered. -/
def cSessionI (cfg : C.Config) : List CCall → C.hasher → ER (List Bytes)
  | [], _ => pure []
  | .update piece beyond :: cs, h => do
    let h ← CI.hasher_update cfg h (piece ++ beyond) piece.length
    cSessionI cfg cs h
  | .finalize out :: cs, h => do
    let out ← CI.hasher_finalize cfg h out
    let outs ← cSessionI cfg cs h
    return out :: outs

/-- the updates only -/
def cFeedI (cfg : C.Config) : List (Bytes × Bytes) → C.hasher → ER C.hasher
  | [], h => pure h
  | (piece, beyond) :: ss, h => do
    let h ← CI.hasher_update cfg h (piece ++ beyond) piece.length
    cFeedI cfg ss h

/-- C66.  Recording calls changes no result. -/
theorem C66_same_results (cfg : C.Config) (cs : List CCall) (ss : List (Bytes × Bytes)) (h : C.hasher) :
    (cSessionI cfg cs h).res = cSession cfg cs h ∧ (cFeedI cfg ss h).res = feed cfg h ss := by
  constructor
  · induction cs generalizing h with
    | nil => rfl
    | cons c cs ih =>
      cases c with
      | update p b => simp only [cSessionI, cSession, CI.res_bind, CI.update_res, ih]
      | finalize out =>
        simp only [cSessionI, cSession, CI.res_bind, CI.finalize_res, ih]
        rfl
  · induction ss generalizing h with
    | nil => rfl
    | cons s ss ih =>
      obtain ⟨p, b⟩ := s
      simp only [cFeedI, feed, CI.res_bind, CI.update_res, ih]

/-- C66.  No function of a file that is not part of the build is called. -/
theorem C66_built (cfg : C.Config) (cs : List CCall) (h : C.hasher) :
    ∀ c ∈ (cSessionI cfg cs h).log, ∀ i, c.isa = some i → built cfg i := by
  have key : CI.Each (fun c => ∀ i, c.isa = some i → built cfg i) (cSessionI cfg cs h) := by
    induction cs generalizing h with
    | nil => exact .pure _
    | cons c cs ih =>
      cases c with
      | update p b => exact (CI.each_update (CI.calls_built cfg) _ _ _).bind fun _ => ih _
      | finalize out => exact (CI.each_finalize (CI.calls_built cfg) _ _).bind fun _ => (ih _).bind fun _ => .pure _
  exact key

/-- C66.  Single blocks (of chunks and of parent nodes) are compressed with the best function of the build. -/
theorem C66_best (cfg : C.Config) (cs : List CCall) (h : C.hasher) :
    ∀ i f, Ev.compress i f ∈ (cSessionI cfg cs h).log → i = best cfg := by
  have key : CI.Each (fun c => ∀ i f, c = .compress i f → i = best cfg) (cSessionI cfg cs h) := by
    induction cs generalizing h with
    | nil => exact .pure _
    | cons c cs ih =>
      cases c with
      | update p b => exact (CI.each_update (CI.calls_best cfg) _ _ _).bind fun _ => ih _
      | finalize out => exact (CI.each_finalize (CI.calls_best cfg) _ _).bind fun _ => (ih _).bind fun _ => .pure _
  exact fun i f hm => key _ hm i f rfl

/-! ## The kernels -/

/-- The kernels of the build; `hash_many` enters one kind of file, and the AVX2 file uses the SSE4.1 file for the rest. -/
def kernelOf (cfg : C.Config) : Ev → Prop
  | .hash1 none _ => True
  | .hash1 (some i) _ => built cfg i
  | .hash .sse41 n _ => built cfg .sse41 ∧ n = 4
  | .hash .avx2 n _ => built cfg .avx2 ∧ n = 8
  | .hash .avx512 n _ => built cfg .avx512 ∧ (n = 4 ∨ n = 8 ∨ n = 16)
  | .hash .neon n _ => built cfg .neon ∧ n = 4
  | _ => False

theorem length_kernels (cfg : C.Config) (blocks n : Nat) : (kernels cfg blocks n).length =
    if cfg.avx512 then n / 16 + (n % 16 / 8 + (n % 8 / 4 + n % 4))
    else if cfg.avx2 then n / 8 + (n % 8 / 4 + n % 4)
    else if cfg.sse41 then n / 4 + n % 4
    else if cfg.neon then n / 4 + n % 4 else n := by
  unfold kernels
  repeat' split
  all_goals simp

/-- C66.  `Spec.CLanes.kernels` consists of kernels of the build and hashes `n` inputs. -/
theorem C66_kernels (cfg : C.Config) (blocks n : Nat) :
    (∀ c ∈ kernels cfg blocks n, kernelOf cfg c) ∧ ((kernels cfg blocks n).map width).sum = n := by
  constructor
  · intro c hc
    unfold kernels at hc
    repeat' split at hc
    all_goals try simp only [List.mem_append] at hc
    all_goals
      first
      | (rcases hc with hc | hc | hc | hc)
      | (rcases hc with hc | hc | hc)
      | (rcases hc with hc | hc)
      | skip
    all_goals
      rw [List.eq_of_mem_replicate hc]
      simp_all [kernelOf, built]
  · unfold kernels
    repeat' split
    all_goals simp [width]
    all_goals omega

/-- C66.  No other choice of kernels of the build hashes `n` inputs with fewer calls. -/
theorem C66_kernels_least (cfg : C.Config) (blocks : Nat) (L : List Ev) (hL : ∀ c ∈ L, kernelOf cfg c) :
    (kernels cfg blocks (L.map width).sum).length ≤ L.length := by
  induction L with
  | nil =>
    rw [length_kernels]
    repeat' split
    all_goals exact Nat.le_refl _
  | cons c L ih =>
    have ih := ih (fun c hc => hL c (List.mem_cons_of_mem _ hc))
    have hc := hL c (List.mem_cons_self ..)
    rw [length_kernels] at *
    rw [List.map_cons, List.sum_cons, List.length_cons]
    generalize (List.map width L).sum = m at *
    have hw : width c = 1 ∨ (width c = 4 ∧ (cfg.sse41 = true ∨ cfg.avx2 = true ∨ cfg.avx512 = true ∨ cfg.neon = true)) ∨
        (width c = 8 ∧ (cfg.avx2 = true ∨ cfg.avx512 = true)) ∨ (width c = 16 ∧ cfg.avx512 = true) := by
      match c, hc with
      | .hash1 _ _, _ => exact Or.inl rfl
      | .hash .sse41 _ _, ⟨h, rfl⟩ => exact Or.inr (Or.inl ⟨rfl, h.elim Or.inl fun h => Or.inr (Or.inl h)⟩)
      | .hash .avx2 _ _, ⟨h, rfl⟩ => exact Or.inr (Or.inr (Or.inl ⟨rfl, Or.inl h⟩))
      | .hash .avx512 _ _, ⟨h, h'⟩ =>
        rcases h' with rfl | rfl | rfl
        · exact Or.inr (Or.inl ⟨rfl, Or.inr (Or.inr (Or.inl h))⟩)
        · exact Or.inr (Or.inr (Or.inl ⟨rfl, Or.inr h⟩))
        · exact Or.inr (Or.inr (Or.inr ⟨rfl, h⟩))
      | .hash .neon _ _, ⟨h, rfl⟩ => exact Or.inr (Or.inl ⟨rfl, Or.inr (Or.inr (Or.inr h))⟩)
    generalize width c = w at *
    by_cases h1 : cfg.avx512 = true
    · rw [if_pos h1] at *
      omega
    rw [if_neg h1] at *
    simp only [h1, Bool.false_eq_true, or_false, false_or, and_false] at hw
    by_cases h2 : cfg.avx2 = true
    · rw [if_pos h2] at *
      omega
    rw [if_neg h2] at *
    simp only [h2, Bool.false_eq_true, or_false, false_or, and_false] at hw
    by_cases h3 : cfg.sse41 = true
    · rw [if_pos h3] at *
      omega
    rw [if_neg h3] at *
    simp only [h3, Bool.false_eq_true, or_false, false_or, and_false] at hw
    by_cases h4 : cfg.neon = true
    · rw [if_pos h4] at *
      omega
    rw [if_neg h4] at *
    simp only [h4, Bool.false_eq_true, or_false, false_or, and_false] at hw
    omega

theorem init_len {cfg : C.Config} {mem key : Bytes} {f : Byte} {h : C.hasher} (e : C.hasher_init mem key f = .ok h) :
    C.chunk_state_len cfg h.chunk = 0 := by
  rw [C.hasher_init] at e
  obtain ⟨k, -, e1⟩ := C.bind_inv e
  cases e1
  exact Nat.zero_mod _

/-! ## Updates -/

/-- the first piece that is not empty -/
def firstPiece (ss : List (Bytes × Bytes)) : Bytes := ((ss.map Prod.fst).filter fun s => s ≠ []).headD []

/-- at a chunk boundary the offset is the number of bytes so far -/
theorem offset_at {cfg : C.Config} (h16 : 16 ≤ cfg.bits) {m : Mode} {M : Nat} {p : Platform} {bytes : Bytes} {h : C.hasher}
    {W : List Spec.Input} (hw : CT.CWork m.key m.flag M p bytes h W) (h0 : C.chunk_state_len cfg h.chunk = 0)
    (hne : bytes ≠ []) (hlt : bytes.length < 2 ^ 64) : h.chunk.offset ≠ 0 := by
  intro h2
  obtain ⟨g, r, hg⟩ := hw
  obtain ⟨cks, tail, eb, hcks, htail, hch, -⟩ := (CT.Work.ok m.key m.flag hg).ex
  have hcl := hch.len
  rw [r.chunk.len h16 (by omega)] at h0
  have ht : tail = [] := List.eq_nil_of_length_eq_zero (by rw [← hcl]; exact h0)
  have hfl := length_flatten cks hcks
  have hbl := congrArg List.length eb
  rw [ht, List.append_nil, hfl] at hbl
  rw [r.chunk.offset] at h2
  have := congrArg BitVec.toNat (hch.hoff.symm.trans h2)
  rw [BitVec.toNat_ofNat, Nat.mod_eq_of_lt (by omega)] at this
  have hpos := List.length_pos_iff.2 hne
  have : 2048 * cks.length = 0 := this
  omega

/-- C66.  If every piece has a multiple of 2048 times the number of lanes (32768 bytes are enough for every build), then
all chunks are hashed with the least number of kernel calls, and there is nothing else but the compression of parents;
in particular nothing is copied.  (A first piece of 2048 bytes, which is such a multiple only where there is no SIMD, is
excepted because of `maybe_root`, baokeshed.c:198.) -/
theorem C66_updates (cfg : C.Config) (mem : Bytes) (m : Mode) (beyond : Bytes) (ss : List (Bytes × Bytes))
    (hok : CFedOk cfg mem ss) (hs : ∀ s ∈ ss, 2048 * lanes cfg ∣ s.1.length) (hfirst : (firstPiece ss).length ≠ 2048) :
    ∃ h₀ h, C.hasher_init mem ((modeKey m).toList ++ beyond) m.flag = .ok h₀ ∧ (cFeedI cfg ss h₀).res = .ok h ∧
      (cFeedI cfg ss h₀).log.filter chunkWork = kernels cfg 32 ((fed ss).length / 2048) ∧
      ∀ n, Ev.copy n ∉ (cFeedI cfg ss h₀).log := by
  obtain ⟨h0, e0, hw0⟩ := cwork_init mem m beyond
  obtain ⟨h, W, e, hw, -⟩ := cwork_feed hok.bits ss [] [] h0 [] hw0 (by rw [List.append_nil]; exact hok.feedOk)
  have er := (C66_same_results cfg [] ss h0).2.trans e
  have hl0 := init_len (cfg := cfg) e0
  have key : ∀ (ss : List (Bytes × Bytes)) (bytes : Bytes) (h : C.hasher) (W : List Spec.Input),
      CT.CWork m.key m.flag mem.length (Platform.detect exSmall) bytes h W → FeedOk cfg mem.length bytes.length ss →
      C.chunk_state_len cfg h.chunk = 0 → (∀ s ∈ ss, 2048 * lanes cfg ∣ s.1.length) →
      (bytes = [] → (firstPiece ss).length ≠ 2048) →
      CI.Logs chunkWork (kernels cfg 32 ((fed ss).length / 2048)) (fun _ => True) (cFeedI cfg ss h) := by
    intro ss
    induction ss with
    | nil =>
      intro bytes h W _ _ hl _ _
      exact (CI.Logs.pure trivial).cast (CI.kernels_zero cfg 32).symm
    | cons s ss ih =>
      intro bytes h W hw hf hl hs hfirst
      obtain ⟨piece, bey⟩ := s
      obtain ⟨k, hk⟩ := hs (piece, bey) (List.mem_cons_self ..)
      have hk' : piece.length = 2048 * (lanes cfg * k) := by rw [← Nat.mul_assoc]; exact hk
      have hd : lanes cfg ∣ piece.length / 2048 := ⟨k, by rw [hk', Nat.mul_div_cancel_left _ (by decide)]⟩
      have eq : kernels cfg 32 ((fed ((piece, bey) :: ss)).length / 2048) =
          kernels cfg 32 (piece.length / 2048) ++ kernels cfg 32 ((fed ss).length / 2048) := by
        rw [← CI.kernels_add _ _ _ _ hd, fed_cons, List.length_append]
        congr 1
        dsimp only
        rw [hk', Nat.mul_div_cancel_left _ (by decide), Nat.mul_add_div (by decide)]
      rw [eq]
      have hroot : ¬ (h.chunk.offset = 0 ∧ piece.length = 2048) := by
        rintro ⟨ho, hlen⟩
        by_cases hb : bytes = []
        · refine hfirst hb ?_
          have hsne : piece ≠ [] := by rintro rfl; cases hlen
          rw [firstPiece, List.map_cons, List.filter_cons_of_pos (by simpa using hsne)]
          exact hlen
        · have := hf.lt
          exact offset_at hok.bits hw hl hb (by omega) ho
      obtain ⟨h1, l1, e1, hw1, hf1⟩ := cwork_update cfg hok.bits piece bey ss bytes h W hw hf
      have hu := CI.logs_update_whole CI.keeps_chunkWork cfg h (piece ++ bey) piece.length hl
        (by rw [hk']; exact Nat.mul_mod_right _ _) hroot
      have hu' : CI.Logs chunkWork (kernels cfg 32 (piece.length / 2048))
          (fun a => C.chunk_state_len cfg a.chunk = 0 ∧ a = h1) (CI.hasher_update cfg h (piece ++ bey) piece.length) := by
        intro a ha
        refine ⟨(hu a ha).1, (hu a ha).2, ?_⟩
        rw [CI.update_res, ← CT.update_res, e1] at ha
        exact (Except.ok.inj ha).symm
      refine hu'.bind fun a ⟨hl', ea⟩ => ?_
      subst ea
      refine ih (bytes ++ piece) a _ hw1 hf1 hl' (fun s hs' => hs s (List.mem_cons_of_mem _ hs')) ?_
      intro hb
      obtain ⟨rfl, rfl⟩ := List.append_eq_nil_iff.1 hb
      exact hfirst rfl
  have hlog := ((key ss [] h0 [] hw0 hok.feedOk hl0 hs (fun _ => hfirst)).ok er).1
  refine ⟨h0, h, e0, er, hlog, fun n hn => ?_⟩
  have h1 : Ev.copy n ∈ (cFeedI cfg ss h0).log.filter chunkWork := List.mem_filter.2 ⟨hn, rfl⟩
  rw [hlog] at h1
  exact (C66_kernels _ _ _).1 _ h1

theorem len_le {cfg : C.Config} (h16 : 16 ≤ cfg.bits) {m : Mode} {M : Nat} {p : Platform} {bytes : Bytes} {h : C.hasher}
    {W : List Spec.Input} (hw : CT.CWork m.key m.flag M p bytes h W) : C.chunk_state_len cfg h.chunk ≤ 2048 := by
  obtain ⟨g, r, hg⟩ := hw
  obtain ⟨cks, tail, -, -, htail, hch, -⟩ := (CT.Work.ok m.key m.flag hg).ex
  have := hch.len
  rw [r.chunk.len h16 (by omega)]
  omega

/-- C66.  A piece of any length, added after any other pieces: the chunks that lie in it, or all but one of them, are hashed
with the least number of kernel calls for that many chunks. -/
theorem C66_any_update (cfg : C.Config) (mem : Bytes) (m : Mode) (beyond : Bytes) (ss : List (Bytes × Bytes))
    (s beyond' : Bytes) (hok : CFedOk cfg mem (ss ++ [(s, beyond')])) :
    ∃ h₀ h k, C.hasher_init mem ((modeKey m).toList ++ beyond) m.flag = .ok h₀ ∧ feed cfg h₀ ss = .ok h ∧
      k ≤ s.length / 2048 ∧ s.length / 2048 ≤ k + 1 ∧ (ss = [] → s.length ≠ 2048 → k = s.length / 2048) ∧
      (CI.hasher_update cfg h (s ++ beyond') s.length).log.filter chunkKernel = kernels cfg 32 k := by
  obtain ⟨h0, e0, hw0⟩ := cwork_init mem m beyond
  obtain ⟨h, W, e, hw, hf⟩ := cwork_feed hok.bits ss [(s, beyond')] [] h0 [] hw0 hok.feedOk
  obtain ⟨h1, l1, e1, -, -⟩ := cwork_update cfg hok.bits s beyond' [] _ h W hw hf
  have er : (CI.hasher_update cfg h (s ++ beyond') s.length).res = .ok h1 := by
    rw [CI.update_res, ← CT.update_res, e1]
  have hl := len_le hok.bits hw
  refine ⟨h0, h, (s.length - CI.firstBytes cfg h s.length) / 2048, e0, e, ?_, ?_, ?_,
    ((CI.logs_update cfg hok.bits h _ _ hl).ok er).1⟩
  · exact Nat.div_le_div_right (Nat.sub_le _ _)
  · have : CI.firstBytes cfg h s.length ≤ 2048 := by unfold CI.firstBytes; split <;> omega
    omega
  · intro hss h2
    subst hss
    obtain rfl : h0 = h := by cases e; rfl
    have hl0 := init_len (cfg := cfg) e0
    have : CI.firstBytes cfg h0 s.length = 0 := by
      unfold CI.firstBytes
      rw [if_neg (by omega)]
    rw [this]; rfl

/-- C66.  A session copies no byte of input into a block buffer more than once, whatever the state. -/
theorem C66_copies (cfg : C.Config) (cs : List CCall) (h : C.hasher) :
    copied (cSessionI cfg cs h).log ≤ (fed (cUpdates cs)).length := by
  have key : ∀ (cs : List CCall) (h : C.hasher), CI.Cp (fed (cUpdates cs)).length (fun _ => 0) (cSessionI cfg cs h) := by
    intro cs
    induction cs with
    | nil => intro h; exact CI.Cp.pure (Nat.le_refl _)
    | cons c cs ih =>
      intro h
      cases c with
      | update p b =>
        have hl : (fed (cUpdates (.update p b :: cs))).length = p.length + (fed (cUpdates cs)).length := by
          show (fed ((p, b) :: cUpdates cs)).length = _
          rw [fed_cons, List.length_append]
        rw [hl]
        refine CI.Cp.bind (Q := fun _ => (fed (cUpdates cs)).length) ?_ fun h' _ => ih h'
        obtain ⟨h1, h2⟩ := CI.cp_update cfg h (p ++ b) p.length
        exact ⟨by omega, fun _ _ => by omega⟩
      | finalize out =>
        exact (CI.free_finalize cfg h out _).bind fun _ _ => (ih h).bind fun _ _ => CI.Cp.pure (Nat.le_refl _)
  exact (key cs h).le

/-! ## The hypotheses can be met -/

/-- a build with AVX2 and SSE4.1 -/
def exAvx2C : C.Config := ⟨false, true, true, false, true, true, 64, fun _ => 7, .little⟩

example : lanes exC = 16 ∧ lanes exAvx2C = 8 ∧
    kernels exAvx2C 32 13 = [.hash .avx2 8 32, .hash .sse41 4 32, .hash1 (some .sse41) 32] := by decide
example (a b : Bytes) (ha : a.length = 16384) (hb : b.length = 32768) :
    CFedOk exAvx2C (rep 1696 9) [(a, [7]), (b, [])] ∧ (∀ s ∈ [(a, ([7] : Bytes)), (b, [])],
      2048 * lanes exAvx2C ∣ s.1.length) ∧ (firstPiece [(a, [7]), (b, [])]).length ≠ 2048 := by
  have hf : (fed [(a, [7]), (b, [])]).length = 49152 := by simp [fed, ha, hb]
  refine ⟨⟨by simp [exAvx2C], by simp [C.OUT_LEN, C.MAX_DEPTH], by omega, fun _ => Or.inl (by omega), Or.inl fun h => by cases h⟩,
    ?_, ?_⟩
  · intro s hs
    rcases List.mem_cons.1 hs with rfl | hs
    · show _ ∣ a.length
      rw [ha]; decide
    · cases List.mem_singleton.1 hs
      show _ ∣ b.length
      rw [hb]; decide
  · have hne : a ≠ [] := by rintro rfl; cases ha
    rw [firstPiece, List.map_cons, List.filter_cons_of_pos (by simpa using hne)]
    show a.length ≠ 2048
    omega
/-- a build without SIMD: a second piece of one chunk is no exception -/
def exPlainC : C.Config := ⟨false, false, false, false, true, true, 64, fun _ => 7, .little⟩
example (a b : Bytes) (ha : a.length = 4096) (hb : b.length = 2048) :
    CFedOk exPlainC (rep 1696 9) [([], []), (a, [7]), (b, [])] ∧ (∀ s ∈ [([], []), (a, ([7] : Bytes)), (b, [])],
      2048 * lanes exPlainC ∣ s.1.length) ∧ (firstPiece [([], []), (a, [7]), (b, [])]).length ≠ 2048 := by
  have hf : (fed [([], []), (a, [7]), (b, [])]).length = 6144 := by simp [fed, ha, hb]
  refine ⟨⟨by simp [exPlainC], by simp [C.OUT_LEN, C.MAX_DEPTH], by omega, fun _ => Or.inl (by omega), Or.inl fun h => by cases h⟩,
    ?_, ?_⟩
  · intro s hs
    rcases List.mem_cons.1 hs with rfl | hs
    · decide
    rcases List.mem_cons.1 hs with rfl | hs
    · show _ ∣ a.length
      rw [ha]; decide
    · cases List.mem_singleton.1 hs
      show _ ∣ b.length
      rw [hb]; decide
  · have hne : a ≠ [] := by rintro rfl; cases ha
    rw [firstPiece, List.map_cons, List.map_cons, List.filter_cons_of_neg (by simp), List.filter_cons_of_pos (by simpa using hne)]
    show a.length ≠ 2048
    omega

end Baokeshed.Props.CLanes
