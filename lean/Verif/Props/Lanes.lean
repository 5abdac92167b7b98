import Verif.Proofs.Lanes
import Verif.Props.Isa
import Verif.Props.Copy

/-!
# C56, C57: the SIMD lanes are used

How many kernel calls it takes to hash the chunks of an input, and for which sizes of the buffer passed to `update`
the incremental hasher needs no more of them than the one-shot function.
-/

set_option linter.unusedVariables false

namespace Baokeshed.Props.Lanes
open Baokeshed.Model Baokeshed.Proofs Baokeshed.Model.I Baokeshed.Spec

/-! ## `Spec.kernels` is the minimum -/

/-- the number of inputs hashed by a kernel call -/
def width : Ev → Nat
  | .hash1 .. => 1
  | .hash4 _ => 4
  | .hash8 _ => 8
  | _ => 0

/-- the kernels of a platform -/
def kernelOf : Platform → Ev → Prop
  | .portable, .hash1 false _ => True
  | .sse41, .hash1 true _ => True
  | .sse41, .hash4 _ => True
  | .avx2, .hash1 true _ => True
  | .avx2, .hash4 _ => True
  | .avx2, .hash8 _ => True
  | _, _ => False

theorem length_kernels (p : Platform) (len n : Nat) : (kernels p len n).length =
    match p with | .portable => n | .sse41 => n / 4 + n % 4 | .avx2 => n / 8 + (n % 8 / 4 + n % 8 % 4) := by
  cases p <;> simp [kernels]

/-- C57.  `Spec.kernels` consists of kernels of the platform and hashes `n` inputs. -/
theorem C57_kernels (p : Platform) (len n : Nat) :
    (∀ c ∈ kernels p len n, kernelOf p c) ∧ ((kernels p len n).map width).sum = n := by
  constructor
  · intro c hc
    cases p <;> simp only [kernels, List.mem_append] at hc <;> try (rcases hc with hc | hc)
    all_goals try (rcases hc with hc | hc)
    all_goals rw [List.eq_of_mem_replicate hc]; trivial
  · cases p <;> simp [kernels, width] <;> omega

/-- C57.  No other choice of kernels of the platform hashes `n` inputs with fewer calls. -/
theorem C57_kernels_least (p : Platform) (len : Nat) (L : List Ev) (hL : ∀ c ∈ L, kernelOf p c) :
    (kernels p len (L.map width).sum).length ≤ L.length := by
  induction L with
  | nil => cases p <;> exact Nat.le_refl _
  | cons c L ih =>
    have ih := ih (fun c hc => hL c (List.mem_cons_of_mem _ hc))
    have hc := hL c (List.mem_cons_self ..)
    rw [length_kernels] at *
    rw [List.map_cons, List.sum_cons, List.length_cons]
    cases p <;> cases c <;> simp only [width] at * <;> first | exact absurd hc id | omega

/-! ## C57: one-shot hashing -/

theorem oneShot_log {cfg : Config} {m : Spec.Mode} {input : Bytes} {o : Output}
    (hr : (I.oneShotXof cfg m input).res = .ok o) :
    (I.oneShot cfg m input).log = (I.oneShotXof cfg m input).log ++ (I.Output.to_hash o).log := by
  unfold I.oneShot
  generalize I.oneShotXof cfg m input = x at hr
  obtain ⟨r, l⟩ := x
  cases hr
  rfl

/-- C57.  The one-shot functions hash the whole chunks of an input of more than one chunk with the least number of
kernel calls the platform allows: on AVX2 all but at most seven of them eight at a time, on SSE4.1 all but at most
three of them four at a time.  (An input of one chunk is hashed block by block, because its hash is the root.) -/
theorem C57_one_shot (cfg : Config) (hv : cfg.Valid) (m : Spec.Mode) (input : Bytes) (hf : cfg.Fits input.length) :
    (I.oneShot cfg m input).log.filter chunkKernel =
      if 2048 < input.length then kernels (Platform.detect cfg) 2048 (input.length / 2048) else [] := by
  obtain ⟨o, e, -, -⟩ := oneShotXof_eq cfg m input hv hf
  have hr : (I.oneShotXof cfg m input).res = .ok o := (Proofs.I.oneShotXof_res cfg m input).trans e
  have ht : (I.Output.to_hash o).log.filter chunkKernel = [] := by
    have : (I.Output.to_hash o).log = (I.compress o.platform o.cv o.block o.block_len 0 o.flags).log ++ [] := rfl
    rw [this, List.append_nil]
    cases o.platform <;> rfl
  rw [oneShot_log hr, List.filter_append, ht, List.append_nil]
  split
  next h => exact ((Proofs.I.logs_oneShotXof cfg m input h).ok hr).1
  next h => exact ((Proofs.I.logs_oneShotXof_short cfg m input (by omega)).ok hr).1

/-! ## C56: the size of the buffer -/

/-- the events of a chain of updates of a new hasher -/
def updatesLog (cfg : Config) (m : Spec.Mode) (ss : List Bytes) : List Ev :=
  (I.Hasher.updates cfg (newHasher cfg m) ss).log

theorem new_len (cfg : Config) (m : Spec.Mode) : (newHasher cfg m).chunk.len = 0 := by cases m <;> rfl

theorem updates_ok (cfg : Config) (m : Spec.Mode) (ss : List Bytes) (hl : ss.flatten.length < 2 ^ 64) :
    ∃ h, (I.Hasher.updates cfg (newHasher cfg m) ss).res = .ok h ∧ HasherAt cfg m ss.flatten h := by
  obtain ⟨h, e, hh⟩ := (HasherAt.new cfg m).updates ss (by rw [List.length_nil]; omega)
  exact ⟨h, (Proofs.I.updates_res ..).trans e, hh⟩

theorem ir_pure {α : Type} (x : IR α) : (x >>= fun a => pure a) = x := by
  obtain ⟨r, l⟩ := x
  cases r with
  | error e => rfl
  | ok h => show (⟨.ok h, l ++ []⟩ : IR α) = _; rw [List.append_nil]

theorem ir_assoc {α β γ : Type} (x : IR α) (f : α → IR β) (g : β → IR γ) :
    (x >>= f) >>= g = x >>= fun a => f a >>= g := by
  obtain ⟨r, l⟩ := x
  cases r with
  | error e => rfl
  | ok a =>
    show (⟨(f a).res, l ++ (f a).log⟩ : IR β) >>= g = ⟨(f a >>= g).res, l ++ (f a >>= g).log⟩
    generalize f a = y
    obtain ⟨r, l'⟩ := y
    cases r with
    | error e => rfl
    | ok b => show (⟨_, (l ++ l') ++ _⟩ : IR γ) = ⟨_, l ++ (l' ++ _)⟩; rw [List.append_assoc]; rfl

theorem updates_snoc (cfg : Config) (h : Hasher) (ss : List Bytes) (s : Bytes) :
    I.Hasher.updates cfg h (ss ++ [s]) = (do
      let h ← I.Hasher.updates cfg h ss
      I.Hasher.update cfg h s) := by
  induction ss generalizing h with
  | nil => exact ir_pure (I.Hasher.update cfg h s)
  | cons a ss ih =>
    rw [List.cons_append, I.Hasher.updates, I.Hasher.updates, ir_assoc]
    simp only [ih]

/-- the first slice that is not empty -/
def firstSlice (ss : List Bytes) : Bytes := (ss.filter fun s => s ≠ []).headD []

/-- at a chunk boundary the offset is the number of bytes so far -/
theorem offset_at {cfg : Config} {m : Spec.Mode} {bytes : Bytes} {h : Hasher} (hh : HasherAt cfg m bytes h) (h0 : h.chunk.len = 0)
    (hne : bytes ≠ []) : h.chunk.offset ≠ 0 := by
  intro h2
  obtain ⟨cks, tail, eb, hcks, htail, hch, hst⟩ := hh.1.ex
  have hcl := hch.len
  have ht : tail = [] := List.eq_nil_of_length_eq_zero (by rw [← hcl]; exact h0)
  have hfl := length_flatten cks hcks
  have hbl := congrArg List.length eb
  rw [ht, List.append_nil, hfl] at hbl
  have hlt := hh.2
  have := congrArg BitVec.toNat (hch.hoff.symm.trans h2)
  rw [BitVec.toNat_ofNat, Nat.mod_eq_of_lt (by omega)] at this
  have hpos := List.length_pos_iff.2 hne
  have : 2048 * cks.length = 0 := this
  omega

theorem logs_updates {F : Ev → Bool} (hF : Proofs.I.Drops F) (cfg : Config) (m : Spec.Mode)
    (hK : ∀ n, (kernels (Platform.detect cfg) 2048 n).filter F = kernels (Platform.detect cfg) 2048 n) (ss : List Bytes) :
    ∀ (bytes : Bytes) (h : Hasher), HasherAt cfg m bytes h → bytes.length + ss.flatten.length < 2 ^ 64 →
    (∀ s ∈ ss, WIDE_BUF_LEN cfg ∣ s.length) → (bytes = [] → (firstSlice ss).length ≠ 2048) →
    Proofs.I.HasP (Platform.detect cfg) h → h.chunk.len = 0 →
    Proofs.I.Logs F (kernels (Platform.detect cfg) 2048 (ss.flatten.length / 2048))
      (fun h => Proofs.I.HasP (Platform.detect cfg) h ∧ h.chunk.len = 0) (I.Hasher.updates cfg h ss) := by
  induction ss with
  | nil =>
    intro bytes h _ _ _ _ hp h0
    have e0 : kernels (Platform.detect cfg) 2048 0 = [] := by cases Platform.detect cfg <;> rfl
    exact (Proofs.I.Logs.pure ⟨hp, h0⟩).cast e0.symm
  | cons s ss ih =>
    intro bytes h hh hl hs h1 hp h0
    have hd := hs s (List.mem_cons_self ..)
    have h3 : 2048 ∣ s.length := Nat.dvd_trans ⟨_, Nat.mul_comm ..⟩ hd
    rw [List.flatten_cons, List.length_append] at hl
    have e : (s :: ss).flatten.length / 2048 = s.length / 2048 + ss.flatten.length / 2048 := by
      rw [List.flatten_cons, List.length_append]; omega
    have hdv : (Platform.detect cfg).simd_degree ∣ s.length / 2048 := by
      obtain ⟨k, hk⟩ := hd
      rw [hk, WIDE_BUF_LEN, CHUNK_LEN, Nat.mul_right_comm, Nat.mul_div_cancel _ (by decide)]
      exact Nat.dvd_trans (Proofs.I.degree_dvd_max cfg) ⟨k, rfl⟩
    rw [e, Proofs.I.kernels_add _ _ _ _ hdv]
    have hroot : ¬ (h.chunk.offset = 0 ∧ s.length = 2048) := by
      rintro ⟨ho, hlen⟩
      by_cases hb : bytes = []
      · refine h1 hb ?_
        have hsne : s ≠ [] := by rintro rfl; cases hlen
        rw [firstSlice, List.filter_cons_of_pos (by simpa using hsne)]
        exact hlen
      · exact offset_at hh h0 hb ho
    have hu := Proofs.I.logs_update_whole hF cfg (Proofs.I.degree_dvd_max cfg) hK h s hp h0 h3 hroot
    obtain ⟨h', e', hh'⟩ := hh.update s (by omega)
    have hu' : Proofs.I.Logs F (kernels (Platform.detect cfg) 2048 (s.length / 2048))
        (fun a => (Proofs.I.HasP (Platform.detect cfg) a ∧ a.chunk.len = 0) ∧ a = h') (I.Hasher.update cfg h s) := by
      intro a ha
      refine ⟨(hu a ha).1, (hu a ha).2, ?_⟩
      rw [Proofs.I.update_res, e'] at ha
      exact (Except.ok.inj ha).symm
    refine hu'.bind fun a ⟨⟨hp', h0'⟩, ea⟩ => ?_
    subst ea
    refine ih (bytes ++ s) a hh' (by rw [List.length_append]; omega) (fun s hs' => hs s (List.mem_cons_of_mem _ hs')) ?_ hp' h0'
    intro hb
    obtain ⟨rfl, rfl⟩ := List.append_eq_nil_iff.1 hb
    exact h1 rfl

theorem logs_new {F : Ev → Bool} (hF : Proofs.I.Drops F) (cfg : Config) (m : Spec.Mode)
    (hK : ∀ n, (kernels (Platform.detect cfg) 2048 n).filter F = kernels (Platform.detect cfg) 2048 n) (ss : List Bytes)
    (hl : ss.flatten.length < 2 ^ 64) (hs : ∀ s ∈ ss, WIDE_BUF_LEN cfg ∣ s.length) (h1 : (firstSlice ss).length ≠ 2048) :
    Proofs.I.Logs F (kernels (Platform.detect cfg) 2048 (ss.flatten.length / 2048))
      (fun h => Proofs.I.HasP (Platform.detect cfg) h ∧ h.chunk.len = 0) (I.Hasher.updates cfg (newHasher cfg m) ss) :=
  logs_updates hF cfg m hK ss [] _ (HasherAt.new cfg m) (by rw [List.length_nil]; omega) hs (fun _ => h1)
    (Proofs.I.newHasher_platform cfg m) (new_len cfg m)

/-- C56.  If every slice passed to `update` has a multiple of `WIDE_BUF_LEN` bytes, then all chunks are hashed with the
least number of kernel calls; there is nothing else but the compression of parents.  (A first slice of 2048 bytes, which
is such a multiple only where there is no SIMD, is excepted because of `maybe_root`, lib.rs:844.) -/
theorem C56_updates (cfg : Config) (m : Spec.Mode) (ss : List Bytes) (hl : ss.flatten.length < 2 ^ 64)
    (hs : ∀ s ∈ ss, WIDE_BUF_LEN cfg ∣ s.length) (h1 : (firstSlice ss).length ≠ 2048) :
    (updatesLog cfg m ss).filter chunkWork = kernels (Platform.detect cfg) 2048 (ss.flatten.length / 2048) := by
  obtain ⟨h, e, -⟩ := updates_ok cfg m ss hl
  exact ((logs_new Proofs.I.drops_chunkWork cfg m (Proofs.I.work_2048 _) ss hl hs h1).ok e).1

/-- C56.  In particular no byte is copied. -/
theorem C56_no_copy (cfg : Config) (m : Spec.Mode) (ss : List Bytes) (hl : ss.flatten.length < 2 ^ 64)
    (hs : ∀ s ∈ ss, WIDE_BUF_LEN cfg ∣ s.length) (h1 : (firstSlice ss).length ≠ 2048) : ∀ n, Ev.copy n ∉ updatesLog cfg m ss := by
  intro n hn
  have hm : Ev.copy n ∈ (updatesLog cfg m ss).filter chunkWork := List.mem_filter.2 ⟨hn, rfl⟩
  rw [C56_updates cfg m ss hl hs h1] at hm
  have h2 := (C57_kernels _ _ _).1 _ hm
  generalize Platform.detect cfg = p at h2
  cases p <;> exact h2

theorem flatten_2048 (ss : List Bytes) (hs : ∀ s ∈ ss, 2048 ∣ s.length) (h : ss.flatten.length = 2048) :
    (firstSlice ss).length = 2048 := by
  induction ss with
  | nil => cases h
  | cons s ss ih =>
    rw [List.flatten_cons, List.length_append] at h
    by_cases hne : s = []
    · subst hne
      exact ih (fun s hs' => hs s (List.mem_cons_of_mem _ hs')) (by rw [List.length_nil] at h; omega)
    · rw [firstSlice, List.filter_cons_of_pos (by simpa using hne)]
      show s.length = 2048
      have := List.length_pos_iff.2 hne
      have := hs s (List.mem_cons_self ..)
      omega

/-- C56.  The hasher calls the same kernels for chunks as the one-shot function does for the whole input. -/
theorem C56_as_one_shot (cfg : Config) (hv : cfg.Valid) (m : Spec.Mode) (ss : List Bytes)
    (hf : cfg.Fits ss.flatten.length) (hl : ss.flatten.length < 2 ^ 64)
    (hs : ∀ s ∈ ss, WIDE_BUF_LEN cfg ∣ s.length) (h1 : (firstSlice ss).length ≠ 2048) :
    (updatesLog cfg m ss).filter chunkKernel = (I.oneShot cfg m ss.flatten).log.filter chunkKernel := by
  obtain ⟨h, e, -⟩ := updates_ok cfg m ss hl
  have h2 : ss.flatten.length ≠ 2048 := fun h2 =>
    h1 (flatten_2048 ss (fun s h => Nat.dvd_trans ⟨_, Nat.mul_comm ..⟩ (hs s h)) h2)
  rw [C57_one_shot cfg hv m _ hf, updatesLog,
    ((logs_new Proofs.I.drops_chunkKernel cfg m (Proofs.I.chunks_2048 _) ss hl hs h1).ok e).1]
  split
  · rfl
  · rw [show ss.flatten.length / 2048 = 0 by omega]
    generalize Platform.detect cfg = p
    cases p <;> rfl

theorem len_le {cfg : Config} {m : Spec.Mode} {bytes : Bytes} {h : Hasher} (hh : HasherAt cfg m bytes h) :
    h.chunk.len ≤ 2048 := by
  obtain ⟨cks, tail, rfl, hcks, htail, hch, hst⟩ := hh.1.ex
  rw [hch.len]; exact htail

theorem platform_at {cfg : Config} {m : Spec.Mode} {bytes : Bytes} {h : Hasher} (hh : HasherAt cfg m bytes h) :
    Proofs.I.HasP (Platform.detect cfg) h := by
  obtain ⟨cks, tail, rfl, hcks, htail, hch, hst⟩ := hh.1.ex
  exact hch.hplat

/-- C56.  A slice of any length, added after any other slices: the chunks that lie in it, or all but one of them, are
hashed by one call of `hash_many`, with the least number of kernel calls for that many chunks. -/
theorem C56_any_update (cfg : Config) (m : Spec.Mode) (ss : List Bytes) (s : Bytes)
    (hl : ss.flatten.length + s.length < 2 ^ 64) :
    ∃ h k, (newHasher cfg m).updates cfg ss = .ok h ∧ k ≤ s.length / 2048 ∧ s.length / 2048 ≤ k + 1 ∧
      (I.Hasher.update cfg h s).log.filter chunkKernel = kernels (Platform.detect cfg) 2048 k := by
  obtain ⟨h, e, hh⟩ := (HasherAt.new cfg m).updates ss (by rw [List.length_nil]; omega)
  rw [List.nil_append] at hh
  obtain ⟨h', e', -⟩ := hh.update s hl
  have hlen := len_le hh
  refine ⟨h, Proofs.I.direct h s.length, e, ?_, ?_, ((Proofs.I.logs_update_any cfg (Proofs.I.degree_dvd_max cfg) h s
    (platform_at hh) hlen).ok ((Proofs.I.update_res ..).trans e')).1⟩
  · unfold Proofs.I.direct; split <;> omega
  · unfold Proofs.I.direct; split <;> omega

theorem mem_updates_log {cfg : Config} {h : Hasher} {c : Ev} {ss : List Bytes} :
    c ∈ (I.Hasher.updates cfg h ss).log →
    ∃ pre s post h', ss = pre ++ s :: post ∧ h.updates cfg pre = .ok h' ∧ c ∈ (I.Hasher.update cfg h' s).log := by
  induction ss generalizing h with
  | nil => intro hc; cases hc
  | cons s ss ih =>
    intro hc
    rw [I.Hasher.updates] at hc
    have hres := Proofs.I.update_res cfg h s
    revert hc hres
    generalize hx : I.Hasher.update cfg h s = x
    obtain ⟨r, l⟩ := x
    intro hc hres
    cases r with
    | error e => exact ⟨[], s, ss, h, rfl, rfl, by rw [hx]; exact hc⟩
    | ok h1 =>
      rcases List.mem_append.1 hc with hc | hc
      · exact ⟨[], s, ss, h, rfl, rfl, by rw [hx]; exact hc⟩
      · obtain ⟨pre, s', post, h', rfl, e, hm⟩ := ih hc
        refine ⟨s :: pre, s', post, h', rfl, ?_, hm⟩
        rw [Model.Hasher.updates, ← (show _ = h.update cfg s from hres)]
        exact e

theorem le_sum {c : Ev} {L : List Ev} (h : c ∈ L) : width c ≤ (L.map width).sum := by
  induction L with
  | nil => cases h
  | cons d L ih =>
    rw [List.map_cons, List.sum_cons]
    rcases List.mem_cons.1 h with rfl | h
    · omega
    · have := ih h; omega

/-- C56.  Slices of fewer bytes than eight chunks, such as the 8192 bytes of `std::io::copy`, never use the eight lanes
of AVX2 for chunks, and slices of fewer bytes than four chunks not even four lanes. -/
theorem C56_too_small (cfg : Config) (m : Spec.Mode) (ss : List Bytes) (hl : ss.flatten.length < 2 ^ 64) :
    ((∀ s ∈ ss, s.length < 16384) → Ev.hash8 2048 ∉ updatesLog cfg m ss) ∧
    ((∀ s ∈ ss, s.length < 8192) → Ev.hash4 2048 ∉ updatesLog cfg m ss) := by
  have key : ∀ (c : Ev) (w : Nat), chunkKernel c = true → width c = w → 1 < w → (∀ s ∈ ss, s.length < w * 2048) →
      c ∉ updatesLog cfg m ss := by
    intro c w hk hw h1 hs hc
    obtain ⟨pre, s, post, h', rfl, e, hm⟩ := mem_updates_log hc
    obtain ⟨h, k, e2, h2, -, h3⟩ := C56_any_update cfg m pre s (by
      rw [List.flatten_append, List.flatten_cons, List.length_append, List.length_append] at hl; omega)
    rw [e] at e2
    cases e2
    have h4 : c ∈ (I.Hasher.update cfg h' s).log.filter chunkKernel := List.mem_filter.2 ⟨hm, hk⟩
    rw [h3] at h4
    have h5 := (C57_kernels (Platform.detect cfg) 2048 k).2
    have h6 : width c ≤ ((kernels (Platform.detect cfg) 2048 k).map width).sum :=
      le_sum h4
    have h7 := hs s (List.mem_append_right _ (List.mem_cons_self ..))
    have h8 : s.length / 2048 < w := Nat.div_lt_of_lt_mul (by rw [Nat.mul_comm]; exact h7)
    omega
  exact ⟨key (.hash8 2048) 8 rfl rfl (by decide), key (.hash4 2048) 4 rfl rfl (by decide)⟩

/-- C56.  What the documentation says about the constants: the buffer of `copy_wide` is a multiple of `WIDE_BUF_LEN`
and not smaller than that of `std::io::copy`; `WIDE_BUF_LEN` has room for all lanes of the platform found at run time
and is at most 65536. -/
theorem C56_constants (cfg : Config) :
    WIDE_BUF_LEN cfg ∣ COPY_BUF_LEN cfg ∧ 8192 ≤ COPY_BUF_LEN cfg ∧ COPY_BUF_LEN cfg ≤ 65536 ∧
    2048 * (Platform.detect cfg).simd_degree ∣ WIDE_BUF_LEN cfg ∧ 0 < WIDE_BUF_LEN cfg ∧ WIDE_BUF_LEN cfg ≤ 65536 ∧
    (cfg.x86 = true → WIDE_BUF_LEN cfg = 16384) ∧ (cfg.x86 = false → WIDE_BUF_LEN cfg = 2048) := by
  have hd := Proofs.I.degree_dvd_max cfg
  refine ⟨?_, ?_, ?_, ?_, ?_, ?_, ?_, ?_⟩
  case refine_4 => rw [Nat.mul_comm]; exact Nat.mul_dvd_mul_right hd 2048
  all_goals
    unfold WIDE_BUF_LEN at *
    try unfold COPY_BUF_LEN
    try unfold WIDE_BUF_LEN
    unfold MAX_SIMD_DEGREE
    cases cfg.x86 <;> decide

/-! ## C56: `copy_wide` -/

/-- `write_all` of a hasher, with the events recorded -/
def recorder (cfg : Config) (w : Hasher × List Ev) (buf : Bytes) : R (Except IoError Unit × (Hasher × List Ev)) :=
  if buf = [] then .ok (.ok (), w)
  else do
    let h ← (I.Hasher.update cfg w.1 buf).res
    return (.ok (), (h, w.2 ++ (I.Hasher.update cfg w.1 buf).log))

/-- C56.  The recording writer does what the hasher does. -/
theorem C56_recorder (cfg : Config) (w : Hasher × List Ev) (buf : Bytes) :
    (recorder cfg w buf).map (fun r => (r.1, r.2.1)) = hasherWriter cfg w.1 buf := by
  unfold recorder hasherWriter
  split
  next h => subst h; rw [Hasher.write_all]; rfl
  next h =>
    have hn : buf.length ≠ 0 := fun hc => h (List.eq_nil_of_length_eq_zero hc)
    rw [Proofs.I.update_res, Hasher.write_all, dif_neg h, Hasher.write]
    cases w.1.update cfg buf with
    | error e => rfl
    | ok h' =>
      simp only [bind, Except.bind, pure, Except.pure, Except.map, dif_neg hn]
      rw [List.drop_length, Hasher.write_all]
      rfl

theorem recorder_accepts (cfg : Config) (m : Spec.Mode) (segs : List Bytes) (h0 : ∀ s ∈ segs, s ≠ []) :
    ∀ {bytes : Bytes} {h : Hasher} {l : List Ev}, HasherAt cfg m bytes h → bytes.length + segs.flatten.length < 2 ^ 64 →
    ∃ h', (I.Hasher.updates cfg h segs).res = .ok h' ∧
      Accepts (recorder cfg) (h, l) segs (h', l ++ (I.Hasher.updates cfg h segs).log) := by
  induction segs with
  | nil => intro bytes h l hh _; exact ⟨h, rfl, by rw [show (I.Hasher.updates cfg h []).log = [] from rfl, List.append_nil]; exact .nil _⟩
  | cons s ss ih =>
    intro bytes h l hh hl
    rw [List.flatten_cons, List.length_append] at hl
    obtain ⟨h1, e1, ok1⟩ := hh.update s (by omega)
    obtain ⟨h2, e2, a2⟩ := ih (fun s hs => h0 s (List.mem_cons_of_mem _ hs)) (l := l ++ (I.Hasher.update cfg h s).log)
      ok1 (by rw [List.length_append]; omega)
    have hres : (I.Hasher.update cfg h s).res = .ok h1 := (Proofs.I.update_res cfg h s).trans e1
    have e3 : I.Hasher.updates cfg h (s :: ss) =
        ⟨(I.Hasher.updates cfg h1 ss).res, (I.Hasher.update cfg h s).log ++ (I.Hasher.updates cfg h1 ss).log⟩ := by
      rw [I.Hasher.updates]
      generalize I.Hasher.update cfg h s = x at hres
      obtain ⟨r, l⟩ := x
      cases hres
      rfl
    rw [e3]
    refine ⟨h2, e2, .cons (w1 := (h1, l ++ (I.Hasher.update cfg h s).log)) ?_ ?_⟩
    · rw [recorder, if_neg (h0 s (List.mem_cons_self ..))]
      dsimp only
      rw [hres]; rfl
    · rw [← List.append_assoc]; exact a2

/-- C56.  A reader that fills the buffer of `copy_wide` as long as it has enough bytes, like a file or a slice: the
whole chunks of what is copied are hashed with the least number of kernel calls, unless it is exactly one chunk.  (In
this case the hash of the chunk is the root, so that it must be put aside.)  The recorded events are those of the
`update`s made. -/
theorem C56_copy_wide (cfg : Config) (m : Spec.Mode) (es rest : List ReadEvent) (full : List Bytes) (last : Bytes)
    (e : Except IoError Unit) (hr : Reads (COPY_BUF_LEN cfg) es (full ++ [last]) e rest)
    (hfull : ∀ s ∈ full, s.length = COPY_BUF_LEN cfg) (hl : (full ++ [last]).flatten.length < 2 ^ 64)
    (h1 : (full ++ [last]).flatten.length ≠ 2048) :
    ∃ h log, copy_wide cfg (recorder cfg) es (newHasher cfg m, []) =
        .ok (e.map fun _ => BitVec.ofNat 64 (full ++ [last]).flatten.length, (h, log), rest) ∧
      log = updatesLog cfg m (full ++ [last]) ∧
      log.filter chunkKernel = kernels (Platform.detect cfg) 2048 ((full ++ [last]).flatten.length / 2048) := by
  obtain ⟨h', e', ha⟩ := recorder_accepts cfg m (full ++ [last]) hr.nonempty (l := []) (HasherAt.new cfg m)
    (by rw [List.length_nil]; omega)
  rw [List.nil_append] at ha
  refine ⟨_, _, C20_copy cfg _ _ _ _ _ _ _ hr ha hl, rfl, ?_⟩
  have hB : WIDE_BUF_LEN cfg ∣ COPY_BUF_LEN cfg ∧ 8192 ≤ COPY_BUF_LEN cfg := ⟨(C56_constants cfg).1, (C56_constants cfg).2.1⟩
  have hlf : (full ++ [last]).flatten.length = full.flatten.length + last.length := by
    rw [List.flatten_append, List.length_append]; simp
  have hs : ∀ s ∈ full, WIDE_BUF_LEN cfg ∣ s.length ∧ s.length ≠ 2048 := by
    intro s hs
    rw [hfull s hs]
    exact ⟨hB.1, by omega⟩
  obtain ⟨h, eh, hh⟩ := updates_ok cfg m full (by omega)
  have hL := (Proofs.I.logs_updates_whole Proofs.I.drops_chunkKernel cfg (Proofs.I.chunks_2048 _) full hs _
    (Proofs.I.newHasher_platform cfg m) (new_len cfg m)).ok eh
  rw [updates_snoc] at e' ⊢
  generalize I.Hasher.updates cfg (newHasher cfg m) full = x at eh hL e'
  obtain ⟨r, l⟩ := x
  cases eh
  show (l ++ (I.Hasher.update cfg h last).log).filter chunkKernel = _
  have hu := ((Proofs.I.logs_update_any cfg (Proofs.I.degree_dvd_max cfg) h last hL.2.1 (by omega)).ok e').1
  rw [List.filter_append, hu, hL.1]
  -- the hasher is at a chunk boundary
  have hd : Proofs.I.direct h last.length = last.length / 2048 := by
    unfold Proofs.I.direct
    refine if_neg ?_
    rintro (⟨h2, h3⟩ | h2)
    · obtain ⟨cks, tail, eb, hcks, htail, hch, hst⟩ := hh.1.ex
      have hcl := hch.len
      have ht : tail = [] := List.eq_nil_of_length_eq_zero (by rw [← hcl]; exact hL.2.2)
      have hfl := length_flatten cks hcks
      have hbl := congrArg List.length eb
      rw [ht, List.append_nil, hfl] at hbl
      have h0 : 2048 * cks.length = 0 := by
        have := congrArg BitVec.toNat (hch.hoff.symm.trans h2)
        rw [BitVec.toNat_ofNat, Nat.mod_eq_of_lt (by omega)] at this
        exact this
      omega
    · omega
  have hdv : WIDE_BUF_LEN cfg ∣ full.flatten.length := by
    rw [List.length_flatten]
    clear hr hl h1 ha hlf hh hL hd e' hu
    induction full with
    | nil => exact ⟨0, rfl⟩
    | cons s ss ih =>
      rw [List.map_cons, List.sum_cons]
      exact Nat.dvd_add (hs s (List.mem_cons_self ..)).1 (ih (fun s h => hfull s (List.mem_cons_of_mem _ h))
        (fun s h => hs s (List.mem_cons_of_mem _ h)))
  rw [hd, ← Proofs.I.kernels_add]
  · have : 2048 ∣ full.flatten.length := Nat.dvd_trans ⟨_, Nat.mul_comm ..⟩ hdv
    rw [hlf]; congr 1; omega
  · obtain ⟨k, hk⟩ := hdv
    rw [hk, WIDE_BUF_LEN, CHUNK_LEN, Nat.mul_right_comm, Nat.mul_div_cancel _ (by decide)]
    exact Nat.dvd_trans (Proofs.I.degree_dvd_max cfg) ⟨k, rfl⟩

/-- C56.  The exception: a first slice of exactly one chunk, which is a multiple of `WIDE_BUF_LEN` where there is no
SIMD, is not passed to `hash_many`. -/
theorem C56_first_chunk (cfg : Config) (m : Spec.Mode) (s : Bytes) (hs : s.length = 2048) :
    (updatesLog cfg m [s]).filter chunkKernel = [] := by
  obtain ⟨h, e, -⟩ := updates_ok cfg m [s] (by simp; omega)
  have h0 := new_len cfg m
  have hoff : (newHasher cfg m).chunk.offset = 0 := by cases m <;> rfl
  have e1 := updates_snoc cfg (newHasher cfg m) [] s
  rw [List.nil_append] at e1
  have e2 : (do let h ← I.Hasher.updates cfg (newHasher cfg m) []; I.Hasher.update cfg h s) =
      I.Hasher.update cfg (newHasher cfg m) s := rfl
  rw [e2] at e1
  rw [e1] at e
  have hu := ((Proofs.I.logs_update_any cfg (Proofs.I.degree_dvd_max cfg) _ s (Proofs.I.newHasher_platform cfg m)
    (by omega)).ok e).1
  rw [updatesLog, e1, hu, Proofs.I.direct, if_pos (Or.inl ⟨hoff, hs⟩), h0, hs]
  generalize Platform.detect cfg = p
  cases p <;> rfl

/-! ## The hypotheses can be met -/

example : WIDE_BUF_LEN Isa.haswell = 16384 ∧ COPY_BUF_LEN Isa.haswell = 16384 ∧ WIDE_BUF_LEN Isa.arm = 2048 ∧
    COPY_BUF_LEN Isa.arm = 8192 := by decide
/-- two slices of 16384 and 32768 bytes: three calls for eight chunks each, on a processor with AVX2 -/
example (m : Spec.Mode) (a b : Bytes) (ha : a.length = 16384) (hb : b.length = 32768) :
    (updatesLog Isa.haswell m [a, b]).filter chunkWork = [.hash8 2048, .hash8 2048, .hash8 2048] := by
  have hl : ([a, b] : List Bytes).flatten.length = 49152 := by simp [ha, hb]
  rw [C56_updates _ _ _ (by omega), hl]
  · decide
  · intro s hs
    rcases List.mem_cons.1 hs with rfl | hs
    · rw [ha]; decide
    · cases List.mem_singleton.1 hs; rw [hb]; decide
  · have hne : a ≠ [] := by rintro rfl; cases ha
    rw [firstSlice, List.filter_cons_of_pos (by simpa using hne)]
    show a.length ≠ 2048
    omega
/-- the same bytes in slices of 8192: calls for four chunks only -/
example (m : Spec.Mode) (ss : List Bytes) (hs : ∀ s ∈ ss, s.length = 8192) (hl : ss.flatten.length = 49152) :
    Ev.hash8 2048 ∉ updatesLog Isa.haswell m ss :=
  (C56_too_small Isa.haswell m ss (by omega)).1 (fun s h => by rw [hs s h]; decide)
/-- 25000 bytes at once: twelve whole chunks -/
example (m : Spec.Mode) (x : Bytes) (hx : x.length = 25000) :
    (I.oneShot Isa.haswell m x).log.filter chunkKernel = [.hash8 2048, .hash4 2048] := by
  rw [C57_one_shot _ (by show 16 ≤ 64 ∧ 64 ≤ 64; decide) _ _ (by rw [hx]; show 25000 < 2 ^ 63; decide), hx]
  decide
/-- a reader with 20000 bytes -/
example (d : Bytes) (hd : d.length = 20000) :
    Reads (COPY_BUF_LEN Isa.haswell) [.ok 16384 (d.take 16384), .ok 3616 (d.drop 16384)]
      ([d.take 16384] ++ [d.drop 16384]) (.ok ()) [] := by
  have h1 : (d.take 16384).length = 16384 := by rw [List.length_take]; omega
  have h2 : (d.drop 16384).length = 3616 := by rw [List.length_drop]; omega
  have k1 := Reads.data (B := COPY_BUF_LEN Isa.haswell) (d.drop 16384) (fun h => by rw [h] at h2; cases h2)
    (by rw [h2]; decide) .done
  have k2 := Reads.data (d.take 16384) (fun h => by rw [h] at h1; cases h1) (by rw [h1]; decide) k1
  rwa [h1, h2] at k2

end Baokeshed.Props.Lanes
