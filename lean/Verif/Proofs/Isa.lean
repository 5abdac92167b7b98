import Verif.Proofs.EraseIsa

/-! # Which instruction sets the code uses -/

set_option linter.unusedVariables false

namespace Baokeshed.Proofs.I
open Baokeshed.Model Baokeshed.Model.I

/-- what the functions selected by a platform were compiled for -/
def needs : Platform → List Isa
  | .portable => []
  | .sse41 => [.sse41]
  | .avx2 => [.sse41, .avx2]

/-- `x` uses only what `p` needs, and its result has the property `Q` -/
def On {α : Type} (p : Platform) (Q : α → Prop) (x : IR α) : Prop :=
  (∀ c ∈ x.log, ∀ i, c.isa = some i → i ∈ needs p) ∧ ∀ a, x.res = .ok a → Q a

theorem On.bind {α β : Type} {p : Platform} {Q : α → Prop} {Q' : β → Prop} {x : IR α} {f : α → IR β}
    (hx : On p Q x) (hf : ∀ a, Q a → On p Q' (f a)) : On p Q' (x >>= f) := by
  obtain ⟨r, l⟩ := x
  cases r with
  | error e => exact ⟨hx.1, fun a h => by cases h⟩
  | ok a =>
    have h := hf a (hx.2 a rfl)
    refine ⟨fun i hi => ?_, h.2⟩
    rcases List.mem_append.1 hi with hi | hi
    · exact hx.1 i hi
    · exact h.1 i hi

theorem On.pure {α : Type} {p : Platform} {Q : α → Prop} {a : α} (h : Q a) : On p Q (Pure.pure a : IR α) :=
  ⟨(fun i hi => by cases hi), (fun b hb => by cases hb; exact h)⟩

theorem On.lift {α : Type} {p : Platform} {Q : α → Prop} {r : R α} (h : ∀ a, r = .ok a → Q a) :
    On p Q (liftM r : IR α) :=
  ⟨(fun i hi => by cases hi), h⟩

theorem On.any {α : Type} {p : Platform} (r : R α) : On p (fun _ => True) (liftM r : IR α) :=
  On.lift fun _ _ => trivial

theorem On.error {α : Type} {p : Platform} {Q : α → Prop} (e : Panic) : On p Q (⟨.error e, []⟩ : IR α) :=
  ⟨(fun i hi => by cases hi), (fun a h => by cases h)⟩

theorem On.weaken {α : Type} {p : Platform} {Q Q' : α → Prop} {x : IR α} (h : On p Q x)
    (hq : ∀ a, Q a → Q' a) : On p Q' x := ⟨h.1, fun a ha => hq a (h.2 a ha)⟩

/-- the platform of an `Output` -/
def OutP (p : Platform) (o : Output) : Prop := o.platform = p

section
variable (p : Platform)

theorem on_compress (cv : Vector Word 8) (b : Vector Byte 64) (l : Byte) (o : U64) (f : Byte) :
    On p (fun _ => True) (I.compress p cv b l o f) := by
  refine ⟨?_, fun _ _ => trivial⟩
  cases p <;> simp [I.compress, needs, Ev.isa]

theorem on_compress_xof (cv : Vector Word 8) (b : Vector Byte 64) (l : Byte) (o : U64) (f : Byte) :
    On p (fun _ => True) (I.compress_xof p cv b l o f) := by
  refine ⟨?_, fun _ _ => trivial⟩
  cases p <;> simp [I.compress_xof, needs, Ev.isa]

theorem On.enter {p : Platform} {c : Ev} (h : ∀ i, c.isa = some i → i ∈ needs p) :
    On p (fun _ => True) (I.enter c) :=
  ⟨(fun c' hc => by cases List.mem_singleton.1 hc; exact h), fun _ _ => trivial⟩

theorem on_portable_loop (key : Vector Word 8) (d : U64) (f fs fe : Byte) (xs : List Bytes) (off : U64) (out : Bytes) :
    On p (fun _ => True) (I.Portable.hash_many_loop key d f fs fe xs off out) := by
  induction xs generalizing off out with
  | nil => exact .pure trivial
  | cons x xs ih =>
    rw [I.Portable.hash_many_loop]
    split
    · exact .pure trivial
    · exact (On.enter (by intro i h; cases h)).bind fun _ _ => (On.any _).bind fun _ _ => (On.any _).bind fun _ _ =>
        (ih _ _).bind fun _ _ => .pure trivial

theorem on_sse41_tail (hp : Isa.sse41 ∈ needs p) (key : Vector Word 8) (d : U64) (f fs fe : Byte) (xs : List Bytes)
    (off : U64) (out : Bytes) : On p (fun _ => True) (I.Sse41.hash_many_tail key d f fs fe xs off out) := by
  induction xs generalizing off out with
  | nil => exact .pure trivial
  | cons x xs ih =>
    rw [I.Sse41.hash_many_tail]
    split
    · exact .pure trivial
    · exact (On.enter (by intro i h; cases h; exact hp)).bind fun _ _ => (On.any _).bind fun _ _ =>
        (On.any _).bind fun _ _ => (ih _ _).bind fun _ _ => .pure trivial

theorem on_sse41_loop (hp : Isa.sse41 ∈ needs p) (cap : Nat) (key : Vector Word 8) (d : U64) (f fs fe : Byte)
    (xs : List Bytes) (off : U64) (out : Bytes) :
    On p (fun _ => True) (I.Sse41.hash_many_loop cap key d f fs fe xs off out) := by
  induction hn : xs.length using Nat.strongRecOn generalizing xs off out with
  | ind n ih =>
  rw [I.Sse41.hash_many_loop]
  split
  next h =>
    simp only [Sse41.DEGREE] at h
    exact (On.any _).bind fun _ _ => (On.enter (by intro i h; cases h; exact hp)).bind fun _ _ =>
      (On.any _).bind fun _ _ => (On.any _).bind fun _ _ =>
      (ih (xs.drop Sse41.DEGREE).length (by simp [Sse41.DEGREE]; omega) _ _ _ rfl).bind fun _ _ => .pure trivial
  next => exact on_sse41_tail p hp ..

theorem on_sse41_many (hp : Isa.sse41 ∈ needs p) (cap : Nat) (xs : List Bytes) (key : Vector Word 8) (off d : U64)
    (f fs fe : Byte) (out : Bytes) : On p (fun _ => True) (I.Sse41.hash_many cap xs key off d f fs fe out) :=
  (On.enter (by intro i h; cases h; exact hp)).bind fun _ _ => (On.any _).bind fun _ _ => on_sse41_loop p hp ..

theorem on_avx2_loop (hp : Isa.sse41 ∈ needs p) (hp' : Isa.avx2 ∈ needs p) (cap : Nat) (key : Vector Word 8) (d : U64)
    (f fs fe : Byte) (xs : List Bytes) (off : U64) (out : Bytes) :
    On p (fun _ => True) (I.Avx2.hash_many_loop cap key d f fs fe xs off out) := by
  induction hn : xs.length using Nat.strongRecOn generalizing xs off out with
  | ind n ih =>
  rw [I.Avx2.hash_many_loop]
  split
  next h =>
    simp only [Avx2.DEGREE] at h
    exact (On.any _).bind fun _ _ => (On.enter (by intro i h; cases h; exact hp')).bind fun _ _ =>
      (On.any _).bind fun _ _ => (On.any _).bind fun _ _ =>
      (ih (xs.drop Avx2.DEGREE).length (by simp [Avx2.DEGREE]; omega) _ _ _ rfl).bind fun _ _ => .pure trivial
  next => exact on_sse41_many p hp ..

theorem on_hash_many (cap : Nat) (xs : List Bytes) (key : Vector Word 8) (off d : U64) (f fs fe : Byte)
    (out : Bytes) : On p (fun _ => True) (I.hash_many p cap xs key off d f fs fe out) := by
  cases p
  · exact (On.any _).bind fun _ _ => on_portable_loop _ ..
  · exact on_sse41_many _ (by simp [needs]) ..
  · exact (On.enter (by intro i h; cases h; simp [needs])).bind fun _ _ => (On.any _).bind fun _ _ =>
      on_avx2_loop _ (by simp [needs]) (by simp [needs]) ..

theorem on_to_hash (o : Output) (h : OutP p o) : On p (fun _ => True) (I.Output.to_hash o) := by
  cases h
  exact (on_compress _ ..).bind fun _ _ => .pure trivial

theorem on_read (prof : Profile) (o : Output) (h : OutP p o) :
    On p (fun r => OutP p r.2) (I.Output.read prof o) := by
  cases h
  refine (on_compress_xof _ ..).bind fun b _ => (On.any _).bind fun off _ => .pure rfl

theorem on_run (prof : Profile) (cs : List OutCall) (o : Output) (h : OutP p o) :
    On p (fun r => OutP p r.2) (I.Output.run prof cs o) := by
  induction cs generalizing o with
  | nil => exact .pure h
  | cons c cs ih =>
    cases c with
    | read => exact (on_read p prof o h).bind fun r hr => (ih _ hr).bind fun r' hr' => .pure hr'
    | toHash => exact (on_to_hash p o h).bind fun r _ => (ih _ h).bind fun r' hr' => .pure hr'

theorem on_hash_one_chunk_loop (chunk : Bytes) (off : U64) (r : IsRoot) (flags : Byte)
    (cv : Vector Word 8) (bf : Byte) (bo : Nat) :
    On p (OutP p) (I.hash_one_chunk_loop p chunk off r flags cv bf bo) := by
  induction hn : chunk.length - bo using Nat.strongRecOn generalizing cv bf bo with
  | ind n ih =>
  rw [I.hash_one_chunk_loop]
  split
  next h =>
    simp only [BLOCK_LEN] at h
    split
    · exact (On.any _).bind fun b _ => .pure rfl
    · exact (On.any _).bind fun b _ => (on_compress p ..).bind fun cv _ =>
        ih (chunk.length - (bo + BLOCK_LEN)) (by simp only [BLOCK_LEN]; omega) _ _ _ rfl
  next h => exact (On.any _).bind fun _ _ => (On.enter (by intro i h; cases h)).bind fun _ _ => (On.any _).bind fun _ _ =>
    (On.any _).bind fun _ _ => .pure rfl

theorem on_hash_one_chunk (chunk : Bytes) (key : Vector Word 8) (off : U64) (r : IsRoot) (flags : Byte) :
    On p (OutP p) (I.hash_one_chunk chunk key off r flags p) :=
  (On.any _).bind fun _ _ => on_hash_one_chunk_loop p ..

theorem on_hash_chunks_parallel (cfg : Config) (input : Bytes) (key : Vector Word 8) (off : U64) (flags : Byte)
    (out : Bytes) : On p (fun _ => True) (I.hash_chunks_parallel cfg input key off flags p out) := by
  refine (On.any _).bind fun _ _ => (On.any _).bind fun _ _ => (On.any _).bind fun _ _ =>
    (On.any _).bind fun cs _ => (on_hash_many p ..).bind fun out _ => ?_
  dsimp only
  split
  · refine (On.any _).bind fun _ _ => (On.any _).bind fun _ _ => (on_hash_one_chunk p ..).bind fun o ho =>
      (on_to_hash p o ho).bind fun _ _ => (On.any _).bind fun _ _ => .pure trivial
  · exact .pure trivial

theorem on_hash_parents_parallel (cfg : Config) (cs : Bytes) (key : Vector Word 8) (flags : Byte)
    (out : Bytes) : On p (fun _ => True) (I.hash_parents_parallel cfg cs key flags p out) := by
  refine (On.any _).bind fun _ _ => (On.any _).bind fun _ _ => (On.any _).bind fun _ _ =>
    (On.any _).bind fun cs _ => (on_hash_many p ..).bind fun out _ => ?_
  dsimp only
  split
  · exact (On.any _).bind fun _ _ => (On.any _).bind fun _ _ => .pure trivial
  · exact .pure trivial

theorem on_hash_recurse (cfg : Config) (input : Bytes) (key : Vector Word 8) (off : U64) (flags : Byte)
    (out : Bytes) : On p (fun _ => True) (I.hash_recurse cfg input key off flags p out) := by
  induction hn : input.length using Nat.strongRecOn generalizing input off out with
  | ind n ih =>
  rw [I.hash_recurse]
  split
  · exact on_hash_chunks_parallel p ..
  · split
    next e he => exact .error e
    next l hl =>
      have h1 := left_len_lt hl
      have h2 := left_len_pos hl
      refine (On.any _).bind fun _ _ => (On.any _).bind fun _ _ => (On.any _).bind fun s _ =>
        (ih (input.take l).length (by simp; omega) (input.take l) _ _ rfl).bind fun r1 _ =>
        (ih (input.drop l).length (by simp; omega) (input.drop l) _ _ rfl).bind fun r2 _ =>
        (On.any _).bind fun _ _ => (On.any _).bind fun _ _ => ?_
      dsimp only
      split
      · exact (On.any _).bind fun _ _ => (On.any _).bind fun _ _ => .pure trivial
      · exact (On.any _).bind fun _ _ => on_hash_parents_parallel p ..

theorem on_condense_loop (cfg : Config) (key : Vector Word 8) (flags : Byte) (n : Nat)
    (cs out : Bytes) : On p (fun _ => True) (I.condense_loop cfg key flags p n cs out) := by
  induction n generalizing cs out with
  | zero => exact .error _
  | succ n ih =>
    rw [I.condense_loop]
    split
    · exact (on_hash_parents_parallel p ..).bind fun r _ => (On.any _).bind fun _ _ =>
        (On.any _).bind fun _ _ => (On.any _).bind fun _ _ => ih _ _
    · exact .pure trivial

theorem on_condense_root (cfg : Config) (cs : Bytes) (key : Vector Word 8) (flags : Byte) :
    On p (OutP p) (I.condense_root cfg cs key flags p) :=
  (On.any _).bind fun _ _ => (On.any _).bind fun _ _ => (on_condense_loop p ..).bind fun _ _ =>
    (On.any _).bind fun _ _ => .pure rfl

end

theorem on_hash_internal (cfg : Config) (input : Bytes) (key : Vector Word 8) (flags : Byte) :
    On (Platform.detect cfg) (OutP (Platform.detect cfg)) (I.hash_internal cfg input key flags) := by
  unfold I.hash_internal
  dsimp only
  split
  · exact on_hash_one_chunk _ ..
  · exact (on_hash_recurse _ ..).bind fun _ _ => (On.any _).bind fun _ _ => on_condense_root _ ..

theorem on_oneShotXof (cfg : Config) (m : Spec.Mode) (input : Bytes) :
    On (Platform.detect cfg) (OutP (Platform.detect cfg)) (I.oneShotXof cfg m input) := by
  cases m <;> exact on_hash_internal ..

theorem on_oneShot (cfg : Config) (m : Spec.Mode) (input : Bytes) :
    On (Platform.detect cfg) (fun _ => True) (I.oneShot cfg m input) :=
  (on_oneShotXof cfg m input).bind fun o ho => on_to_hash _ o ho

theorem on_oneShotRun (cfg : Config) (prof : Profile) (m : Spec.Mode) (input : Bytes) (os : List OutCall) :
    On (Platform.detect cfg) (fun _ => True) (I.oneShotRun cfg prof m input os) :=
  (on_oneShotXof cfg m input).bind fun o ho => (on_run _ prof os o ho).bind fun _ _ => .pure trivial

/-! ## The hasher -/

def CsP (p : Platform) (s : ChunkState) : Prop := s.platform = p
def HasP (p : Platform) (h : Hasher) : Prop := h.chunk.platform = p

section
variable (p : Platform)

theorem on_fill_buf (s : ChunkState) (input : Bytes) (h : CsP p s) :
    On p (fun r => CsP p r.1) (I.ChunkState.fill_buf s input) := by
  refine (On.enter (by intro i h; cases h)).bind fun _ _ => On.lift fun a ha => ?_
  unfold Model.ChunkState.fill_buf at ha
  rcases e1 : subN BLOCK_LEN s.buf_len with _ | w <;> rw [e1] at ha
  · cases ha
  rw [rbind_ok] at ha
  dsimp only at ha
  rcases e2 : writeAt s.buf.toList s.buf_len (input.take (min w input.length)) with _ | b <;> rw [e2] at ha
  · cases ha
  rw [rbind_ok] at ha
  rcases e3 : arrayRef b 0 BLOCK_LEN with _ | b <;> rw [e3] at ha
  · cases ha
  rw [rbind_ok] at ha
  rcases e4 : addN 8 s.buf_len (min w input.length) with _ | b <;> rw [e4] at ha
  · cases ha
  cases ha
  exact h

theorem on_finalize_chunk (s : ChunkState) (r : IsRoot) (h : CsP p s) :
    On p (OutP p) (liftM (s.finalize r) : IR _) := by
  refine On.lift fun a ha => ?_
  unfold ChunkState.finalize at ha
  rcases e1 : assertR (r = .root → s.offset = 0) with _ | w <;> rw [e1] at ha
  · cases ha
  · cases ha
    exact h

theorem on_reset (s : ChunkState) (o : U64) (h : CsP p s) : On p (CsP p) (liftM (s.reset o) : IR _) := by
  refine On.lift fun a ha => ?_
  unfold ChunkState.reset at ha
  rcases e1 : assertR (o % BitVec.ofNat 64 CHUNK_LEN = 0) with _ | w <;> rw [e1] at ha
  · cases ha
  · cases ha
    exact h

theorem on_update_blocks (s : ChunkState) (input : Bytes) (h : CsP p s) :
    On p (fun r => CsP p r.1) (I.ChunkState.update_blocks s input) := by
  induction hn : input.length using Nat.strongRecOn generalizing s input with
  | ind n ih =>
  rw [I.ChunkState.update_blocks]
  split
  next hl =>
    simp only [BLOCK_LEN] at hl
    refine (On.any _).bind fun _ _ => (On.any _).bind fun _ _ => ?_
    rw [show s.platform = p from h]
    exact (on_compress p ..).bind fun _ _ => (On.any _).bind fun _ _ =>
      ih (input.drop BLOCK_LEN).length (by simp only [BLOCK_LEN, List.length_drop]; omega) _ _ rfl rfl
  next => exact .pure h

theorem on_update_first (s : ChunkState) (input : Bytes) (h : CsP p s) :
    On p (fun r => CsP p r.1) (I.ChunkState.update_first s input) := by
  unfold I.ChunkState.update_first
  split
  · refine (on_fill_buf p s input h).bind fun r hr => ?_
    obtain ⟨s, input⟩ := r
    dsimp only
    split
    · refine (On.any _).bind fun _ _ => ?_
      rw [show s.platform = p from hr]
      exact (on_compress p ..).bind fun _ _ => (On.any _).bind fun _ _ => .pure rfl
    · exact .pure hr
  · exact .pure h

theorem on_cs_update (s : ChunkState) (input : Bytes) (h : CsP p s) :
    On p (CsP p) (I.ChunkState.update s input) :=
  (on_update_first p s input h).bind fun r hr => (on_update_blocks p _ _ hr).bind fun r hr =>
    (on_fill_buf p _ _ hr).bind fun r hr => (On.any _).bind fun _ _ => (On.any _).bind fun _ _ => .pure hr

theorem on_merge_parent (h : Hasher) (hp : HasP p h) : On p (HasP p) (I.Hasher.merge_parent h) := by
  unfold I.Hasher.merge_parent
  split
  · exact (on_to_hash p (hash_one_parent _ _ _ _ _ _) hp).bind fun _ _ => .pure hp
  · exact .error _

theorem on_merge_loop (h : Hasher) (off : U64) (hp : HasP p h) : On p (HasP p) (I.Hasher.merge_loop h off) := by
  induction hn : h.subtree_hashes.length using Nat.strongRecOn generalizing h with
  | ind n ih =>
  have hm := on_merge_parent p h hp
  rw [I.Hasher.merge_loop]
  split
  · split
    next e he => exact ⟨hm.1, fun a h => by cases h⟩
    next h' he =>
      have hl : h'.subtree_hashes.length < h.subtree_hashes.length :=
        Model.Hasher.merge_parent_length (by rw [← I.Hasher.merge_parent_res]; exact he)
      have hi := ih _ (by omega) h' (hm.2 _ he) rfl
      refine ⟨fun i hi' => ?_, hi.2⟩
      rcases List.mem_append.1 hi' with q | q
      · exact hm.1 i q
      · exact hi.1 i q
  · exact .pure hp

theorem on_push_chunk_hash (h : Hasher) (x : Vector Byte 32) (off : U64) (hp : HasP p h) :
    On p (HasP p) (I.Hasher.push_chunk_hash h x off) := by
  refine (on_merge_loop p h off hp).bind fun h hp => ?_
  split
  · exact .pure hp
  · exact .error _

set_option maxRecDepth 8000 in
theorem on_push_hashes (cs : List Bytes) (h : Hasher) (hp : HasP p h) :
    On p (HasP p) (I.Hasher.push_hashes cs h) := by
  induction cs generalizing h with
  | nil => exact .pure hp
  | cons c cs ih =>
    rw [push_hashes_cons]
    exact (On.any _).bind fun _ _ => (on_push_chunk_hash p h _ _ hp).bind fun h hp =>
      (On.any _).bind fun _ _ => ih _ hp

theorem on_update_loop (cfg : Config) (cs : List Bytes) (out : Bytes) (h : Hasher) (hp : HasP p h) :
    On p (HasP p) (I.Hasher.update_loop cfg cs out h) := by
  induction hn : cs.length using Nat.strongRecOn generalizing cs out h with
  | ind n ih =>
  rw [I.Hasher.update_loop]
  split
  next he => exact .pure hp
  next he =>
    have h1 : 0 < cs.length := by
      cases cs with
      | nil => exact absurd List.take_nil he
      | cons c cs => simp
    have h2 : 0 < MAX_SIMD_DEGREE cfg := by unfold MAX_SIMD_DEGREE; split <;> decide
    rw [show h.chunk.platform = p from hp]
    exact (on_hash_many p ..).bind fun _ _ => (on_push_hashes p _ _ hp).bind fun h hp =>
      ih (cs.drop (MAX_SIMD_DEGREE cfg)).length (by simp only [List.length_drop]; omega) _ _ _ hp rfl

theorem on_update_rest (cfg : Config) (h : Hasher) (input : Bytes) (hp : HasP p h) :
    On p (HasP p) (I.Hasher.update_rest cfg h input) := by
  refine (On.any _).bind fun _ _ => (on_update_loop p cfg _ _ _ hp).bind fun h hp =>
    (On.any _).bind fun _ _ => (On.any _).bind fun _ _ => ?_
  split
  · exact (on_merge_loop p _ _ hp).bind fun h hp => (on_cs_update p _ _ hp).bind fun c hc => .pure hc
  · exact .pure hp

set_option maxRecDepth 8000 in
theorem on_update (cfg : Config) (h : Hasher) (input : Bytes) (hp : HasP p h) :
    On p (HasP p) (I.Hasher.update cfg h input) := by
  unfold I.Hasher.update
  dsimp only
  split
  · refine (On.any _).bind fun _ _ => (on_cs_update p _ _ hp).bind fun c hc => ?_
    split
    · exact (On.any _).bind fun _ _ => (on_finalize_chunk p _ _ hc).bind fun o ho =>
        (on_to_hash p _ ho).bind fun _ _ => (on_push_chunk_hash p { h with chunk := c } _ _ hc).bind fun h hp =>
        (On.any _).bind fun _ _ => (on_reset p _ _ hp).bind fun c hc => on_update_rest p cfg { h with chunk := c } _ hc
    · exact .pure hc
  · exact on_update_rest p cfg _ _ hp

theorem on_finalize_loop (h : Hasher) (w : Vector Byte 32) (l : List (Vector Byte 32)) (hp : HasP p h) :
    On p (OutP p) (I.Hasher.finalize_loop h w l) := by
  induction l generalizing w with
  | nil => exact .error _
  | cons s rest ih =>
    cases rest with
    | nil => exact .pure hp
    | cons t rest => exact (on_to_hash p (hash_one_parent _ _ _ _ _ _) hp).bind fun _ _ => ih _

theorem on_finalize_xof (h : Hasher) (hp : HasP p h) : On p (OutP p) (I.Hasher.finalize_xof h) := by
  unfold I.Hasher.finalize_xof
  split
  · exact on_finalize_chunk p _ _ hp
  · split
    · exact (On.any _).bind fun _ _ => (on_finalize_chunk p _ _ hp).bind fun o ho =>
        (on_to_hash p _ ho).bind fun _ _ => on_finalize_loop p h _ _ hp
    · refine (On.any _).bind fun _ _ => ?_
      split
      · exact on_finalize_loop p h _ _ hp
      · exact .error _

theorem on_session (cfg : Config) (prof : Profile) (cs : List HCall) (h : Hasher) (hp : HasP p h) :
    On p (fun _ => True) (I.Hasher.session cfg prof cs h) := by
  induction cs generalizing h with
  | nil => exact .pure trivial
  | cons c cs ih =>
    cases c with
    | update s => exact (on_update p cfg h s hp).bind fun h hp => ih h hp
    | output os => exact (on_finalize_xof p h hp).bind fun o ho => (on_run p prof os o ho).bind fun _ _ =>
        (ih h hp).bind fun _ _ => .pure trivial

end

theorem newHasher_platform (cfg : Config) (m : Spec.Mode) : HasP (Platform.detect cfg) (newHasher cfg m) := by
  cases m <;> rfl

end Baokeshed.Proofs.I
