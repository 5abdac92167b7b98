import Verif.Proofs.C.Chunk

/-! # C: the hasher -/

set_option linter.unusedVariables false
set_option linter.unusedSimpArgs false

namespace Baokeshed.Proofs.C
open Baokeshed.Model Baokeshed.Model.C
attribute [local irreducible] Spec.compress Spec.cvBytes

/-! ## popcnt -/

theorem popcount_lt64 (x : U64) : popcount x.toNat ≤ 64 := (popcount_le (k := 64) x.isLt).1

theorem popcnt_loop_eq (x : U64) (c : Byte) (h : c.toNat + popcount x.toNat < 256) :
    (popcnt_loop x c).toNat = c.toNat + popcount x.toNat := by
  induction hn : x.toNat using Nat.strongRecOn generalizing x c with
  | ind n ih =>
  rw [popcnt_loop]
  by_cases h0 : x = 0
  · rw [dif_neg (by simpa using h0), ← hn, h0, show (0 : U64).toNat = 0 from rfl, popcount_zero]; rfl
  · have hx : x.toNat ≠ 0 := fun h => h0 (BitVec.eq_of_toNat_eq (by simpa using h))
    have hs : (x >>> 1).toNat = x.toNat / 2 := by
      rw [BitVec.toNat_ushiftRight, Nat.shiftRight_eq_div_pow]
    have hp : popcount x.toNat = x.toNat % 2 + popcount (x.toNat / 2) := by rw [popcount, if_neg hx]
    have hb : (x.setWidth 8 &&& 1).toNat = x.toNat % 2 := by
      rw [BitVec.toNat_and, BitVec.toNat_setWidth, show (1 : Byte).toNat = 1 from rfl, Nat.and_one_is_mod]
      omega
    have hc : (c + (x.setWidth 8 &&& 1)).toNat = c.toNat + x.toNat % 2 := by
      rw [BitVec.toNat_add, hb]; omega
    rw [dif_pos (by simpa using h0), ih (x >>> 1).toNat (by omega) (x >>> 1) _ (by rw [hc, hs]; omega) rfl, hc, hs, ← hn, hp]
    omega

theorem popcnt_eq (hw : Bool) (x : U64) : (popcnt hw x).toNat = popcount x.toNat := by
  have := popcount_lt64 x
  unfold popcnt
  split
  · rw [BitVec.toNat_ofNat]; omega
  · rw [popcnt_loop_eq x 0 (by simp; omega)]; simp

/-! ## the stack in memory -/

/-- the bytes of the stack, bottom first -/
def stackBytes : List (Vector Byte 32) → Bytes
  | [] => []
  | x :: S => stackBytes S ++ x.toList

theorem length_stackBytes (S : List (Vector Byte 32)) : (stackBytes S).length = 32 * S.length := by
  induction S with
  | nil => rfl
  | cons x S ih => rw [stackBytes, List.length_append, ih, Vector.length_toList, List.length_cons]; omega

/-- The C hasher and the Rust hasher hold the same values; the C object has room for `M` bytes of hashes. -/
structure HRel (M : Nat) (h : C.hasher) (g : Model.Hasher) : Prop where
  chunk : CRel h.chunk g.chunk
  len : h.subtree_hashes_len.toNat = g.subtree_hashes.length
  mem : ∃ rest, h.subtree_hashes = stackBytes g.subtree_hashes ++ rest
  room : h.subtree_hashes.length = M

section
variable {cfg : C.Config} {M : Nat} {h : C.hasher} {g g' : Model.Hasher}

theorem HRel.lt (r : HRel M h g) : g.subtree_hashes.length < 256 := by rw [← r.len]; exact BitVec.isLt _

theorem needs_merge_sim (r : HRel M h g) (off : U64) : hasher_needs_merge cfg h off = g.needs_merge off := by
  rw [hasher_needs_merge, Hasher.needs_merge]
  refine decide_eq_decide.2 ?_
  rw [gt_iff_lt, BitVec.lt_def, popcnt_eq, r.len, BitVec.toNat_udiv]
  exact Iff.rfl

theorem toNat_pred {b : Byte} {n : Nat} (e : b.toNat = n + 1) : (b - 1).toNat = n := by
  have := b.isLt
  rw [BitVec.toNat_sub, show (1 : Byte).toNat = 1 from rfl]
  omega

theorem toNat_succ {b : Byte} {n : Nat} (e : b.toNat = n) (hn : n < 255) : (b + 1).toNat = n + 1 := by
  rw [BitVec.toNat_add, show (1 : Byte).toNat = 1 from rfl]
  omega

theorem merge_parent_sim (h16 : 16 ≤ cfg.bits) (r : HRel M h g) (e : g.merge_parent = .ok g') :
    ∃ h', hasher_merge_parent cfg h = .ok h' ∧ HRel M h' g' := by
  have hp := two_pow_bits h16
  have h256 := r.lt
  obtain ⟨rest, hm⟩ := r.mem
  rw [Hasher.merge_parent] at e
  split at e
  next right left S hS =>
    cases e
    have hlen := r.len
    rw [hS, List.length_cons, List.length_cons] at hlen h256
    have hst : mulSz cfg.bits (subSz cfg.bits h.subtree_hashes_len.toNat 2) C.OUT_LEN = (stackBytes S).length := by
      rw [subSz_le (by omega) (by omega), mulSz_lt (by simp only [C.OUT_LEN]; omega), length_stackBytes]
      simp only [C.OUT_LEN]; omega
    rw [hS, stackBytes, stackBytes, List.append_assoc, List.append_assoc] at hm
    rw [hasher_merge_parent]
    have hl := length_uninit cfg C.OUT_LEN
    simp only [C.OUT_LEN] at hl
    rw [hst, cAdvance_ok _ _ (by rw [hm, List.length_append]; omega), bind_ok, hm, List.drop_left, ← List.append_assoc,
      parent_sim left right rest h.chunk.key .notRoot h.chunk.flags g.chunk.platform false rfl _ (by exact Nat.le_of_eq hl.symm), bind_ok, memcpy, cLoad,
      if_pos (by simp), bind_ok, List.drop_zero,
      List.take_of_length_le (by rw [List.length_append, List.length_drop, hl, Vector.length_toList]; exact Nat.le_refl 32),
      List.drop_of_length_le (Nat.le_of_eq hl), List.append_nil,
      cStore_append _ _ _ _ rfl (by simp), bind_ok]
    refine ⟨_, rfl, r.chunk, ?_, ⟨(left.toList ++ right.toList ++ rest).drop 32, ?_⟩, ?_⟩
    · exact toNat_pred hlen
    · dsimp only
      rw [stackBytes, r.chunk.key, r.chunk.flags]
      simp
    · have := r.room
      rw [hm] at this
      dsimp only
      simp only [List.length_append, List.length_drop, Vector.length_toList] at this ⊢
      omega
  next => cases e

theorem merge_loop_sim (h16 : 16 ≤ cfg.bits) (r : HRel M h g) (off : U64) (e : g.merge_loop off = .ok g') :
    ∃ h', C.merge_loop cfg h off = .ok h' ∧ HRel M h' g' := by
  induction hn : g.subtree_hashes.length using Nat.strongRecOn generalizing h g with
  | ind n ih =>
  rw [Hasher.merge_loop] at e
  rw [C.merge_loop, needs_merge_sim r]
  split at e
  next hm =>
    rw [dif_pos hm]
    split at e
    next => cases e
    next g1 e1 =>
      obtain ⟨h1, f1, r1⟩ := merge_parent_sim h16 r e1
      split
      next e' he => rw [f1] at he; cases he
      next h' he =>
        rw [f1] at he; cases he
        exact ih _ (by have := Hasher.merge_parent_length e1; omega) r1 e rfl
  next hm =>
    cases e
    rw [dif_neg hm]
    exact ⟨h, rfl, r⟩

theorem push_split {hash : Vector Byte 32} {off : U64} (e : g.push_chunk_hash hash off = .ok g') :
    ∃ g1, g.merge_loop off = .ok g1 ∧ g' = { g1 with subtree_hashes := hash :: g1.subtree_hashes } ∧
      g1.subtree_hashes.length < 53 := by
  rw [Hasher.push_chunk_hash] at e
  obtain ⟨g1, e1, e⟩ := bind_inv e
  split at e
  next hl => cases e; exact ⟨g1, e1, rfl, hl⟩
  next => cases e

theorem push_sim (h16 : 16 ≤ cfg.bits) (r : HRel M h g) (hash : Vector Byte 32) (extra : Bytes) (off : U64)
    (e : g.push_chunk_hash hash off = .ok g') (ha : cfg.asserts = true → g.subtree_hashes.length < 53)
    (hM : 32 * g'.subtree_hashes.length ≤ M) :
    ∃ h', hasher_push_chunk_hash cfg h (hash.toList ++ extra) off = .ok h' ∧ HRel M h' g' := by
  obtain ⟨g1, e1, rfl, h53⟩ := push_split e
  obtain ⟨h1, f1, r1⟩ := merge_loop_sim h16 r off e1
  obtain ⟨rest, hm⟩ := r1.mem
  have hr := r1.room
  rw [hm, List.length_append, length_stackBytes] at hr
  simp only [List.length_cons] at hM
  rw [hasher_push_chunk_hash, r.len, assertR, if_pos (by exact ha), bind_ok, f1, bind_ok, memcpy, cLoad,
    if_pos (by simp), bind_ok, List.drop_zero, List.take_append_of_le_length (by simp),
    List.take_of_length_le (by simp), hm, r1.len,
    cStore_append _ _ _ _ (by rw [length_stackBytes]; simp only [C.OUT_LEN]; omega) (by rw [Vector.length_toList]; omega), bind_ok]
  refine ⟨_, rfl, r1.chunk, toNat_succ r1.len (by omega), ⟨rest.drop 32, ?_⟩, ?_⟩
  · simp [stackBytes]
  · simp only [List.length_append, List.length_drop, Vector.length_toList, length_stackBytes]
    omega

theorem push_assert (r : HRel M h g) (hash : Bytes) (off : U64) (ha : cfg.asserts = true)
    (hl : 53 ≤ g.subtree_hashes.length) : hasher_push_chunk_hash cfg h hash off = .error .assert := by
  rw [hasher_push_chunk_hash, r.len, assertR, if_neg (by intro h; have := h ha; simp only [C.MAX_DEPTH] at this; omega)]
  rfl

theorem push_ub (h16 : 16 ≤ cfg.bits) (r : HRel M h g) (hash : Vector Byte 32) (extra : Bytes) (off : U64)
    (e : g.push_chunk_hash hash off = .ok g') (ha : cfg.asserts = true → g.subtree_hashes.length < 53)
    (hM : M < 32 * g'.subtree_hashes.length) :
    hasher_push_chunk_hash cfg h (hash.toList ++ extra) off = .error .ub := by
  obtain ⟨g1, e1, rfl, h53⟩ := push_split e
  obtain ⟨h1, f1, r1⟩ := merge_loop_sim h16 r off e1
  have hr := r1.room
  simp only [List.length_cons] at hM
  rw [hasher_push_chunk_hash, r.len, assertR, if_pos (by exact ha), bind_ok, f1, bind_ok, memcpy, cLoad,
    if_pos (by simp), bind_ok, List.drop_zero, List.take_append_of_le_length (by simp),
    List.take_of_length_le (by simp), cStore, if_neg (by
      rw [hr, r1.len, Vector.length_toList]; simp only [C.OUT_LEN]; omega)]
  rfl

end

/-! ## pushing chunks -/

section
variable (key : Vector Word 8) (flags : Byte)

theorem stack_le {L : List (Tree Spec.Input)} {S : List (Vector Byte 32)} (h : StackOk key flags L S) :
    S.length ≤ popcount (L.length - 1) + 1 := by
  rcases h with rfl | h
  · rw [List.length_map, length_canon]
    by_cases h0 : L.length = 0
    · rw [h0, popcount_zero]; omega
    · have := (canon_push (List.replicate (L.length - 1) (Tree.empty : Tree Spec.Input)) .empty).1
      rw [length_canon, List.length_replicate, show L.length - 1 + 1 = L.length by omega] at this
      exact this
  · have : Pushed key flags L S := h
    exact Nat.le_of_eq this.length

/-- Pushing chunk number `n` in the main loop cannot go wrong: the assertion holds and there is room. -/
def PushOk (cfg : C.Config) (M n : Nat) : Prop :=
  (cfg.asserts = true → popcount (n - 1) + 1 < 53) ∧ 32 * (popcount n + 1) ≤ M

theorem push_step {cfg : C.Config} (h16 : 16 ≤ cfg.bits) {M : Nat} {p : Platform} {cks : List Bytes} {h : C.hasher}
    {g : Model.Hasher} (r : HRel M h g) (hm : Mid key flags p cks g) (c : Bytes) (hc : c.length = 2048)
    (hlt : 2048 * (cks.length + 1) < 2 ^ 64) (ha : cfg.asserts = true → g.subtree_hashes.length < 53)
    (hM : 32 * (popcount cks.length + 1) ≤ M) (extra : Bytes) :
    ∃ h1 g', hasher_push_chunk_hash cfg h
        ((hashOf key flags (.leaf (Spec.chunk key flags (2048 * cks.length) c))).toList ++ extra) h.chunk.offset = .ok h1 ∧
      HRel M { h1 with chunk := { h1.chunk with offset := h1.chunk.offset + BitVec.ofNat 64 C.CHUNK_LEN } } g' ∧
      Mid key flags p (cks ++ [c]) g' ∧ Pushed key flags (chunkLeaves key flags 0 (cks ++ [c])) g'.subtree_hashes := by
  obtain ⟨S, e, hS⟩ := push_chunk_hash_eq key flags g cks.length (chunkLeaves key flags 0 cks)
    (.leaf (Spec.chunk key flags (2048 * cks.length) c)) hm.chunk.hkey hm.chunk.hflags hm.stack
    (length_chunkLeaves ..) (by omega)
  have hSl := hS.length
  rw [List.length_append, List.length_singleton, Nat.add_sub_cancel, length_chunkLeaves] at hSl
  obtain ⟨h1, f1, r1⟩ := push_sim h16 r _ extra _ e ha (by dsimp only; omega)
  have hL : chunkLeaves key flags 0 cks ++ [.leaf (Spec.chunk key flags (2048 * cks.length) c)] =
      chunkLeaves key flags 0 (cks ++ [c]) := by
    rw [chunkLeaves_append, Nat.zero_add]; rfl
  rw [hL] at hS
  refine ⟨h1, { subtree_hashes := S, chunk := { g.chunk with offset := BitVec.ofNat 64 (2048 * (cks ++ [c]).length) } },
    ?_, ⟨⟨r1.chunk.state, r1.chunk.key, ?_, r1.chunk.count, r1.chunk.buf, r1.chunk.buf_len, r1.chunk.flags⟩, r1.len,
      r1.mem, r1.room⟩, ⟨?_, ChunkOk.offset_change key flags hm.chunk, Or.inr hS⟩, hS⟩
  · rw [r.chunk.offset, hm.chunk.hoff]; exact f1
  · show h1.chunk.offset + _ = _
    rw [r1.chunk.offset, show ({ g with subtree_hashes := S } : Model.Hasher).chunk.offset = _ from hm.chunk.hoff,
      List.length_append, List.length_singleton, Nat.mul_add, BitVec.ofNat_add]
  · intro x hx
    rcases List.mem_append.1 hx with hx | hx
    · exact hm.len x hx
    · rw [List.mem_singleton.1 hx]; exact hc

theorem advance_bufOf (ts : List (Tree Spec.Input)) (i : Nat) (t : Tree Spec.Input) (us : List (Tree Spec.Input))
    (hi : ts.length = i) (rest : Bytes) :
    cAdvance (bufOf key flags (ts ++ t :: us) ++ rest) (i * C.OUT_LEN) =
      .ok ((hashOf key flags t).toList ++ (bufOf key flags us ++ rest)) := by
  have : bufOf key flags (ts ++ t :: us) = bufOf key flags ts ++ ((hashOf key flags t).toList ++ bufOf key flags us) := by
    rw [bufOf, List.flatMap_append]; rfl
  have hl := length_bufOf key flags ts
  rw [this, cAdvance_ok _ _ (by simp only [List.length_append, C.OUT_LEN]; omega), List.append_assoc, List.drop_left'
    (by rw [hl, hi]; simp only [C.OUT_LEN]; omega), List.append_assoc]

theorem push_chunks_sim {cfg : C.Config} (h16 : 16 ≤ cfg.bits) {M : Nat} {p : Platform} (new : List Bytes) :
    ∀ (cks : List Bytes) (h : C.hasher) (g : Model.Hasher) (ts : List (Tree Spec.Input)) (rest : Bytes),
    HRel M h g → Mid key flags p cks g → (∀ c ∈ new, c.length = 2048) → 2048 * (cks.length + new.length) < 2 ^ 64 →
    (∀ n, cks.length ≤ n → n < cks.length + new.length → PushOk cfg M n) →
    ∃ h' g', push_chunks cfg h (bufOf key flags (ts ++ chunkLeaves key flags (2048 * cks.length) new) ++ rest) ts.length
        new.length = .ok h' ∧ HRel M h' g' ∧ Mid key flags p (cks ++ new) g' ∧
      (new ≠ [] → Pushed key flags (chunkLeaves key flags 0 (cks ++ new)) g'.subtree_hashes) ∧ (new = [] → g' = g) := by
  induction new with
  | nil =>
    intro cks h g ts rest r hm _ _ _
    exact ⟨h, g, rfl, r, by rwa [List.append_nil], fun h => absurd rfl h, fun _ => rfl⟩
  | cons c new ih =>
    intro cks h g ts rest r hm hnew hlt hok
    rw [List.length_cons] at hlt hok
    have hpo := hok cks.length (by omega) (by omega)
    have hsl := stack_le key flags hm.stack
    rw [length_chunkLeaves] at hsl
    obtain ⟨h1, g1, f1, r1, hm1, hp1⟩ := push_step key flags h16 r hm c (hnew c (List.mem_cons_self ..)) (by omega)
      (fun ha => by have := hpo.1 ha; omega) hpo.2
      (bufOf key flags (chunkLeaves key flags (2048 * cks.length + 2048) new) ++ rest)
    obtain ⟨h2, g2, f2, r2, hm2, hp2, hz2⟩ := ih (cks ++ [c]) _ g1 (ts ++ [.leaf (Spec.chunk key flags (2048 * cks.length) c)])
      rest r1 hm1 (fun x hx => hnew x (List.mem_cons_of_mem _ hx))
      (by rw [List.length_append, List.length_singleton]; omega)
      (fun n h1 h2 => hok n (by rw [List.length_append] at h1; omega)
        (by rw [List.length_append, List.length_singleton] at h2; omega))
    rw [List.append_assoc, List.singleton_append] at hm2 hp2
    refine ⟨h2, g2, ?_, r2, hm2, fun _ => ?_, fun h => by cases h⟩
    · rw [chunkLeaves, List.length_cons, push_chunks, advance_bufOf key flags ts _ _ _ rfl, bind_ok, f1, bind_ok]
      rw [List.append_assoc, List.singleton_append, List.length_append, List.length_singleton, List.length_append,
        List.length_singleton, Nat.mul_add] at f2
      exact f2
    · by_cases hn : new = []
      · rw [hz2 hn]; subst hn; exact hp1
      · exact hp2 hn


/-! ## a failing push -/

/-- The stack of a hasher in the situation in which `FailAt` is about: either any, or one whose last chunk
is not merged. -/
def Sit (any : Bool) (L : List (Tree Spec.Input)) (S : List (Vector Byte 32)) : Prop :=
  if any then StackOk key flags L S else Pushed key flags L S

theorem Sit.of_pushed {any : Bool} {L : List (Tree Spec.Input)} {S : List (Vector Byte 32)} (h : Pushed key flags L S) :
    Sit key flags any L S := by
  unfold Sit
  split
  · exact Or.inr h
  · exact h

/-- Pushing chunk number `N` fails with `err`. -/
def FailAt (cfg : C.Config) (M : Nat) (p : Platform) (N : Nat) (any : Bool) (err : Panic) : Prop :=
  ∀ (h : C.hasher) (g : Model.Hasher) (cks : List Bytes) (c : Bytes) (extra : Bytes), HRel M h g → Mid key flags p cks g → cks.length = N →
    Sit key flags any (chunkLeaves key flags 0 cks) g.subtree_hashes →
    hasher_push_chunk_hash cfg h
      ((hashOf key flags (.leaf (Spec.chunk key flags (2048 * cks.length) c))).toList ++ extra) h.chunk.offset = .error err

theorem push_chunks_fail {cfg : C.Config} (h16 : 16 ≤ cfg.bits) {M : Nat} {p : Platform} {N : Nat} {any : Bool} {err : Panic}
    (hf : FailAt key flags cfg M p N any err) (new : List Bytes) :
    ∀ (cks : List Bytes) (h : C.hasher) (g : Model.Hasher) (ts : List (Tree Spec.Input)) (rest : Bytes),
    HRel M h g → Mid key flags p cks g → (∀ c ∈ new, c.length = 2048) → 2048 * (cks.length + new.length) < 2 ^ 64 →
    (∀ n, cks.length ≤ n → n < N → PushOk cfg M n) → cks.length ≤ N → N < cks.length + new.length →
    (cks.length = N → Sit key flags any (chunkLeaves key flags 0 cks) g.subtree_hashes) →
    push_chunks cfg h (bufOf key flags (ts ++ chunkLeaves key flags (2048 * cks.length) new) ++ rest) ts.length
        new.length = .error err := by
  induction new with
  | nil => intro cks h g ts rest r hm _ _ _ h1 h2; rw [List.length_nil] at h2; omega
  | cons c new ih =>
    intro cks h g ts rest r hm hnew hlt hok h1 h2 h3
    rw [List.length_cons] at hlt h2
    rw [chunkLeaves, List.length_cons, push_chunks, advance_bufOf key flags ts _ _ _ rfl, bind_ok]
    by_cases hN : cks.length = N
    · rw [hf h g cks c _ r hm hN (h3 hN)]; rfl
    have hpo := hok cks.length (by omega) (by omega)
    have hsl := stack_le key flags hm.stack
    rw [length_chunkLeaves] at hsl
    obtain ⟨h1', g1, f1, r1, hm1, hp1⟩ := push_step key flags h16 r hm c (hnew c (List.mem_cons_self ..)) (by omega)
      (fun ha => by have := hpo.1 ha; omega) hpo.2
      (bufOf key flags (chunkLeaves key flags (2048 * cks.length + 2048) new) ++ rest)
    have f2 := ih (cks ++ [c]) _ g1 (ts ++ [.leaf (Spec.chunk key flags (2048 * cks.length) c)])
      rest r1 hm1 (fun x hx => hnew x (List.mem_cons_of_mem _ hx))
      (by rw [List.length_append, List.length_singleton]; omega)
      (fun n h1 h2 => hok n (by rw [List.length_append] at h1; omega) h2)
      (by rw [List.length_append, List.length_singleton]; omega)
      (by rw [List.length_append, List.length_singleton]; omega)
      (fun _ => Sit.of_pushed key flags hp1)
    rw [f1, bind_ok]
    rw [List.append_assoc, List.singleton_append, List.length_append, List.length_singleton, List.length_append,
      List.length_singleton, Nat.mul_add] at f2
    exact f2

/-! ## the main loop -/

theorem chunkLeaves_map (off : Nat) (cs : List Bytes) : chunkLeaves key flags off cs =
    (List.range cs.length).map fun i => .leaf (Spec.chunk key flags (off + 2048 * i) (cs.getD i [])) := by
  induction cs generalizing off with
  | nil => rfl
  | cons c cs ih =>
    rw [chunkLeaves, ih, List.length_cons, List.range_succ_eq_map, List.map_cons, List.map_map]
    refine congrArg (List.cons (Tree.leaf (Spec.chunk key flags off c))) (List.map_congr_left fun i _ => ?_)
    simp only [Function.comp, List.getD_cons_succ]
    rw [show off + 2048 + 2048 * i = off + 2048 * (i + 1) by omega]

/-- the result of `hash_many` on whole chunks -/
theorem manyOut_chunks (off : Nat) (ptrs cs : List Bytes)
    (h : ∀ i, i < cs.length → (cs.getD i []).length = 2048 ∧ (ptrs.getD i []).take 2048 = cs.getD i []) :
    Spec.manyOut key (BitVec.ofNat 64 off) (BitVec.ofNat 64 2048) flags Spec.chunkStart Spec.chunkEnd 32 cs.length ptrs =
      bufOf key flags (chunkLeaves key flags off cs) := by
  rw [chunkLeaves_map, bufOf, List.flatMap_map, Spec.manyOut, List.flatMap_def, List.flatMap_def]
  refine congrArg _ (List.map_congr_left fun i hi => ?_)
  rw [List.mem_range] at hi
  obtain ⟨h1, h2⟩ := h i hi
  have hl : 64 * 32 ≤ (ptrs.getD i []).length := by
    have := congrArg List.length h2
    rw [List.length_take] at this; omega
  rw [← BitVec.ofNat_mul, ← BitVec.ofNat_add, ← cvLoop_chain _ _ _ _ _ _ _ hl, show 64 * 32 = 2048 from rfl, h2,
    Nat.mul_comm i 2048, hashOf, cvOf, inp]
  refine congrArg (fun v => (Spec.cvBytes v).toList) ?_
  exact cvLoop_chunk flags _ key _ _ (by omega) (by intro e; rw [e] at h1; cases h1)

theorem collect_eq (new : List Bytes) (hnew : ∀ c ∈ new, c.length = 2048) (tail extra : Bytes)
    (ht : tail.length < 2048) : ∀ (n : Nat) (chunks : List Bytes), chunks.length = 16 → n ≤ 16 →
    ∃ chunks', collect_chunks chunks (new.flatten ++ tail ++ extra) (2048 * new.length + tail.length) n =
        .ok (chunks', (new.drop (16 - n)).flatten ++ tail ++ extra,
          2048 * (new.drop (16 - n)).length + tail.length, n + (new.take (16 - n)).length) ∧
      chunks'.length = 16 ∧ chunks'.take n = chunks.take n ∧
      ∀ i, i < (new.take (16 - n)).length → (chunks'.getD (n + i) []).take 2048 = new.getD i [] := by
  induction new with
  | nil =>
    intro n chunks hc hn
    rw [collect_chunks, if_neg (by simp only [C.CHUNK_LEN, List.length_nil]; omega)]
    refine ⟨chunks, ?_, hc, rfl, ?_⟩
    · simp
    · intro i hi; simp at hi
  | cons c new ih =>
    intro n chunks hc hn
    have hc2 : c.length = 2048 := hnew c (List.mem_cons_self ..)
    rw [collect_chunks]
    by_cases h16 : n = 16
    · rw [if_neg (by simp only [C.MAX_SIMD_DEGREE]; omega)]
      refine ⟨chunks, ?_, hc, rfl, ?_⟩
      · rw [h16]; simp
      · intro i hi; rw [h16] at hi; simp at hi
    · rw [if_pos (by simp only [C.MAX_SIMD_DEGREE, C.CHUNK_LEN, List.length_cons]; omega)]
      rw [cStore, if_pos (by simp only [List.length_singleton]; omega), bind_ok, List.flatten_cons,
        cAdvance_ok _ _ (by simp only [List.length_append, C.CHUNK_LEN]; omega), bind_ok]
      have hd : (c ++ new.flatten ++ tail ++ extra).drop C.CHUNK_LEN = new.flatten ++ tail ++ extra := by
        rw [List.append_assoc, List.append_assoc, List.drop_left' (by exact hc2), List.append_assoc]
      obtain ⟨chunks', e, hl, ht1, hi⟩ := ih (fun x hx => hnew x (List.mem_cons_of_mem _ hx)) (n + 1)
        (chunks.take n ++ [c ++ new.flatten ++ tail ++ extra] ++ chunks.drop (n + 1))
        (by simp only [List.length_append, List.length_take, List.length_drop, List.length_singleton]; omega) (by omega)
      have hs : 16 - n = (16 - (n + 1)) + 1 := by omega
      refine ⟨chunks', ?_, hl, ?_, ?_⟩
      · rw [hd, List.length_singleton, show 2048 * (c :: new).length + tail.length - C.CHUNK_LEN = 2048 * new.length + tail.length by
          simp only [C.CHUNK_LEN, List.length_cons]; omega, e, hs, List.drop_succ_cons, List.take_succ_cons, List.length_cons,
          show n + 1 + (new.take (16 - (n + 1))).length = n + ((new.take (16 - (n + 1))).length + 1) by omega]
      · have := congrArg (List.take n) ht1
        rw [List.take_take, List.take_take, Nat.min_eq_left (by omega), List.append_assoc,
          List.take_left' (by rw [List.length_take]; omega)] at this
        exact this
      · intro i hi'
        rw [hs, List.take_succ_cons, List.length_cons] at hi'
        rcases i with _ | i
        · have h1 : (chunks'.take (n + 1))[n]? = some (c ++ new.flatten ++ tail ++ extra) := by
            rw [ht1, List.take_left' (by rw [List.length_append, List.length_take, List.length_singleton]; omega),
              List.getElem?_append_right (by rw [List.length_take]; omega), List.length_take,
              show n - min n chunks.length = 0 by omega]
            rfl
          rw [List.getElem?_take, if_pos (by omega)] at h1
          rw [Nat.add_zero, List.getD_eq_getElem?_getD, h1, Option.getD_some, List.append_assoc, List.append_assoc,
            List.take_left' hc2]
          rfl
        · rw [show n + (i + 1) = n + 1 + i by omega, hi i (by omega)]
          rfl

theorem hash_many_ok (cfg : C.Config) (hn : cfg.neon = true → cfg.order = .little) (inputs : List Bytes) (num blocks : Nat) (offset d : U64)
    (deltas : List U64) (fs fe : Byte) (out : Bytes)
    (h : Props.HashManyPre 16 inputs num blocks d deltas out) :
    C.hash_many cfg inputs num blocks key offset deltas flags fs fe out =
      .ok (Spec.manyOut key offset d flags fs fe blocks num inputs ++ out.drop (32 * num)) := by
  unfold C.hash_many
  split
  · exact Props.C32_avx512 _ _ _ _ _ _ _ _ _ _ _ h
  split
  · exact Props.C32_avx2 _ _ _ _ _ _ _ _ _ _ _ (h.mono (by decide))
  split
  · exact Props.C32_sse41 _ _ _ _ _ _ _ _ _ _ _ (h.mono (by decide))
  split
  next hneon =>
    rw [hn hneon]
    exact Props.C32_neon _ _ _ _ _ _ _ _ _ _ _ (h.mono (by decide))
  · exact Props.C32_portable _ _ _ _ _ _ _ _ _ _ _ (h.mono (by decide))

/-- one batch: `collect_chunks` and `hash_many` -/
theorem batch_eq (cfg : C.Config) (hn : cfg.neon = true → cfg.order = .little) (new : List Bytes) (hnew : ∀ c ∈ new, c.length = 2048) (tail extra : Bytes)
    (ht : tail.length < 2048) (chunks : List Bytes) (hc : chunks.length = 16) (out : Bytes) (ho : out.length = 512) (off : Nat) :
    ∃ chunks', collect_chunks chunks (new.flatten ++ tail ++ extra) (2048 * new.length + tail.length) 0 =
        .ok (chunks', (new.drop 16).flatten ++ tail ++ extra, 2048 * (new.drop 16).length + tail.length,
          (new.take 16).length) ∧
      chunks'.length = 16 ∧
      C.hash_many cfg chunks' (new.take 16).length (C.CHUNK_LEN / C.BLOCK_LEN) key (BitVec.ofNat 64 off)
        CHUNK_OFFSET_DELTAS flags C.CHUNK_START C.CHUNK_END out =
        .ok (bufOf key flags (chunkLeaves key flags off (new.take 16)) ++ out.drop (32 * (new.take 16).length)) := by
  obtain ⟨chunks', e, hl, -, hi⟩ := collect_eq new hnew tail extra ht 0 chunks hc (by omega)
  simp only [Nat.sub_zero, Nat.zero_add] at e hi
  have hle : (new.take 16).length ≤ 16 := by rw [List.length_take]; omega
  have hget : ∀ i, i < (new.take 16).length → ((new.take 16).getD i []).length = 2048 ∧
      (chunks'.getD i []).take 2048 = (new.take 16).getD i [] := by
    intro i h
    have hmem : (new.take 16).getD i [] ∈ new := by
      rw [List.getD_eq_getElem?_getD, List.getElem?_eq_getElem h]
      exact List.mem_of_mem_take (List.getElem_mem h)
    refine ⟨hnew _ hmem, ?_⟩
    rw [hi i h, List.getD_eq_getElem?_getD, List.getD_eq_getElem?_getD, List.getElem?_take, if_pos (by omega)]
  refine ⟨chunks', e, hl, ?_⟩
  rw [hash_many_ok key flags cfg hn chunks' _ _ _ (BitVec.ofNat 64 2048) _ _ _ _
    ⟨by omega, fun i h => ?_, by omega, Props.chunk_deltas⟩]
  · rw [show C.CHUNK_LEN / C.BLOCK_LEN = 32 from rfl, show C.CHUNK_START = Spec.chunkStart from rfl,
      show C.CHUNK_END = Spec.chunkEnd from rfl, manyOut_chunks key flags off chunks' (new.take 16) hget]
  · obtain ⟨h1, h2⟩ := hget i h
    rw [show C.CHUNK_LEN / C.BLOCK_LEN = 32 from rfl]
    have := congrArg List.length h2
    rw [List.length_take] at this; omega

theorem update_loop_sim {cfg : C.Config} (h16 : 16 ≤ cfg.bits) {M : Nat} {p : Platform} (new : List Bytes)
    (hnew : ∀ c ∈ new, c.length = 2048) (tail extra : Bytes) (ht : tail.length < 2048) (cks : List Bytes) (h : C.hasher)
    (g : Model.Hasher) (out : Bytes) (ho : out.length = 512) (chunks : List Bytes) (hc : chunks.length = 16)
    (r : HRel M h g) (hm : Mid key flags p cks g) (hlt : 2048 * (cks.length + new.length) < 2 ^ 64)
    (hok : ∀ n, cks.length ≤ n → n < cks.length + new.length → PushOk cfg M n)
    (hn : (cfg.neon = true → cfg.order = .little) ∨ new = []) :
    ∃ h' g', C.update_loop cfg h out chunks (new.flatten ++ tail ++ extra) (2048 * new.length + tail.length) =
        .ok (h', tail ++ extra, tail.length) ∧ HRel M h' g' ∧ Mid key flags p (cks ++ new) g' ∧
      (new ≠ [] → Pushed key flags (chunkLeaves key flags 0 (cks ++ new)) g'.subtree_hashes) ∧ (new = [] → g' = g) := by
  induction hl0 : new.length using Nat.strongRecOn generalizing new cks h g out chunks with
  | ind k ih =>
  rw [C.update_loop]
  by_cases h0 : new = []
  · subst h0
    have hk : k = 0 := hl0.symm
    subst hk
    rw [dif_neg (by simp only [C.CHUNK_LEN]; omega)]
    refine ⟨h, g, ?_, r, by rwa [List.append_nil], fun h => absurd rfl h, fun _ => rfl⟩
    simp
  · have hn' : cfg.neon = true → cfg.order = .little := hn.resolve_right h0
    have hpos : 0 < new.length := List.length_pos_iff.2 h0
    have htne : new.take 16 ≠ [] := by
      intro h; have := congrArg List.length h; rw [List.length_take, List.length_nil] at this; omega
    rw [dif_pos (by simp only [C.CHUNK_LEN]; omega)]
    obtain ⟨chunks', e1, hl', e2⟩ := batch_eq key flags cfg hn' new hnew tail extra ht chunks hc out ho (2048 * cks.length)
    have htl : (new.take 16).length = min 16 new.length := List.length_take
    obtain ⟨h1, g1, f1, r1, hm1, hp1, -⟩ := push_chunks_sim key flags h16 (new.take 16) cks h g []
      (out.drop (32 * (new.take 16).length)) r hm (fun c h => hnew c (List.mem_of_mem_take h)) (by omega)
      (fun n a b => hok n a (by omega))
    rw [List.nil_append, List.length_nil] at f1
    rw [← hl0]
    split
    next e he => rw [e1] at he; cases he
    next c' b' l' n' he =>
      rw [e1] at he
      cases he
      rw [r.chunk.key, r.chunk.flags, r.chunk.offset, hm.chunk.hkey, hm.chunk.hflags, hm.chunk.hoff, e2, bind_ok, f1, bind_ok]
      have hdl : (new.drop 16).length = new.length - 16 := List.length_drop
      obtain ⟨h2, g2, f2, r2, hm2, hp2, hz2⟩ := ih (new.drop 16).length (by omega) (new.drop 16)
        (fun c h => hnew c (List.mem_of_mem_drop h)) (cks ++ new.take 16) h1 g1
        (bufOf key flags (chunkLeaves key flags (2048 * cks.length) (new.take 16)) ++ out.drop (32 * (new.take 16).length))
        (by rw [List.length_append, length_bufOf, length_chunkLeaves, List.length_drop]; omega) _ hl' r1 hm1
        (by rw [List.length_append]; omega) (fun n a b => hok n (by rw [List.length_append] at a; omega)
          (by rw [List.length_append] at b; omega)) (Or.inl hn') rfl
      rw [List.append_assoc, List.take_append_drop] at hm2 hp2
      refine ⟨h2, g2, f2, r2, hm2, fun _ => ?_, fun h => absurd h h0⟩
      by_cases hd : new.drop 16 = []
      · rw [hz2 hd]
        have := hp1 htne
        rwa [show new.take 16 = new by
          have := List.take_append_drop 16 new
          rw [hd, List.append_nil] at this; exact this] at this
      · exact hp2 hd

theorem update_loop_fail {cfg : C.Config} (hn : cfg.neon = true → cfg.order = .little) (h16 : 16 ≤ cfg.bits) {M : Nat} {p : Platform} {N : Nat} {any : Bool} {err : Panic}
    (hf : FailAt key flags cfg M p N any err) (new : List Bytes)
    (hnew : ∀ c ∈ new, c.length = 2048) (tail extra : Bytes) (ht : tail.length < 2048) (cks : List Bytes) (h : C.hasher)
    (g : Model.Hasher) (out : Bytes) (ho : out.length = 512) (chunks : List Bytes) (hc : chunks.length = 16)
    (r : HRel M h g) (hm : Mid key flags p cks g) (hlt : 2048 * (cks.length + new.length) < 2 ^ 64)
    (hok : ∀ n, cks.length ≤ n → n < N → PushOk cfg M n) (h1 : cks.length ≤ N) (h2 : N < cks.length + new.length)
    (h3 : cks.length = N → Sit key flags any (chunkLeaves key flags 0 cks) g.subtree_hashes) :
    C.update_loop cfg h out chunks (new.flatten ++ tail ++ extra) (2048 * new.length + tail.length) = .error err := by
  induction hl0 : new.length using Nat.strongRecOn generalizing new cks h g out chunks with
  | ind k ih =>
  rw [C.update_loop]
  have h0 : new ≠ [] := by intro h; rw [h, List.length_nil] at h2; omega
  have hpos : 0 < new.length := List.length_pos_iff.2 h0
  have htne : new.take 16 ≠ [] := by
    intro h; have := congrArg List.length h; rw [List.length_take, List.length_nil] at this; omega
  rw [dif_pos (by simp only [C.CHUNK_LEN]; omega)]
  obtain ⟨chunks', e1, hl', e2⟩ := batch_eq key flags cfg hn new hnew tail extra ht chunks hc out ho (2048 * cks.length)
  have htl : (new.take 16).length = min 16 new.length := List.length_take
  have hmt : ∀ c ∈ new.take 16, c.length = 2048 := fun c h => hnew c (List.mem_of_mem_take h)
  rw [← hl0]
  split
  next e he => rw [e1] at he; cases he
  next c' b' l' n' he =>
    rw [e1] at he
    cases he
    rw [r.chunk.key, r.chunk.flags, r.chunk.offset, hm.chunk.hkey, hm.chunk.hflags, hm.chunk.hoff, e2, bind_ok]
    by_cases hN : N < cks.length + (new.take 16).length
    · have f1 := push_chunks_fail key flags h16 hf (new.take 16) cks h g []
        (out.drop (32 * (new.take 16).length)) r hm hmt (by omega) hok h1 hN h3
      rw [List.nil_append, List.length_nil] at f1
      rw [f1]
      rfl
    · obtain ⟨h1', g1, f1, r1, hm1, hp1, -⟩ := push_chunks_sim key flags h16 (new.take 16) cks h g []
        (out.drop (32 * (new.take 16).length)) r hm hmt (by omega)
        (fun n a b => hok n a (by omega))
      rw [List.nil_append, List.length_nil] at f1
      rw [f1, bind_ok]
      have hdl : (new.drop 16).length = new.length - 16 := List.length_drop
      exact ih (new.drop 16).length (by omega) (new.drop 16)
        (fun c h => hnew c (List.mem_of_mem_drop h)) (cks ++ new.take 16) h1' g1
        (bufOf key flags (chunkLeaves key flags (2048 * cks.length) (new.take 16)) ++ out.drop (32 * (new.take 16).length))
        (by rw [List.length_append, length_bufOf, length_chunkLeaves, List.length_drop]; omega) _ hl' r1 hm1
        (by rw [List.length_append]; omega) (fun n a b => hok n (by rw [List.length_append] at a; omega) b)
        (by rw [List.length_append]; omega) (by rw [List.length_append]; omega)
        (fun _ => Sit.of_pushed key flags (hp1 htne)) rfl

/-! ## update -/

/-- The C object represents a hasher that has received `bytes`. -/
def COk (M : Nat) (p : Platform) (bytes : Bytes) (h : C.hasher) : Prop :=
  ∃ g, HRel M h g ∧ HasherOk key flags p bytes g

/-- whole chunks and the rest -/
theorem split_chunks (input : Bytes) : ∃ (new : List Bytes) (tail : Bytes), input = new.flatten ++ tail ∧ (∀ c ∈ new, c.length = 2048) ∧
    tail.length < 2048 ∧ new.length = input.length / 2048 ∧ input.length = 2048 * new.length + tail.length := by
  have hl := length_chunksExact 2048 (by decide) input
  have hrl : (chunksRemainder 2048 input).length = input.length % 2048 := by
    rw [chunksRemainder, List.length_drop]; omega
  refine ⟨chunksExact 2048 input, chunksRemainder 2048 input, ?_, mem_chunksExact 2048 (by decide) input, by omega, hl,
    by omega⟩
  rw [flatten_chunksExact 2048 (by decide), chunksRemainder, List.take_append_drop]

theorem update_rest_sim {cfg : C.Config} (h16 : 16 ≤ cfg.bits) {M : Nat} {p : Platform} (cks : List Bytes) (h : C.hasher)
    (g : Model.Hasher) (input extra : Bytes) (r : HRel M h g) (hm : Mid key flags p cks g) (hin : input ≠ [])
    (hlt : 2048 * cks.length + input.length < 2 ^ 64) (h2 : 1 ≤ cks.length ∨ input.length ≠ 2048)
    (hok : ∀ n, cks.length ≤ n → n < cks.length + input.length / 2048 → PushOk cfg M n)
    (hn : (cfg.neon = true → cfg.order = .little) ∨ input.length < 2048) :
    ∃ h', hasher_update_rest cfg h (input ++ extra) input.length = .ok h' ∧
      COk key flags M p (cks.flatten ++ input) h' := by
  obtain ⟨new, tail, rfl, hnew, ht, hnl, hil⟩ := split_chunks input
  have hpos : 0 < (new.flatten ++ tail).length := List.length_pos_iff.2 hin
  rw [← hnl] at hok
  rw [hil] at hlt h2 hpos hn ⊢
  obtain ⟨h1, g1, f1, r1, hm1, hp1, hz1⟩ := update_loop_sim key flags h16 new hnew tail extra ht cks h g
    (cfg.uninit (C.OUT_LEN * C.MAX_SIMD_DEGREE)) (length_uninit ..) (List.replicate C.MAX_SIMD_DEGREE []) rfl r hm
    (by omega) hok (hn.imp_right fun h => List.length_eq_zero_iff.1 (by omega))
  rw [hasher_update_rest, f1, bind_ok]
  dsimp only
  by_cases hr : tail = []
  · subst hr
    rw [if_neg (by simp)]
    rw [List.length_nil] at h2 hpos
    refine ⟨h1, rfl, g1, r1, cks ++ new, [], by simp, hm1.len, by simp, hm1.chunk,
      Or.inr ⟨rfl, by rw [List.length_append]; omega, hp1 (by intro h; rw [h, List.length_nil] at hpos; omega)⟩⟩
  · have htp : 0 < tail.length := List.length_pos_iff.2 hr
    have hcl : (cks ++ new).length = cks.length + new.length := List.length_append
    have em := merge_to_canon key flags g1 _ _ hm1.chunk.hkey hm1.chunk.hflags hm1.stack (length_chunkLeaves ..)
      (by rw [hcl]; omega)
    obtain ⟨h2', f2, r2⟩ := merge_loop_sim h16 r1 _ em
    obtain ⟨s', e, hs'⟩ := hm1.chunk.update tail (by simp; omega)
    obtain ⟨c3, f3, r3⟩ := chunk_update_sim h16 extra r2.chunk e
    rw [if_pos htp, r1.chunk.offset, hm1.chunk.hoff, f2, bind_ok, f3, bind_ok]
    rw [List.nil_append] at hs'
    refine ⟨_, rfl, { subtree_hashes := (canon (chunkLeaves key flags 0 (cks ++ new))).map (hashOf key flags), chunk := s' },
      ⟨r3, r2.len, r2.mem, r2.room⟩, cks ++ new, tail, ?_, hm1.len, by omega, hs', Or.inl ⟨Or.inl hr, rfl⟩⟩
    rw [List.flatten_append, List.append_assoc]

theorem update_rest_fail {cfg : C.Config} (hn : cfg.neon = true → cfg.order = .little) (h16 : 16 ≤ cfg.bits) {M : Nat} {p : Platform} {N : Nat} {any : Bool} {err : Panic}
    (hf : FailAt key flags cfg M p N any err) (cks : List Bytes) (h : C.hasher)
    (g : Model.Hasher) (input extra : Bytes) (r : HRel M h g) (hm : Mid key flags p cks g)
    (hlt : 2048 * cks.length + input.length < 2 ^ 64)
    (hok : ∀ n, cks.length ≤ n → n < N → PushOk cfg M n) (h1 : cks.length ≤ N) (h2 : N < cks.length + input.length / 2048)
    (h3 : cks.length = N → Sit key flags any (chunkLeaves key flags 0 cks) g.subtree_hashes) :
    hasher_update_rest cfg h (input ++ extra) input.length = .error err := by
  obtain ⟨new, tail, rfl, hnew, ht, hnl, hil⟩ := split_chunks input
  rw [← hnl] at h2
  rw [hil] at hlt ⊢
  rw [hasher_update_rest, update_loop_fail key flags hn h16 hf new hnew tail extra ht cks h g
    (cfg.uninit (C.OUT_LEN * C.MAX_SIMD_DEGREE)) (length_uninit ..) (List.replicate C.MAX_SIMD_DEGREE []) rfl r hm
    (by omega) hok h1 h2 h3]
  rfl

/-- The first part of `hasher_update`, in the case that it is entered: either the whole input goes into the
chunk state, or the chunk is completed and the rest follows. -/
theorem update_head {cfg : C.Config} (h16 : 16 ≤ cfg.bits) {M : Nat} {p : Platform} (cks : List Bytes) (tail : Bytes) (h : C.hasher)
    (g : Model.Hasher) (input extra : Bytes) (r : HRel M h g) (hcks : ∀ c ∈ cks, c.length = 2048) (htail : tail.length ≤ 2048)
    (hch : ChunkOk key flags p (2048 * cks.length) tail g.chunk)
    (hst : g.subtree_hashes = (canon (chunkLeaves key flags 0 cks)).map (hashOf key flags))
    (hlt : 2048 * cks.length + tail.length + input.length < 2 ^ 64)
    (hc : (h.chunk.offset = 0 ∧ input.length = C.CHUNK_LEN) ∨ chunk_state_len cfg h.chunk > 0) :
    (∃ h1 g1, input.length ≤ 2048 - tail.length ∧ hasher_update cfg h (input ++ extra) input.length = .ok h1 ∧
      HRel M h1 g1 ∧ ChunkOk key flags p (2048 * cks.length) (tail ++ input) g1.chunk ∧
      g1.subtree_hashes = g.subtree_hashes) ∨
    (2048 - tail.length < input.length ∧ 32 * (popcount cks.length + 1) ≤ M ∧
      ∃ h1 g1, hasher_update cfg h (input ++ extra) input.length =
        hasher_update_rest cfg h1 (input.drop (2048 - tail.length) ++ extra) (input.drop (2048 - tail.length)).length ∧
      HRel M h1 g1 ∧ Mid key flags p (cks ++ [tail ++ input.take (2048 - tail.length)]) g1 ∧
      Pushed key flags (chunkLeaves key flags 0 (cks ++ [tail ++ input.take (2048 - tail.length)])) g1.subtree_hashes) ∨
    (2048 - tail.length < input.length ∧ M < 32 * (popcount cks.length + 1) ∧
      hasher_update cfg h (input ++ extra) input.length = .error .ub) := by
  have hp := two_pow_bits h16
  have hcl := hch.len
  have hlen := r.chunk.len h16 (by rw [hcl]; omega)
  rw [hcl] at hlen
  rw [hasher_update]
  dsimp only
  rw [if_pos hc, hlen]
  have htk : (if subSz cfg.bits C.CHUNK_LEN tail.length > input.length then input.length
      else subSz cfg.bits C.CHUNK_LEN tail.length) = min (2048 - tail.length) input.length := by
    rw [show C.CHUNK_LEN = 2048 from rfl, subSz_le htail (by omega)]
    split <;> omega
  rw [htk]
  have ht : input.take (min (2048 - tail.length) input.length) = input.take (2048 - tail.length) := by
    rw [List.take_eq_take_iff]; omega
  have hd : input.drop (min (2048 - tail.length) input.length) = input.drop (2048 - tail.length) := by
    by_cases h : 2048 - tail.length ≤ input.length
    · rw [Nat.min_eq_left h]
    · rw [Nat.min_eq_right (by omega), List.drop_of_length_le (by omega), List.drop_of_length_le (by omega)]
  have htl : (input.take (2048 - tail.length)).length = min (2048 - tail.length) input.length := List.length_take
  obtain ⟨s', e, hs'⟩ := hch.update (input.take (2048 - tail.length)) (by omega)
  obtain ⟨c1, f1, r1⟩ := chunk_update_sim h16 (input.drop (2048 - tail.length) ++ extra) r.chunk e
  rw [← List.append_assoc, List.take_append_drop, htl] at f1
  rw [f1, bind_ok, cAdvance_ok _ _ (by rw [List.length_append]; omega), bind_ok,
    drop_app (Nat.min_le_right _ _), hd]
  have hdl : (input.drop (2048 - tail.length)).length = input.length - min (2048 - tail.length) input.length := by
    rw [List.length_drop]; omega
  by_cases hi : input.length ≤ 2048 - tail.length
  · left
    rw [if_neg (by omega)]
    rw [List.take_of_length_le hi] at hs'
    exact ⟨_, { g with chunk := s' }, hi, rfl, ⟨r1, r.len, r.mem, r.room⟩, hs', rfl⟩
  · right
    rw [if_pos (by omega), ← hdl]
    have hft : (tail ++ input.take (2048 - tail.length)).length = 2048 := by rw [List.length_append]; omega
    obtain ⟨o, eo, hpo, ho⟩ := hs'.finalize .notRoot (by intro h; cases h)
    have hto : o.to_hash = hashOf key flags (.leaf (Spec.chunk key flags (2048 * cks.length)
        (tail ++ input.take (2048 - tail.length)))) := by
      rw [to_hash_eq, ho]
      simp only [IsRoot.flag, or_zero8]
      rfl
    have hul := length_uninit cfg 32
    have f2 := chunk_finalize_sim (cfg := cfg) r1 false rfl eo (cfg.uninit C.OUT_LEN) (Nat.le_of_eq hul.symm)
    rw [hto] at f2
    obtain ⟨S, e2, hS⟩ := push_chunk_hash_eq key flags { g with chunk := s' } cks.length (chunkLeaves key flags 0 cks)
      (.leaf (Spec.chunk key flags (2048 * cks.length) (tail ++ input.take (2048 - tail.length))))
      hs'.hkey hs'.hflags (Or.inl hst) (length_chunkLeaves ..) (by omega)
    have hSl := hS.length
    rw [List.length_append, List.length_singleton, Nat.add_sub_cancel, length_chunkLeaves] at hSl
    have hgl : g.subtree_hashes.length = popcount cks.length := by
      rw [hst, List.length_map, length_canon, length_chunkLeaves]
    have h53 : popcount cks.length < 53 := by
      have h3 := popcount_53 (n := cks.length) (by omega)
      omega
    have r1' : HRel M { h with chunk := c1 } { g with chunk := s' } := ⟨r1, r.len, r.mem, r.room⟩
    rw [f2, bind_ok, r1.offset, hs'.hoff]
    by_cases hM : 32 * (popcount cks.length + 1) ≤ M
    · left
      refine ⟨by omega, hM, ?_⟩
      obtain ⟨h3, f3, r3⟩ := push_sim h16 r1' _ ((cfg.uninit C.OUT_LEN).drop 32) _ e2 (fun _ => by dsimp only; omega)
        (by dsimp only; omega)
      rw [f3, bind_ok]
      refine ⟨_, { subtree_hashes := S,
                   chunk := { s' with cv := s'.key, offset := BitVec.ofNat 64 (2048 * cks.length + 2048), count := 0,
                                      buf := Vector.replicate 64 0, buf_len := 0 } }, rfl,
        ⟨⟨r3.chunk.key, r3.chunk.key, ?_, rfl, replicate_toList, rfl, r3.chunk.flags⟩, r3.len, r3.mem, r3.room⟩,
        ⟨?_, ?_, Or.inr ?_⟩, ?_⟩
      · show h3.chunk.offset + _ = _
        rw [r3.chunk.offset]
        show s'.offset + _ = _
        rw [hs'.hoff, BitVec.ofNat_add]
      · intro x hx
        rcases List.mem_append.1 hx with hx | hx
        · exact hcks x hx
        · rw [List.mem_singleton.1 hx]; exact hft
      · have := ChunkOk.fresh key flags p (2048 * (cks ++ [tail ++ input.take (2048 - tail.length)]).length)
        rw [List.length_append, List.length_singleton, Nat.mul_add] at this ⊢
        rw [hs'.hkey, hs'.hflags, hs'.hplat]
        exact this
      · rw [chunkLeaves_append, Nat.zero_add]; exact hS
      · rw [chunkLeaves_append, Nat.zero_add]; exact hS
    · right
      refine ⟨by omega, by omega, ?_⟩
      rw [push_ub h16 r1' _ ((cfg.uninit C.OUT_LEN).drop 32) _ e2 (fun _ => by dsimp only; omega)
        (by dsimp only; omega)]
      rfl

/-- what is known of a represented hasher before an update -/
theorem offset_zero_iff {p : Platform} {n : Nat} {tail : Bytes} {s : Model.ChunkState} (h : ChunkOk key flags p (2048 * n) tail s)
    (hn : 2048 * n < 2 ^ 64) : s.offset = 0 ↔ n = 0 := by
  rw [h.hoff]
  constructor
  · intro e
    have := congrArg BitVec.toNat e
    rw [BitVec.toNat_ofNat, Nat.mod_eq_of_lt (by omega)] at this
    change _ = 0 at this
    omega
  · intro e; rw [e]; rfl

theorem update_sim {cfg : C.Config} (h16 : 16 ≤ cfg.bits) {M : Nat} {p : Platform} (bytes input extra : Bytes) (h : C.hasher)
    (hok : COk key flags M p bytes h) (hlt : bytes.length + input.length < 2 ^ 64)
    (hroom : ∀ n, 2048 * (n + 1) ≤ bytes.length + input.length → 32 * (popcount n + 1) ≤ M)
    (ha : cfg.asserts = true → (∀ n, 2048 * (n + 1) ≤ bytes.length + input.length → popcount (n - 1) + 1 < 53) ∨
      input.length < 2048)
    (hn : (cfg.neon = true → cfg.order = .little) ∨ input.length < 2048) :
    ∃ h', hasher_update cfg h (input ++ extra) input.length = .ok h' ∧ COk key flags M p (bytes ++ input) h' := by
  obtain ⟨g, r, hg⟩ := hok
  obtain ⟨cks, tail, rfl, hcks, htail, hch, hst⟩ := hg.ex
  have hfl := length_flatten cks hcks
  rw [List.length_append, hfl] at hlt hroom ha
  have hcl := hch.len
  have hlen := r.chunk.len h16 (by rw [hcl]; omega)
  rw [hcl] at hlen
  have hoff0 := offset_zero_iff key flags hch (by omega)
  rw [← r.chunk.offset] at hoff0
  have hpok : ∀ (k : Nat) (l : Nat), 2048 * k + l = 2048 * cks.length + tail.length + input.length → l ≤ input.length →
      ∀ n, k ≤ n → n < k + l / 2048 → PushOk cfg M n := by
    intro k l e1 e2 n h1 h2
    refine ⟨fun hA => ?_, hroom n (by omega)⟩
    rcases ha hA with h | h
    · exact h n (by omega)
    · omega
  by_cases hc : (h.chunk.offset = 0 ∧ input.length = C.CHUNK_LEN) ∨ chunk_state_len cfg h.chunk > 0
  · have hcanon : g.subtree_hashes = (canon (chunkLeaves key flags 0 cks)).map (hashOf key flags) := by
      rcases hst with ⟨-, h⟩ | ⟨h1, h2, -⟩
      · exact h
      · exfalso
        rw [hlen, h1] at hc
        rcases hc with ⟨h, -⟩ | h
        · have := hoff0.1 h; omega
        · simp at h
    rcases update_head key flags h16 cks tail h g input extra r hcks htail hch hcanon (by omega) hc with
      ⟨h1, g1, hil, e, r1, hch1, hs1⟩ | ⟨hil, hM, h1, g1, e, r1, hm1, hp1⟩ | ⟨hil, hM, e⟩
    · refine ⟨h1, e, g1, r1, cks, tail ++ input, by rw [List.append_assoc], hcks, by rw [List.length_append]; omega, hch1,
        Or.inl ⟨?_, hs1.trans hcanon⟩⟩
      rcases hc with ⟨h, -⟩ | h
      · exact Or.inr (List.length_eq_zero_iff.1 (hoff0.1 h))
      · left
        intro h'; have := congrArg List.length h'
        rw [List.length_append, List.length_nil] at this; omega
    · have hdl : (input.drop (2048 - tail.length)).length = input.length - (2048 - tail.length) := List.length_drop
      have hcl1 : (cks ++ [tail ++ input.take (2048 - tail.length)]).length = cks.length + 1 := by simp
      obtain ⟨h2, e2, hok2⟩ := update_rest_sim key flags h16 _ h1 g1 (input.drop (2048 - tail.length)) extra r1 hm1
        (by intro h; have := congrArg List.length h; rw [List.length_nil] at this; omega) (by omega) (Or.inl (by omega))
        (hpok _ _ (by omega) (by omega)) (hn.imp_right fun h => by omega)
      refine ⟨h2, e.trans e2, ?_⟩
      rw [List.flatten_append, List.flatten_cons, List.flatten_nil, List.append_nil, List.append_assoc,
        List.append_assoc, List.take_append_drop, ← List.append_assoc] at hok2
      exact hok2
    · have := hroom cks.length (by omega)
      omega
  · have htz : tail = [] := by
      rw [hlen] at hc
      exact List.length_eq_zero_iff.1 (by omega)
    subst htz
    rw [hasher_update]
    dsimp only
    rw [if_neg hc]
    rw [List.length_nil] at hlt hpok
    by_cases hin : input = []
    · subst hin
      refine ⟨h, ?_, g, r, cks, [], by simp, hcks, by simp, hch, hst⟩
      rw [hasher_update_rest, C.update_loop, dif_neg (by simp), bind_ok]
      rfl
    · have hmid : Mid key flags p cks g := by
        refine ⟨hcks, hch, ?_⟩
        rcases hst with ⟨-, h⟩ | ⟨-, -, h⟩
        · exact Or.inl h
        · exact Or.inr h
      obtain ⟨h2, e2, hok2⟩ := update_rest_sim key flags h16 cks h g input extra r hmid hin (by omega) (by
        by_cases h0 : cks.length = 0
        · right; intro hi; exact hc (Or.inl ⟨hoff0.2 h0, hi⟩)
        · left; omega) (hpok _ _ (by omega) (by omega)) hn
      exact ⟨h2, e2, by rwa [List.append_nil]⟩

theorem update_fail {cfg : C.Config} (hn : cfg.neon = true → cfg.order = .little) (h16 : 16 ≤ cfg.bits) {M : Nat} {p : Platform} {N : Nat} {any : Bool} {err : Panic}
    (hf : FailAt key flags cfg M p N any err) (bytes input extra : Bytes) (h : C.hasher)
    (hok : COk key flags M p bytes h) (hlt : bytes.length + input.length < 2 ^ 64) (hN : 0 < N)
    (hpush : ∀ n, n < N → PushOk cfg M n) (htot : 2048 * (N + 1) ≤ bytes.length + input.length)
    (hstart : bytes.length < 2048 * N ∨ (M < 32 * (popcount N + 1) ∧ err = .ub ∧ bytes.length < 2048 * (N + 1) ∧
      2048 * (N + 1) < bytes.length + input.length)) :
    hasher_update cfg h (input ++ extra) input.length = .error err := by
  obtain ⟨g, r, hg⟩ := hok
  obtain ⟨cks, tail, rfl, hcks, htail, hch, hst⟩ := hg.ex
  have hfl := length_flatten cks hcks
  rw [List.length_append, hfl] at hlt htot hstart
  have hcl := hch.len
  have hlen := r.chunk.len h16 (by rw [hcl]; omega)
  rw [hcl] at hlen
  have hoff0 := offset_zero_iff key flags hch (by omega)
  rw [← r.chunk.offset] at hoff0
  have hcN : cks.length ≤ N := by omega
  by_cases hc : (h.chunk.offset = 0 ∧ input.length = C.CHUNK_LEN) ∨ chunk_state_len cfg h.chunk > 0
  · have hcanon : g.subtree_hashes = (canon (chunkLeaves key flags 0 cks)).map (hashOf key flags) := by
      rcases hst with ⟨-, h⟩ | ⟨h1, h2, -⟩
      · exact h
      · exfalso
        rw [hlen, h1] at hc
        rcases hc with ⟨h, -⟩ | h
        · have := hoff0.1 h; omega
        · simp at h
    rcases update_head key flags h16 cks tail h g input extra r hcks htail hch hcanon (by omega) hc with
      ⟨h1, g1, hil, e, r1, hch1, hs1⟩ | ⟨hil, hM, h1, g1, e, r1, hm1, hp1⟩ | ⟨hil, hM, e⟩
    · exfalso; omega
    · have hdl : (input.drop (2048 - tail.length)).length = input.length - (2048 - tail.length) := List.length_drop
      have hcl1 : (cks ++ [tail ++ input.take (2048 - tail.length)]).length = cks.length + 1 := by simp
      have hlt' : cks.length < N := by
        rcases Nat.lt_or_ge cks.length N with h | h
        · exact h
        · exfalso
          have : cks.length = N := by omega
          rw [this] at hM
          omega
      exact e.trans (update_rest_fail key flags hn h16 hf _ h1 g1 (input.drop (2048 - tail.length)) extra r1 hm1 (by omega)
        (fun n _ => hpush n) (by omega) (by omega) (fun _ => Sit.of_pushed key flags hp1))
    · rcases Nat.lt_or_ge cks.length N with h1 | h1
      · have := (hpush cks.length h1).2; omega
      · have : cks.length = N := by omega
        rcases hstart with h2 | ⟨-, h2, -⟩
        · omega
        · rw [h2]; exact e
  · have htz : tail = [] := by
      rw [hlen] at hc
      exact List.length_eq_zero_iff.1 (by omega)
    subst htz
    rw [hasher_update]
    dsimp only
    rw [if_neg hc]
    rw [List.length_nil] at hlt htot
    have hmid : Mid key flags p cks g := by
      refine ⟨hcks, hch, ?_⟩
      rcases hst with ⟨-, h⟩ | ⟨-, -, h⟩
      · exact Or.inl h
      · exact Or.inr h
    refine update_rest_fail key flags hn h16 hf cks h g input extra r hmid (by omega) (fun n _ => hpush n) hcN (by omega) ?_
    intro e
    rcases hst with ⟨h1 | h1, -⟩ | ⟨-, -, h⟩
    · exact absurd rfl h1
    · rw [h1, List.length_nil] at e; omega
    · exact Sit.of_pushed key flags h

/-! ## finalize -/

theorem finalize_loop_sim {cfg : C.Config} (h16 : 16 ≤ cfg.bits) {h : C.hasher} {g : Model.Hasher} (rc : CRel h.chunk g.chunk)
    (out : Bytes) (ho : 32 ≤ out.length) (S : List (Vector Byte 32)) :
    ∀ (rest : Bytes) (wh : Vector Byte 32) (fuel : Nat) (o : Output), h.subtree_hashes = stackBytes S ++ rest →
    g.finalize_loop wh S = .ok o → S.length ≤ fuel → S.length < 256 →
    C.finalize_loop cfg h out fuel wh.toList (32 * (S.length - 1)) = .ok (o.to_hash.toList ++ out.drop 32) := by
  have hp := two_pow_bits h16
  induction S with
  | nil => intro rest wh fuel o _ e; cases e
  | cons s S ih =>
    intro rest wh fuel o hmem e hfuel h256
    rw [List.length_cons] at hfuel h256
    obtain ⟨fuel, rfl⟩ : ∃ f, fuel = f + 1 := ⟨fuel - 1, by omega⟩
    rw [List.length_cons, Nat.add_sub_cancel, C.finalize_loop]
    have hsl := length_stackBytes S
    have hul := length_uninit cfg C.BLOCK_LEN
    rw [stackBytes, List.append_assoc] at hmem
    have b1 : memcpy (cfg.uninit C.BLOCK_LEN) 0 (s.toList ++ rest) C.OUT_LEN =
        .ok (s.toList ++ (cfg.uninit C.BLOCK_LEN).drop 32) := by
      rw [memcpy, cLoad, if_pos (by simp), bind_ok, List.drop_zero, List.take_left' (by simp), cStore_zero _ _ (by simp [hul, C.BLOCK_LEN]),
        Vector.length_toList]
    have b2 : memcpy (s.toList ++ (cfg.uninit C.BLOCK_LEN).drop 32) C.OUT_LEN wh.toList C.OUT_LEN =
        .ok (s.toList ++ wh.toList ++ []) := by
      rw [memcpy, cLoad, if_pos (by simp), bind_ok, List.drop_zero, List.take_of_length_le (by simp),
        cStore_append _ _ _ _ (by simp) (by simp [hul, C.BLOCK_LEN]), Vector.length_toList, List.drop_drop,
        List.drop_of_length_le (by rw [hul]; decide)]
    have hd : (stackBytes S ++ (s.toList ++ rest)).drop (32 * S.length) = s.toList ++ rest := List.drop_left' hsl
    rw [hmem, cAdvance_ok _ _ (by rw [List.length_append]; omega), bind_ok, hd, b1, bind_ok, b2, bind_ok]
    by_cases h0 : S = []
    · subst h0
      have e' : (Model.hash_one_parent s wh g.chunk.key .root g.chunk.flags g.chunk.platform) = o := Except.ok.inj e
      rw [parent_sim s wh [] h.chunk.key .root h.chunk.flags g.chunk.platform _ (by simp) _ (by simp), bind_ok,
        if_pos (by simp), rc.key, rc.flags, e', memcpy, cLoad, if_pos (by simp), bind_ok, List.drop_zero,
        List.take_left' (by simp), cStore_zero _ _ (by simp; omega), Vector.length_toList]
    · have hne : ¬ (32 * S.length = 0) := by
        have := List.length_pos_iff.2 h0; omega
      rw [parent_sim s wh [] h.chunk.key .notRoot h.chunk.flags g.chunk.platform _ (by simpa using hne) _ (by simp), bind_ok,
        if_neg (by simpa using hne), rc.key, rc.flags]
      obtain ⟨s2, S2, rfl⟩ := List.exists_cons_of_ne_nil h0
      rw [Hasher.finalize_loop] at e
      · rw [List.drop_of_length_le (by simp), List.append_nil, subSz_le (by simp only [C.OUT_LEN]; omega) (by omega)]
        have := ih (s.toList ++ rest) _ fuel o hmem e (by omega) (by omega)
        rw [show 32 * ((s2 :: S2).length - 1) = 32 * (s2 :: S2).length - C.OUT_LEN by
          simp only [C.OUT_LEN, List.length_cons]; omega] at this
        exact this
      · simp

theorem finalize_simR {cfg : C.Config} (h16 : 16 ≤ cfg.bits) {M : Nat} {p : Platform} (bytes : Bytes) (h : C.hasher)
    (g : Model.Hasher) (r : HRel M h g) (hg : HasherOkR key flags p bytes g) (out : Bytes) (ho : 32 ≤ out.length) :
    hasher_finalize cfg h out =
      .ok ((Spec.cvBytes (Spec.compress (asRoot (Spec.subtree key flags 0 bytes)))).toList ++ out.drop 32) := by
  have hp := two_pow_bits h16
  obtain ⟨o, e, -, eo⟩ := finalize_xof_eqR key flags p bytes g hg
  rw [← eo, ← to_hash_eq]
  have hgl : g.chunk.len < 65536 := by
    obtain ⟨cks, tail, -, -, htail, hch, -⟩ := hg.ex
    rw [hch.len]; omega
  have h256 := r.lt
  obtain ⟨rest, hmem⟩ := r.mem
  rw [Hasher.finalize_xof] at e
  have hz : (h.subtree_hashes_len = 0) = (g.subtree_hashes = []) := propext (by
    rw [← List.length_eq_zero_iff, ← r.len]
    constructor
    · intro e; rw [e]; rfl
    · intro e; exact BitVec.eq_of_toNat_eq e)
  have hul := length_uninit cfg C.OUT_LEN
  rw [hasher_finalize, r.chunk.len h16 hgl]
  simp only [hz]
  split at e
  next h0 =>
    rw [if_pos h0]
    exact chunk_finalize_sim r.chunk true rfl e out ho
  next h0 =>
    have hpos : 0 < g.subtree_hashes.length := List.length_pos_iff.2 h0
    have hidx : intSz cfg.bits (((h.subtree_hashes_len.toNat : Int) - 1) * C.OUT_LEN) = 32 * (g.subtree_hashes.length - 1) := by
      rw [r.len, show ((g.subtree_hashes.length : Int) - 1) * (C.OUT_LEN : Nat) = ((32 * (g.subtree_hashes.length - 1) : Nat) : Int) by
        simp only [C.OUT_LEN]; omega, intSz_nat (by omega)]
    rw [if_neg h0]
    split at e
    next hl =>
      obtain ⟨-, -, e⟩ := bind_inv e
      obtain ⟨o1, e1, e⟩ := bind_inv e
      rw [if_pos hl, chunk_finalize_sim r.chunk false rfl e1 _ (Nat.le_of_eq hul.symm), bind_ok,
        List.drop_of_length_le (Nat.le_of_eq hul), List.append_nil, hidx]
      exact finalize_loop_sim h16 r.chunk out ho _ rest _ 256 o hmem e (by omega) h256
    next hl =>
      obtain ⟨u, e1, e⟩ := bind_inv e
      have h2 := assertR_inv e1
      rw [if_neg hl, hidx]
      split at e
      next last S hS =>
        rw [hS] at hmem h2 h256
        rw [List.length_cons] at h2 h256
        rw [stackBytes, List.append_assoc] at hmem
        have hidx2 : intSz cfg.bits (((h.subtree_hashes_len.toNat : Int) - 2) * C.OUT_LEN) = 32 * (S.length - 1) := by
          rw [r.len, hS, List.length_cons, show (((S.length + 1 : Nat) : Int) - 2) * (C.OUT_LEN : Nat) =
            ((32 * (S.length - 1) : Nat) : Int) by simp only [C.OUT_LEN]; omega, intSz_nat (by omega)]
        have hsl := length_stackBytes S
        rw [hS, List.length_cons, Nat.add_sub_cancel, hmem, cAdvance_ok _ _ (by rw [List.length_append]; omega), bind_ok,
          List.drop_left' hsl, memcpy, cLoad, if_pos (by simp), bind_ok, List.drop_zero, List.take_left' (by simp),
          cStore_zero _ _ (by simp [hul]), bind_ok, Vector.length_toList, List.drop_of_length_le (Nat.le_of_eq hul), List.append_nil, hidx2]
        exact finalize_loop_sim h16 r.chunk out ho S (last.toList ++ rest) last 256 o hmem e (by omega) (by omega)
      next => cases e

theorem finalize_sim {cfg : C.Config} (h16 : 16 ≤ cfg.bits) {M : Nat} {p : Platform} (bytes : Bytes) (h : C.hasher)
    (hok : COk key flags M p bytes h) (hlt : bytes.length < 2 ^ 64) (out : Bytes) (ho : 32 ≤ out.length) :
    hasher_finalize cfg h out =
      .ok ((Spec.cvBytes (Spec.compress (asRoot (Spec.subtree key flags 0 bytes)))).toList ++ out.drop 32) := by
  obtain ⟨g, r, hg⟩ := hok
  exact finalize_simR key flags h16 bytes h g r (HasherOkR.of key flags hg hlt) out ho

/-! ## init -/

theorem load_key_words_eq (k : Vector Byte 32) (extra : Bytes) :
    load_key_words (k.toList ++ extra) = .ok (words_from_key_bytes k) := by
  have hl : 32 ≤ (k.toList ++ extra).length := by simp
  have hg : ∀ i (hi : i < 32), (k.toList ++ extra).getD i 0 = k[i] := by
    intro i hi
    rw [List.getD_eq_getElem?_getD, List.getElem?_append_left (by simpa using hi)]
    simp [hi]
  unfold load_key_words
  simp only [load32_eq _ _ (show 4 * 0 + 4 ≤ _ from Nat.le_trans (by decide) hl),
    load32_eq _ _ (show 4 * 1 + 4 ≤ _ from Nat.le_trans (by decide) hl),
    load32_eq _ _ (show 4 * 2 + 4 ≤ _ from Nat.le_trans (by decide) hl),
    load32_eq _ _ (show 4 * 3 + 4 ≤ _ from Nat.le_trans (by decide) hl),
    load32_eq _ _ (show 4 * 4 + 4 ≤ _ from Nat.le_trans (by decide) hl),
    load32_eq _ _ (show 4 * 5 + 4 ≤ _ from Nat.le_trans (by decide) hl),
    load32_eq _ _ (show 4 * 6 + 4 ≤ _ from Nat.le_trans (by decide) hl),
    load32_eq _ _ (show 4 * 7 + 4 ≤ _ from Nat.le_trans (by decide) hl), bind_ok, pure_eq]
  simp only [hg _ (show 4 * 0 < 32 by decide), hg _ (show 4 * 0 + 1 < 32 by decide), hg _ (show 4 * 0 + 2 < 32 by decide),
    hg _ (show 4 * 0 + 3 < 32 by decide),
    hg _ (show 4 * 1 < 32 by decide), hg _ (show 4 * 1 + 1 < 32 by decide), hg _ (show 4 * 1 + 2 < 32 by decide),
    hg _ (show 4 * 1 + 3 < 32 by decide),
    hg _ (show 4 * 2 < 32 by decide), hg _ (show 4 * 2 + 1 < 32 by decide), hg _ (show 4 * 2 + 2 < 32 by decide),
    hg _ (show 4 * 2 + 3 < 32 by decide),
    hg _ (show 4 * 3 < 32 by decide), hg _ (show 4 * 3 + 1 < 32 by decide), hg _ (show 4 * 3 + 2 < 32 by decide),
    hg _ (show 4 * 3 + 3 < 32 by decide),
    hg _ (show 4 * 4 < 32 by decide), hg _ (show 4 * 4 + 1 < 32 by decide), hg _ (show 4 * 4 + 2 < 32 by decide),
    hg _ (show 4 * 4 + 3 < 32 by decide),
    hg _ (show 4 * 5 < 32 by decide), hg _ (show 4 * 5 + 1 < 32 by decide), hg _ (show 4 * 5 + 2 < 32 by decide),
    hg _ (show 4 * 5 + 3 < 32 by decide),
    hg _ (show 4 * 6 < 32 by decide), hg _ (show 4 * 6 + 1 < 32 by decide), hg _ (show 4 * 6 + 2 < 32 by decide),
    hg _ (show 4 * 6 + 3 < 32 by decide),
    hg _ (show 4 * 7 < 32 by decide), hg _ (show 4 * 7 + 1 < 32 by decide), hg _ (show 4 * 7 + 2 < 32 by decide),
    hg _ (show 4 * 7 + 3 < 32 by decide)]
  rfl

theorem init_ok (mem : Bytes) (k : Vector Byte 32) (extra : Bytes) (flags : Byte) :
    ∃ h, hasher_init mem (k.toList ++ extra) flags = .ok h ∧
      COk (words_from_key_bytes k) flags mem.length (Platform.detect ⟨false, false, false, 64⟩) [] h := by
  refine ⟨_, by rw [hasher_init, load_key_words_eq, bind_ok]; rfl, _, ?_, HasherOk.new _ _ ⟨false, false, false, 64⟩⟩
  exact ⟨CRel.init _ _ _, rfl, ⟨mem, rfl⟩, rfl⟩

/-! ## where the hasher fails -/

theorem popcount_ones (k : Nat) : popcount (2 ^ k - 1) = k := by
  induction k with
  | zero => exact popcount_zero
  | succ k ih =>
    have := Nat.two_pow_pos k
    rw [popcount, if_neg (by omega), show (2 ^ (k + 1) - 1) % 2 = 1 by omega,
      show (2 ^ (k + 1) - 1) / 2 = 2 ^ k - 1 by omega, ih]
    omega

theorem popcount_lt {n k : Nat} (h : n < 2 ^ k - 1) : popcount n < k := by
  obtain ⟨h1, h2⟩ := popcount_le (n := n) (k := k) (by omega)
  rcases Nat.lt_or_ge (popcount n) k with h3 | h3
  · exact h3
  · have := h2 (by omega); omega

theorem failAt_assert {cfg : C.Config} (ha : cfg.asserts = true) {M : Nat} {p : Platform} :
    FailAt key flags cfg M p (2 ^ 52) false .assert := by
  intro h g cks c extra r hm hN hs
  refine push_assert r _ _ ha ?_
  have : Pushed key flags (chunkLeaves key flags 0 cks) g.subtree_hashes := hs
  have hl := this.length
  rw [length_chunkLeaves, hN, popcount_ones 52] at hl
  omega

theorem failAt_ub {cfg : C.Config} (h16 : 16 ≤ cfg.bits) {M : Nat} (hM : M < 1696) {p : Platform} :
    FailAt key flags cfg M p (2 ^ 52 - 1) true .ub := by
  intro h g cks c extra r hm hN hs
  have hs' : StackOk key flags (chunkLeaves key flags 0 cks) g.subtree_hashes := hs
  obtain ⟨S, e, hS⟩ := push_chunk_hash_eq key flags g cks.length (chunkLeaves key flags 0 cks)
    (.leaf (Spec.chunk key flags (2048 * cks.length) c)) hm.chunk.hkey hm.chunk.hflags hm.stack
    (length_chunkLeaves ..) (by omega)
  have hSl := hS.length
  rw [List.length_append, List.length_singleton, Nat.add_sub_cancel, length_chunkLeaves, hN, popcount_ones 52] at hSl
  have hle := stack_le key flags hs'
  rw [length_chunkLeaves, hN] at hle
  have := popcount_lt (n := 2 ^ 52 - 1 - 1) (k := 52) (by decide)
  rw [← hm.chunk.hoff, ← r.chunk.offset] at e
  exact push_ub h16 r _ extra _ e (fun _ => by omega) (by show M < 32 * S.length; omega)

end

end Baokeshed.Proofs.C
