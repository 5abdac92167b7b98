import Verif.Model.C.Pointer
import Verif.Proofs.C.HasherExact

/-! # C: null pointers -/

set_option linter.unusedVariables false
set_option linter.unusedSimpArgs false

namespace Baokeshed.Proofs.C
open Baokeshed.Model Baokeshed.Model.C
attribute [local irreducible] Spec.compress Spec.cvBytes

/-! ## pointers into objects -/

section
variable (z : Bool) (cfg : C.Config)

theorem p_fill_buf (s : chunk_state) (b : Bytes) (n : Nat) :
    P.chunk_state_fill_buf z cfg s (some b) n = C.chunk_state_fill_buf cfg s b n := rfl

theorem p_advance (b : Bytes) (n : Nat) : P.advance z (some b) n = (cAdvance b n).map some := by
  rw [P.advance]; cases cAdvance b n <;> rfl

/-- results with a pointer in the middle -/
def viaPtr {α β : Type} (x : R (α × Bytes × β)) : R (α × P.Ptr × β) := x.map fun (a, b, c) => (a, some b, c)

theorem p_first (s : chunk_state) (b : Bytes) (n : Nat) :
    P.chunk_state_update_first z cfg s (some b) n = viaPtr (C.chunk_state_update_first cfg s b n) := by
  rw [P.chunk_state_update_first, C.chunk_state_update_first]
  split
  · rw [p_fill_buf]
    cases C.chunk_state_fill_buf cfg s b n with
    | error e => rfl
    | ok x =>
      obtain ⟨s1, t⟩ := x
      simp only [bind_ok, p_advance]
      cases cAdvance b t with
      | error e => rfl
      | ok b1 =>
        simp only [Except.map, bind_ok]
        split
        · cases C.compress cfg s1.state s1.buf _ s1.offset _ with
          | error e => rfl
          | ok st => rfl
        · rfl
  · rfl

theorem p_blocks (s : chunk_state) (b : Bytes) (n : Nat) :
    P.chunk_state_update_blocks z cfg s (some b) n = viaPtr (C.chunk_state_update_blocks cfg s b n) := by
  induction n using Nat.strongRecOn generalizing s b with
  | ind n ih =>
    rw [P.chunk_state_update_blocks, C.chunk_state_update_blocks]
    split
    next h =>
      simp only [P.deref, bind_ok, p_advance]
      cases C.compress cfg s.state b _ s.offset _ with
      | error e => rfl
      | ok st =>
        simp only [bind_ok]
        cases cAdvance b C.BLOCK_LEN with
        | error e => rfl
        | ok b1 =>
          simp only [Except.map, bind_ok]
          exact ih _ (by simp only [C.BLOCK_LEN] at *; omega) _ _
    next => rfl

theorem p_chunk_update (s : chunk_state) (b : Bytes) (n : Nat) :
    P.chunk_state_update z cfg s (some b) n = C.chunk_state_update cfg s b n := by
  rw [P.chunk_state_update, C.chunk_state_update, p_first]
  cases C.chunk_state_update_first cfg s b n with
  | error e => rfl
  | ok x =>
    obtain ⟨s1, b1, n1⟩ := x
    simp only [viaPtr, Except.map, bind_ok]
    rw [p_blocks]
    cases C.chunk_state_update_blocks cfg s1 b1 n1 with
    | error e => rfl
    | ok x =>
      obtain ⟨s2, b2, n2⟩ := x
      simp only [viaPtr, Except.map, bind_ok, p_fill_buf]
      cases C.chunk_state_fill_buf cfg s2 b2 n2 with
      | error e => rfl
      | ok x =>
        obtain ⟨s3, t⟩ := x
        simp only [bind_ok, p_advance]
        cases cAdvance b2 t <;> rfl

theorem p_collect (chunks : List Bytes) (b : Bytes) (n k : Nat) :
    P.collect_chunks z chunks (some b) n k = viaPtr (C.collect_chunks chunks b n k) := by
  induction hk : C.MAX_SIMD_DEGREE - k generalizing chunks b n k with
  | zero =>
    rw [P.collect_chunks, C.collect_chunks, if_neg (by simp only [C.MAX_SIMD_DEGREE] at *; omega), if_neg (by simp only [C.MAX_SIMD_DEGREE] at *; omega)]
    rfl
  | succ j ih =>
    rw [P.collect_chunks, C.collect_chunks]
    split
    next h =>
      simp only [P.deref, bind_ok, p_advance]
      cases cStore chunks k [b] with
      | error e => rfl
      | ok c =>
        simp only [bind_ok]
        cases cAdvance b C.CHUNK_LEN with
        | error e => rfl
        | ok b1 =>
          simp only [Except.map, bind_ok]
          exact ih _ _ _ _ (by simp only [C.MAX_SIMD_DEGREE] at *; omega)
    next => rfl

theorem p_loop_def (h : hasher) (out : Bytes) (chunks : List Bytes) (p : P.Ptr) (n : Nat) :
    P.update_loop z cfg h out chunks p n =
    if n ≥ C.CHUNK_LEN then
      (P.collect_chunks z chunks p n 0).bind fun (chunks, p, n, k) =>
        (C.hash_many cfg chunks k (C.CHUNK_LEN / C.BLOCK_LEN) h.chunk.key h.chunk.offset
          CHUNK_OFFSET_DELTAS h.chunk.flags C.CHUNK_START C.CHUNK_END out).bind fun out =>
        (push_chunks cfg h out 0 k).bind fun h => P.update_loop z cfg h out chunks p n
    else .ok (h, p, n) := by
  conv => lhs; rw [P.update_loop]
  split
  · split
    next e => rw [e]; rfl
    next e => rw [e]; rfl
  · rfl

theorem loop_def (h : hasher) (out : Bytes) (chunks : List Bytes) (p : Bytes) (n : Nat) :
    C.update_loop cfg h out chunks p n =
    if n ≥ C.CHUNK_LEN then
      (C.collect_chunks chunks p n 0).bind fun (chunks, p, n, k) =>
        (C.hash_many cfg chunks k (C.CHUNK_LEN / C.BLOCK_LEN) h.chunk.key h.chunk.offset
          CHUNK_OFFSET_DELTAS h.chunk.flags C.CHUNK_START C.CHUNK_END out).bind fun out =>
        (push_chunks cfg h out 0 k).bind fun h => C.update_loop cfg h out chunks p n
    else .ok (h, p, n) := by
  conv => lhs; rw [C.update_loop]
  split
  · split
    next e => rw [e]; rfl
    next e => rw [e]; rfl
  · rfl

theorem p_loop (h : hasher) (out : Bytes) (chunks : List Bytes) (b : Bytes) (n : Nat) :
    P.update_loop z cfg h out chunks (some b) n = viaPtr (C.update_loop cfg h out chunks b n) := by
  induction n using Nat.strongRecOn generalizing h out chunks b with
  | ind n ih =>
    rw [p_loop_def, loop_def, p_collect]
    split
    next hn =>
      cases hc : C.collect_chunks chunks b n 0 with
      | error e => rfl
      | ok x =>
        obtain ⟨c, b1, n1, k⟩ := x
        have hlt := C.collect_lt hn hc
        simp only [viaPtr, Except.map, Except.bind]
        cases C.hash_many cfg c k _ _ _ _ _ _ _ _ with
        | error e => rfl
        | ok out1 =>
          dsimp only
          cases push_chunks cfg h out1 0 k with
          | error e => rfl
          | ok h1 => exact ih n1 hlt _ _ _ _
    next => rfl

theorem p_rest (h : hasher) (b : Bytes) (n : Nat) :
    P.hasher_update_rest z cfg h (some b) n = C.hasher_update_rest cfg h b n := by
  rw [P.hasher_update_rest, C.hasher_update_rest]
  dsimp only
  rw [p_loop]
  cases C.update_loop cfg h _ _ b n with
  | error e => rfl
  | ok x =>
    obtain ⟨h1, b1, n1⟩ := x
    simp only [viaPtr, Except.map, bind_ok, p_chunk_update]

theorem p_update (h : hasher) (b : Bytes) (n : Nat) :
    P.hasher_update z cfg h (some b) n = C.hasher_update cfg h b n := by
  rw [P.hasher_update, C.hasher_update]
  simp only [p_chunk_update, p_rest, p_advance]
  split
  · cases C.chunk_state_update cfg h.chunk b _ with
    | error e => rfl
    | ok c =>
      simp only [bind_ok]
      cases cAdvance b _ with
      | error e => rfl
      | ok b1 => simp only [Except.map, bind_ok, p_rest]
  · rfl

/-! ## what must be readable -/

theorem p_memcpy_inv {z : Bool} {dst r : Bytes} {off n : Nat} {p : P.Ptr} (e : P.memcpy z dst off p n = .ok r) : n ≤ P.Ptr.avail p := by
  cases p with
  | none =>
    rw [P.memcpy] at e
    split at e
    next h => rw [h.2]; exact Nat.zero_le _
    next => cases e
  | some b =>
    rw [P.memcpy, C.memcpy] at e
    obtain ⟨d, e1, -⟩ := bind_inv e
    rw [cLoad] at e1
    split at e1
    next h => rw [P.Ptr.avail]; omega
    next => cases e1

theorem p_advance_inv {z : Bool} {n : Nat} {p q : P.Ptr} (e : P.advance z p n = .ok q) : P.Ptr.avail p = n + P.Ptr.avail q := by
  cases p with
  | none =>
    rw [P.advance] at e
    split at e
    next h => cases e; rw [h.2, Nat.zero_add]
    next => cases e
  | some b =>
    rw [p_advance, cAdvance] at e
    split at e
    next h => cases e; simp only [P.Ptr.avail, List.length_drop]; omega
    next => cases e

theorem p_fill_inv {z : Bool} {cfg : C.Config} {s s' : chunk_state} {p : P.Ptr} {n t : Nat}
    (e : P.chunk_state_fill_buf z cfg s p n = .ok (s', t)) :
    t = min (subSz cfg.bits C.BLOCK_LEN s.buf_len.toNat) n ∧ t ≤ P.Ptr.avail p := by
  rw [P.chunk_state_fill_buf] at e
  obtain ⟨b, e1, e2⟩ := bind_inv e
  have := p_memcpy_inv e1
  cases e2
  refine ⟨?_, this⟩
  split <;> omega

theorem p_blocks_inv {z : Bool} {cfg : C.Config} {s s' : chunk_state} {p p' : P.Ptr} {n n' : Nat}
    (e : P.chunk_state_update_blocks z cfg s p n = .ok (s', p', n')) :
    s'.buf_len = s.buf_len ∧ n' ≤ 64 ∧ (n ≠ 0 → n' ≠ 0) ∧ P.Ptr.avail p + n' = n + P.Ptr.avail p' := by
  induction n using Nat.strongRecOn generalizing s p with
  | ind n ih =>
    rw [P.chunk_state_update_blocks] at e
    split at e
    next h =>
      obtain ⟨b, -, e⟩ := bind_inv e
      obtain ⟨st, -, e⟩ := bind_inv e
      obtain ⟨q, e1, e⟩ := bind_inv e
      have := p_advance_inv e1
      simp only [C.BLOCK_LEN] at *
      obtain ⟨h1, h2, h3, h4⟩ := ih _ (by omega) e
      exact ⟨h1, h2, fun _ => h3 (by omega), by omega⟩
    next h =>
      cases e
      simp only [C.BLOCK_LEN] at h
      exact ⟨rfl, by omega, id, by omega⟩

theorem p_first_inv {z : Bool} {cfg : C.Config} {s s' : chunk_state} {p p' : P.Ptr} {n n' : Nat}
    (e : P.chunk_state_update_first z cfg s p n = .ok (s', p', n')) :
    (n' ≠ 0 → s'.buf_len = 0) ∧ P.Ptr.avail p + n' = n + P.Ptr.avail p' := by
  rw [P.chunk_state_update_first] at e
  split at e
  next h =>
    obtain ⟨⟨s1, t⟩, e1, e⟩ := bind_inv e
    obtain ⟨q, e2, e⟩ := bind_inv e
    obtain ⟨h1, h2⟩ := p_fill_inv e1
    have h3 := p_advance_inv e2
    dsimp only at e
    split at e
    next h4 =>
      obtain ⟨st, -, e⟩ := bind_inv e
      cases e
      exact ⟨fun _ => rfl, by omega⟩
    next h4 =>
      cases e
      exact ⟨fun h => absurd (Nat.pos_of_ne_zero h) h4, by omega⟩
  next h =>
    cases e
    refine ⟨fun _ => ?_, by omega⟩
    apply BitVec.eq_of_toNat_eq
    simp only [gt_iff_lt, BitVec.lt_def] at h
    have : (0 : Byte).toNat = 0 := rfl
    omega

/-- Whatever the state: all `n` bytes are read. -/
theorem p_chunk_reads {z : Bool} {cfg : C.Config} (h16 : 16 ≤ cfg.bits) {s s' : chunk_state} {p : P.Ptr} {n : Nat}
    (e : P.chunk_state_update z cfg s p n = .ok s') : n ≤ P.Ptr.avail p := by
  rw [P.chunk_state_update] at e
  obtain ⟨⟨s1, p1, n1⟩, e1, e⟩ := bind_inv e
  obtain ⟨⟨s2, p2, n2⟩, e2, e⟩ := bind_inv e
  obtain ⟨⟨s3, t⟩, e3, e⟩ := bind_inv e
  obtain ⟨q, e4, e⟩ := bind_inv e
  obtain ⟨a1, a2⟩ := p_first_inv e1
  obtain ⟨b1, b2, b3, b4⟩ := p_blocks_inv e2
  obtain ⟨c1, c2⟩ := p_fill_inv e3
  dsimp only at *
  by_cases h0 : n1 = 0
  · by_cases h1 : n2 = 0
    · omega
    · omega
  · rw [b1, a1 h0] at c1
    have : subSz cfg.bits C.BLOCK_LEN (0 : Byte).toNat = 64 := by
      rw [show (0 : Byte).toNat = 0 from rfl]
      exact subSz_le (a := 64) (by decide) (by
        have : 2 ^ 16 ≤ 2 ^ cfg.bits := Nat.pow_le_pow_right (by decide) h16
        omega)
    rw [this, Nat.min_eq_right b2] at c1
    omega

theorem p_collect_inv {z : Bool} {chunks c : List Bytes} {p q : P.Ptr} {n k n' k' : Nat}
    (e : P.collect_chunks z chunks p n k = .ok (c, q, n', k')) : P.Ptr.avail p + n' = n + P.Ptr.avail q := by
  induction hk : C.MAX_SIMD_DEGREE - k generalizing chunks p n k with
  | zero =>
    rw [P.collect_chunks, if_neg (by simp only [C.MAX_SIMD_DEGREE] at *; omega)] at e
    cases e; omega
  | succ j ih =>
    rw [P.collect_chunks] at e
    split at e
    next h =>
      obtain ⟨b, -, e⟩ := bind_inv e
      obtain ⟨c1, -, e⟩ := bind_inv e
      obtain ⟨q1, e1, e⟩ := bind_inv e
      have := p_advance_inv e1
      have := ih e (by simp only [C.MAX_SIMD_DEGREE] at *; omega)
      omega
    next => cases e; omega

theorem p_loop_inv {z : Bool} {cfg : C.Config} {h h' : hasher} {out : Bytes} {chunks : List Bytes} {p q : P.Ptr} {n n' : Nat}
    (e : P.update_loop z cfg h out chunks p n = .ok (h', q, n')) : P.Ptr.avail p + n' = n + P.Ptr.avail q := by
  induction n using Nat.strongRecOn generalizing h out chunks p with
  | ind n ih =>
    rw [p_loop_def] at e
    split at e
    next hn =>
      obtain ⟨⟨c, p1, n1, k⟩, e1, e⟩ := bind_inv e
      obtain ⟨o, -, e⟩ := bind_inv e
      obtain ⟨h1, -, e⟩ := bind_inv e
      have := p_collect_inv e1
      have := ih n1 (P.collect_lt _ hn e1) e
      omega
    next => cases e; omega

theorem p_rest_reads {z : Bool} {cfg : C.Config} (h16 : 16 ≤ cfg.bits) {h h' : hasher} {p : P.Ptr} {n : Nat}
    (e : P.hasher_update_rest z cfg h p n = .ok h') : n ≤ P.Ptr.avail p := by
  rw [P.hasher_update_rest] at e
  obtain ⟨⟨h1, p1, n1⟩, e1, e⟩ := bind_inv e
  have := p_loop_inv e1
  dsimp only at e
  split at e
  next h2 =>
    obtain ⟨h3, -, e⟩ := bind_inv e
    obtain ⟨c, e2, -⟩ := bind_inv e
    have := p_chunk_reads h16 e2
    omega
  next => omega

theorem p_update_reads {z : Bool} {cfg : C.Config} (h16 : 16 ≤ cfg.bits) {h h' : hasher} {p : P.Ptr} {n : Nat}
    (e : P.hasher_update z cfg h p n = .ok h') : n ≤ P.Ptr.avail p := by
  rw [P.hasher_update] at e
  dsimp only at e
  split at e
  next hc =>
    generalize (if subSz cfg.bits C.CHUNK_LEN (chunk_state_len cfg h.chunk) > n then n
      else subSz cfg.bits C.CHUNK_LEN (chunk_state_len cfg h.chunk)) = t at e
    obtain ⟨c, e1, e⟩ := bind_inv e
    obtain ⟨q, e2, e⟩ := bind_inv e
    have h1 := p_chunk_reads h16 e1
    have h2 := p_advance_inv e2
    split at e
    next h3 =>
      obtain ⟨o, -, e⟩ := bind_inv e
      obtain ⟨h4, -, e⟩ := bind_inv e
      have := p_rest_reads h16 e
      omega
    next h3 => omega
  next => exact p_rest_reads h16 e

/-! ## null and the length 0 -/

theorem p_chunk_null_strict (cfg : C.Config) (s : chunk_state) : P.chunk_state_update false cfg s none 0 = .error .ub := by
  rw [P.chunk_state_update, P.chunk_state_update_first]
  have hf : ∀ s, P.chunk_state_fill_buf false cfg s none 0 = .error .ub := by
    intro s
    rw [P.chunk_state_fill_buf, P.memcpy, if_neg (by simp)]
    rfl
  split
  · rw [hf]; rfl
  · rw [bind_ok]
    dsimp only
    rw [P.chunk_state_update_blocks, if_neg (by simp), bind_ok]
    dsimp only
    rw [hf]; rfl

theorem p_chunk_null_zero (cfg : C.Config) (s : chunk_state) (hb : s.buf_len.toNat ≤ s.buf.length) :
    P.chunk_state_update true cfg s none 0 = .ok s := by
  have hf : P.chunk_state_fill_buf true cfg s none 0 = .ok (s, 0) := by
    rw [P.chunk_state_fill_buf]
    have : (if subSz cfg.bits C.BLOCK_LEN s.buf_len.toNat > 0 then 0 else subSz cfg.bits C.BLOCK_LEN s.buf_len.toNat) = 0 := by
      split <;> omega
    rw [this, P.memcpy, if_pos ⟨rfl, rfl⟩, cStore, if_pos (by simpa using hb), bind_ok]
    simp [pure, Except.pure]
  have ha : P.advance true none 0 = .ok none := by rw [P.advance, if_pos ⟨rfl, rfl⟩]
  have h1 : P.chunk_state_update_first true cfg s none 0 = .ok (s, none, 0) := by
    rw [P.chunk_state_update_first]
    split
    · rw [hf, bind_ok]
      dsimp only
      rw [ha, bind_ok, if_neg (by simp)]
      rfl
    · rfl
  rw [P.chunk_state_update, h1, bind_ok]
  dsimp only
  rw [P.chunk_state_update_blocks, if_neg (by simp), bind_ok]
  dsimp only
  rw [hf, bind_ok]
  dsimp only
  rw [ha, bind_ok]
  rfl

theorem p_update_null (z : Bool) (cfg : C.Config) (h : hasher) (hb : h.chunk.buf_len.toNat ≤ h.chunk.buf.length) :
    P.hasher_update z cfg h none 0 = if z = true ∨ chunk_state_len cfg h.chunk = 0 then .ok h else .error .ub := by
  rw [P.hasher_update]
  dsimp only
  have ht : (if subSz cfg.bits C.CHUNK_LEN (chunk_state_len cfg h.chunk) > 0 then 0
      else subSz cfg.bits C.CHUNK_LEN (chunk_state_len cfg h.chunk)) = 0 := by split <;> omega
  by_cases hl : chunk_state_len cfg h.chunk = 0
  · rw [if_neg (by rintro (⟨-, h⟩ | h); exact absurd h (by decide); omega), if_pos (Or.inr hl), P.hasher_update_rest]
    dsimp only
    rw [p_loop_def, if_neg (by decide), bind_ok]
    rfl
  · rw [if_pos (Or.inr (Nat.pos_of_ne_zero hl)), ht]
    cases z with
    | false => rw [p_chunk_null_strict, if_neg (by simp [hl])]; rfl
    | true =>
      rw [p_chunk_null_zero cfg _ hb, bind_ok, P.advance, if_pos ⟨rfl, rfl⟩, bind_ok, if_neg (by simp), if_pos (Or.inl rfl)]
      rfl

/-! ## which bytes stay in the chunk state -/

theorem merge_loop_chunk {cfg : C.Config} {h h' : hasher} {off : U64} (e : merge_loop cfg h off = .ok h') : h'.chunk = h.chunk := by
  induction hk : h.subtree_hashes_len.toNat using Nat.strongRecOn generalizing h with
  | ind n ih =>
    rw [merge_loop] at e
    split at e
    next hn =>
      split at e
      next => cases e
      next h1 e1 =>
        have hc : h1.chunk = h.chunk := by
          rw [hasher_merge_parent] at e1
          obtain ⟨b, -, e1⟩ := bind_inv e1
          obtain ⟨o, -, e1⟩ := bind_inv e1
          obtain ⟨m, -, e1⟩ := bind_inv e1
          cases e1; rfl
        have hl : h1.subtree_hashes_len.toNat < n := by
          rw [hasher_merge_parent_len e1, BitVec.toNat_sub]
          simp only [hasher_needs_merge, gt_iff_lt, decide_eq_true_eq, BitVec.lt_def] at hn
          have := h.subtree_hashes_len.isLt
          have h1 : (1 : Byte).toNat = 1 := rfl
          omega
        rw [← hc]
        exact ih _ hl e rfl
    next => cases e; rfl

theorem push_chunk {cfg : C.Config} {h h' : hasher} {x : Bytes} {off : U64} (e : hasher_push_chunk_hash cfg h x off = .ok h') :
    h'.chunk = h.chunk := by
  rw [hasher_push_chunk_hash] at e
  obtain ⟨-, -, e⟩ := bind_inv e
  obtain ⟨h1, e1, e⟩ := bind_inv e
  obtain ⟨m, -, e⟩ := bind_inv e
  cases e
  show h1.chunk = h.chunk
  exact merge_loop_chunk e1

theorem push_chunks_len {cfg : C.Config} {h h' : hasher} {out : Bytes} {i left : Nat} (e : push_chunks cfg h out i left = .ok h') :
    chunk_state_len cfg h'.chunk = chunk_state_len cfg h.chunk := by
  induction left generalizing h i with
  | zero => cases e; rfl
  | succ left ih =>
    rw [push_chunks] at e
    obtain ⟨x, -, e⟩ := bind_inv e
    obtain ⟨h1, e1, e⟩ := bind_inv e
    rw [ih e, ← push_chunk e1]
    simp only [chunk_state_len]

theorem collect_mod {chunks c : List Bytes} {b b' : Bytes} {n k n' k' : Nat}
    (e : C.collect_chunks chunks b n k = .ok (c, b', n', k')) : n' % 2048 = n % 2048 := by
  induction hk : C.MAX_SIMD_DEGREE - k generalizing chunks b n k with
  | zero =>
    rw [C.collect_chunks, if_neg (by simp only [C.MAX_SIMD_DEGREE] at *; omega)] at e
    cases e; rfl
  | succ j ih =>
    rw [C.collect_chunks] at e
    split at e
    next h =>
      obtain ⟨c1, -, e⟩ := bind_inv e
      obtain ⟨q1, e1, e⟩ := bind_inv e
      have := ih e (by simp only [C.MAX_SIMD_DEGREE] at *; omega)
      simp only [C.CHUNK_LEN] at h this
      omega
    next => cases e; rfl

theorem loop_len {cfg : C.Config} {h h' : hasher} {out : Bytes} {chunks : List Bytes} {b b' : Bytes} {n n' : Nat}
    (e : C.update_loop cfg h out chunks b n = .ok (h', b', n')) :
    chunk_state_len cfg h'.chunk = chunk_state_len cfg h.chunk ∧ n' = n % 2048 := by
  induction n using Nat.strongRecOn generalizing h out chunks b with
  | ind n ih =>
    rw [loop_def] at e
    split at e
    next hn =>
      obtain ⟨⟨c, p1, n1, k⟩, e1, e⟩ := bind_inv e
      obtain ⟨o, -, e⟩ := bind_inv e
      obtain ⟨h1, e2, e⟩ := bind_inv e
      obtain ⟨h3, h4⟩ := ih n1 (C.collect_lt hn e1) e
      exact ⟨h3.trans (push_chunks_len e2), h4.trans (collect_mod e1)⟩
    next hn =>
      cases e
      simp only [C.CHUNK_LEN] at hn
      exact ⟨rfl, by omega⟩

theorem rest_len {cfg : C.Config} {h h' : hasher} {b : Bytes} {n : Nat} (hn : n % 2048 = 0)
    (e : C.hasher_update_rest cfg h b n = .ok h') : chunk_state_len cfg h'.chunk = chunk_state_len cfg h.chunk := by
  rw [C.hasher_update_rest] at e
  obtain ⟨⟨h1, p1, n1⟩, e1, e⟩ := bind_inv e
  obtain ⟨h2, h3⟩ := loop_len e1
  dsimp only at e
  rw [if_neg (by omega)] at e
  cases e
  exact h2

section
variable (key : Vector Word 8) (flags : Byte)

theorem COkR.buf {M : Nat} {p : Platform} {bytes : Bytes} {h : C.hasher} (hok : COkR key flags M p bytes h) :
    h.chunk.buf_len.toNat ≤ h.chunk.buf.length := by
  obtain ⟨g, r, hg⟩ := hok
  obtain ⟨cks, tail, rfl, hcks, htail, hch, hst, hlt⟩ := hg.ex
  obtain ⟨pre, b, -, -, -, hb, hb64, -⟩ := hch.split
  rw [r.chunk.buf, r.chunk.buf_len, Vector.length_toList, ← hb]
  exact hb64

/-- When the chunk state is empty after an update. -/
theorem update_held {cfg : C.Config} (h16 : 16 ≤ cfg.bits) {M : Nat} (hM : M ≤ 1696) (h32 : 32 ≤ M) {p : Platform} (bytes input extra : Bytes)
    (h h' : C.hasher) (hok : COkR key flags M p bytes h) (hn : (cfg.neon = true → cfg.order = .little) ∨ input.length < 2048)
    (e : hasher_update cfg h (input ++ extra) input.length = .ok h') :
    chunk_state_len cfg h'.chunk = 0 ↔ bytes.length + input.length = 0 ∨
      (2048 < bytes.length + input.length ∧ (bytes.length + input.length) % 2048 = 0 ∧
        (2048 ≤ input.length ∨ input.length = 0 ∧ chunk_state_len cfg h.chunk = 0)) := by
  obtain ⟨cks', tail', hlen', hl', hlt', hst'⟩ : ∃ cks' tail' : Nat, chunk_state_len cfg h'.chunk = tail' ∧
      bytes.length + input.length = 2048 * cks' + tail' ∧ tail' ≤ 2048 ∧ (0 < tail' ∨ cks' = 0 ∨ 2 ≤ cks') := by
    rcases update_exact key flags h16 hM h32 bytes input extra h hok hn with ⟨-, h1, e1, hok1⟩ | ⟨-, err, e1, -⟩
    · obtain rfl := Except.ok.inj (e1.symm.trans e)
      obtain ⟨g, r, hg⟩ := hok1
      obtain ⟨cks, tail, heq, hcks, htail, hch, hst, hlt⟩ := hg.ex
      have hl := congrArg List.length heq
      rw [List.length_append, List.length_append, length_flatten cks hcks] at hl
      have hcl := hch.len
      have hlen := r.chunk.len h16 (by rw [hcl]; omega)
      rw [hcl] at hlen
      refine ⟨cks.length, tail.length, hlen, hl, htail, ?_⟩
      rcases hst with ⟨h | h, -⟩ | ⟨-, h, -⟩
      · exact Or.inl (List.length_pos_iff.2 h)
      · exact Or.inr (Or.inl (by rw [h]; rfl))
      · exact Or.inr (Or.inr h)
    · rw [e1] at e; cases e
  obtain ⟨g, r, hg⟩ := hok
  obtain ⟨cks, tail, rfl, hcks, htail, hch, hst, hlt⟩ := hg.ex
  have hfl := length_flatten cks hcks
  have hcl := hch.len
  have hlen := r.chunk.len h16 (by rw [hcl]; omega)
  rw [hcl] at hlen
  have hoff0 := offset_zero_iff key flags hch (by omega)
  rw [← r.chunk.offset] at hoff0
  have hbl : (cks.flatten ++ tail).length = 2048 * cks.length + tail.length := by rw [List.length_append, hfl]
  rw [hbl] at hl' ⊢
  rw [hlen]
  by_cases hc : (h.chunk.offset = 0 ∧ input.length = C.CHUNK_LEN) ∨ chunk_state_len cfg h.chunk > 0
  · have hcanon : g.subtree_hashes = (canon (chunkLeaves key flags 0 cks)).map (hashOf key flags) := by
      rcases hst with ⟨-, h⟩ | ⟨h1, h2, -⟩
      · exact h
      · exfalso
        rw [hlen, h1] at hc
        rcases hc with ⟨h, -⟩ | h
        · have := hoff0.1 h; omega
        · simp at h
    have htc : 0 < tail.length ∨ cks.length = 0 ∧ input.length = 2048 := by
      rw [hlen] at hc
      rcases hc with ⟨h, h'⟩ | h
      · exact Or.inr ⟨hoff0.1 h, h'⟩
      · exact Or.inl h
    rcases update_head_exact key flags h16 hM cks tail h g input extra r hcks htail hch hcanon hlt hc with
      ⟨h1, g1, hil, e1, r1, hch1, hs1⟩ | ⟨hil, hlt1, hroom, h1, g1, e1, r1, hm1, hp1⟩ | ⟨hil, hroom, err, e1, hb⟩
    · obtain rfl := Except.ok.inj (e1.symm.trans e)
      have hcl1 := hch1.len
      have hal : (tail ++ input).length = tail.length + input.length := List.length_append
      have hlen1 := r1.chunk.len h16 (by rw [hcl1]; omega)
      rw [hcl1] at hlen1
      rw [hlen1]
      omega
    · rw [e1] at e
      have hdl : (input.drop (2048 - tail.length)).length = input.length - (2048 - tail.length) := List.length_drop
      have hcl1 := hm1.chunk.len
      have hlen1 := r1.chunk.len h16 (by rw [hcl1]; simp)
      rw [hcl1, List.length_nil] at hlen1
      constructor
      · intro h0
        omega
      · intro h0
        rw [rest_len (by omega) e, hlen1]
    · rw [e1] at e; cases e
  · have ht0 : tail.length = 0 := by
      rw [hlen] at hc
      omega
    rw [hasher_update] at e
    dsimp only at e
    rw [if_neg hc] at e
    constructor
    · intro h0
      omega
    · intro h0
      rw [rest_len (by omega) e, hlen, ht0]

end

end

end Baokeshed.Proofs.C
