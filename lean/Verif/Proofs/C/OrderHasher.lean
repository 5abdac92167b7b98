import Verif.Proofs.C.Hasher
import Verif.Proofs.C.NeonOrder

/-!
# The C hasher with the NEON back end on a host of any byte order, for one chunk and a rest
-/

set_option linter.unusedVariables false

namespace Baokeshed.Proofs.C
open Baokeshed.Model Baokeshed.Model.C Baokeshed.Spec

attribute [local irreducible] Spec.compress Spec.cvBytes Spec.outBytes

/-- the batch of `hasher_update` that consists of one chunk -/
theorem batch_one (cfg : C.Config) (h512 : cfg.avx512 = false) (h2 : cfg.avx2 = false) (h41 : cfg.sse41 = false)
    (hneon : cfg.neon = true) (key : Vector Word 8) (flags : Byte) (off : U64) (chunks : List Bytes) (hc : 1 ≤ chunks.length)
    (hl : 2048 ≤ (chunks.getD 0 []).length) (out : Bytes) (ho : 32 ≤ out.length) :
    C.hash_many cfg chunks 1 (C.CHUNK_LEN / C.BLOCK_LEN) key off CHUNK_OFFSET_DELTAS flags C.CHUNK_START C.CHUNK_END out =
      .ok (Neon.oneRes cfg.order key flags C.CHUNK_START C.CHUNK_END 32 off (chunks.getD 0 []) ++ out.drop 32) := by
  rw [C.hash_many, h512, h2, h41, hneon]
  simp only [Bool.false_eq_true, if_false, if_true]
  rw [C.Neon.hash_many_neon, show C.CHUNK_LEN / C.BLOCK_LEN = 32 from rfl,
    Neon.loop4_swap cfg.order key (BitVec.ofNat 64 2048) flags C.CHUNK_START C.CHUNK_END 32 _
    (fun i hi => Props.chunk_deltas i (by omega)) 1 chunks off out hc (fun i hi => by
      obtain rfl : i = 0 := by omega
      exact hl) ho]
  simp [Neon.cat]

theorem chain_chunk (key : Vector Word 8) (flags : Byte) (c rest : Bytes) (hc : c.length = 2048) :
    Spec.blockChain key 0 flags C.CHUNK_START C.CHUNK_END 32 (c ++ rest) = Spec.compress (Spec.chunk key flags 0 c) := by
  have hl : 64 * 32 ≤ (c ++ rest).length := by rw [List.length_append]; omega
  rw [← cvLoop_chain _ _ _ _ _ _ _ hl, show 64 * 32 = 2048 from rfl, List.take_left' hc]
  exact cvLoop_chunk flags _ key _ _ (by omega) (by intro e; rw [e] at hc; cases hc)

/-- The hasher with the NEON back end, after one update with a chunk and a shorter rest. -/
theorem two_chunks {cfg : C.Config} (h16 : 16 ≤ cfg.bits) (h512 : cfg.avx512 = false) (h2 : cfg.avx2 = false)
    (h41 : cfg.sse41 = false) (hneon : cfg.neon = true) (mem : Bytes) (hM : 32 ≤ mem.length) (k : Vector Byte 32)
    (beyond : Bytes) (flags : Byte) (c tail extra : Bytes) (hc : c.length = 2048) (ht0 : 0 < tail.length)
    (ht : tail.length < 2048) (x : Vector Byte 32)
    (hx : x.toList = revGroups (Neon.wk cfg.order)
      (Spec.cvBytes (Spec.compress (Spec.chunk (words_from_key_bytes k) flags 0 c))).toList)
    (out : Bytes) (ho : 32 ≤ out.length) :
    ∃ h₀ h, hasher_init mem (k.toList ++ beyond) flags = .ok h₀ ∧
      hasher_update cfg h₀ (c ++ tail ++ extra) (2048 + tail.length) = .ok h ∧
      hasher_finalize cfg h out = .ok ((Spec.cvBytes (Spec.compress
        { cv := words_from_key_bytes k,
          block := x ++ Spec.cvBytes (Spec.compress (Spec.chunk (words_from_key_bytes k) flags 2048 tail)),
          blockLen := 64, offset := 0, flags := flags ||| Spec.parentFlag ||| Spec.rootFlag })).toList ++ out.drop 32) := by
  obtain ⟨h0, e0, g, r, hg⟩ := init_ok mem k beyond flags
  generalize words_from_key_bytes k = key at *
  obtain ⟨cks, tl, hnil, hcks, htl, hch, hst⟩ := hg.ex
  have hn1 := hnil.symm
  rw [List.append_eq_nil_iff] at hn1
  obtain ⟨hn1, rfl⟩ := hn1
  have hn2 : cks = [] := by
    cases cks with
    | nil => rfl
    | cons a l => have := hcks a (List.mem_cons_self ..); rw [List.flatten_cons, List.append_eq_nil_iff] at hn1; rw [hn1.1] at this; cases this
  subst hn2
  have hs : g.subtree_hashes = [] := by
    rcases hst with ⟨-, h⟩ | ⟨-, h, -⟩
    · rw [h, chunkLeaves, canon_nil]; rfl
    · cases h
  have hlen := r.chunk.len h16 (by rw [hch.len]; decide)
  rw [hch.len] at hlen
  have hoff : h0.chunk.offset = 0 := by rw [r.chunk.offset, hch.hoff]; rfl
  obtain ⟨chunks', e, hl, -, hi⟩ := collect_eq [c] (by simpa using hc) tail extra ht 0 (List.replicate C.MAX_SIMD_DEGREE []) rfl (by omega)
  have hi0 := hi 0 (by simp)
  simp only [Nat.sub_zero, Nat.zero_add] at e hi0
  have hln : 2048 ≤ (chunks'.getD 0 []).length := by
    have := congrArg List.length hi0
    rw [List.length_take] at this
    simp only [List.getD_cons_zero] at this
    omega
  have hsplit : chunks'.getD 0 [] = c ++ (chunks'.getD 0 []).drop 2048 := by
    have := (List.take_append_drop 2048 (chunks'.getD 0 [])).symm
    rw [hi0] at this
    exact this
  have hb := batch_one cfg h512 h2 h41 hneon key flags 0 chunks' (by omega) hln
    (cfg.uninit (C.OUT_LEN * C.MAX_SIMD_DEGREE)) (by rw [length_uninit]; decide)
  rw [Neon.oneRes, hsplit, chain_chunk key flags c _ hc, ← hx] at hb
  -- push
  have em : g.merge_loop 0 = .ok g := by
    rw [Hasher.merge_loop, if_neg (by rw [Hasher.needs_merge, hs]; simp)]
  have ep : g.push_chunk_hash x 0 = .ok { g with subtree_hashes := [x] } := by
    rw [Hasher.push_chunk_hash, em, bind_ok, if_pos (by rw [hs]; decide), hs]
  obtain ⟨h1, f1, r1⟩ := push_sim h16 r x ((cfg.uninit (C.OUT_LEN * C.MAX_SIMD_DEGREE)).drop 32) 0 ep
    (fun _ => by rw [hs]; decide) hM
  let g2 : Model.Hasher := { subtree_hashes := [x], chunk := { g.chunk with offset := BitVec.ofNat 64 2048 } }
  have r2 : HRel mem.length { h1 with chunk := { h1.chunk with offset := h1.chunk.offset + BitVec.ofNat 64 C.CHUNK_LEN } } g2 := by
    refine ⟨⟨r1.chunk.state, r1.chunk.key, ?_, r1.chunk.count, r1.chunk.buf, r1.chunk.buf_len, r1.chunk.flags⟩, r1.len,
      r1.mem, r1.room⟩
    show h1.chunk.offset + _ = _
    rw [r1.chunk.offset, show ({ g with subtree_hashes := [x] } : Model.Hasher).chunk.offset = _ from hch.hoff]
    rfl
  have hch2 : ChunkOk key flags _ 2048 [] g2.chunk := ChunkOk.offset_change key flags hch
  generalize hh2 : ({ h1 with chunk := { h1.chunk with offset := h1.chunk.offset + BitVec.ofNat 64 C.CHUNK_LEN } } : C.hasher) = h2' at r2
  have em2 : g2.merge_loop (BitVec.ofNat 64 2048) = .ok g2 := by
    rw [Hasher.merge_loop, if_neg (by
      rw [Hasher.needs_merge, show (BitVec.ofNat 64 2048).toNat / Model.CHUNK_LEN = 1 from rfl,
        show popcount 1 = 1 from popcount_ones 1]
      simp [g2])]
  obtain ⟨h3, f3, r3⟩ := merge_loop_sim h16 r2 _ em2
  obtain ⟨s', e4, hs'⟩ := hch2.update tail (by simp; omega)
  obtain ⟨c4, f4, r4⟩ := chunk_update_sim h16 extra r3.chunk e4
  rw [List.nil_append] at hs'
  have hupd : hasher_update cfg h0 (c ++ tail ++ extra) (2048 + tail.length) = .ok { h3 with chunk := c4 } := by
    rw [hasher_update]
    dsimp only
    rw [hlen, if_neg (by simp only [C.CHUNK_LEN, List.length_nil]; omega), hasher_update_rest]
    dsimp only
    have e' : collect_chunks (List.replicate C.MAX_SIMD_DEGREE []) (c ++ tail ++ extra) (2048 + tail.length) 0 =
        .ok (chunks', tail ++ extra, tail.length, 1) := by
      have := e
      simp only [List.flatten_cons, List.flatten_nil, List.append_nil, List.length_singleton, Nat.mul_one] at this
      rw [this]; simp
    have hloop : C.update_loop cfg h0 (cfg.uninit (C.OUT_LEN * C.MAX_SIMD_DEGREE)) (List.replicate C.MAX_SIMD_DEGREE [])
        (c ++ tail ++ extra) (2048 + tail.length) = .ok (h2', tail ++ extra, tail.length) := by
      rw [C.update_loop, dif_pos (by simp only [C.CHUNK_LEN]; omega)]
      split
      next e he => rw [e'] at he; cases he
      next c' b' l' n' he =>
        rw [e'] at he
        cases he
        rw [r.chunk.key, r.chunk.flags, hoff, hch.hkey, hch.hflags, hb, bind_ok, push_chunks,
          cAdvance_ok _ _ (by simp), bind_ok, Nat.zero_mul, List.drop_zero, hoff, f1, bind_ok, push_chunks, hh2, bind_ok, C.update_loop,
          dif_neg (by simp only [C.CHUNK_LEN]; omega)]
    rw [hloop, bind_ok]
    dsimp only
    rw [if_pos ht0, r2.chunk.offset, show g2.chunk.offset = BitVec.ofNat 64 2048 from rfl, f3, bind_ok, f4, bind_ok]
    rfl
  refine ⟨h0, _, e0, hupd, ?_⟩
  have r5 : HRel mem.length { h3 with chunk := c4 } { g2 with chunk := s' } := ⟨r4, r3.len, r3.mem, r3.room⟩
  obtain ⟨o, e6, hp, ho6⟩ := hs'.finalize .notRoot (by intro h; cases h)
  obtain ⟨rest, hmem⟩ := r5.mem
  have hlen5 := r5.chunk.len h16 (by show s'.len < _; rw [hs'.len]; omega)
  have hlen5' : chunk_state_len cfg c4 = tail.length := hlen5.trans hs'.len
  have hul := length_uninit cfg C.OUT_LEN
  have hne : h3.subtree_hashes_len ≠ 0 := by
    intro h
    have := r3.len
    rw [h] at this
    cases this
  rw [hasher_finalize]
  dsimp only
  rw [if_neg hne, hlen5', if_pos ht0, chunk_finalize_sim r4 false rfl e6 _ (Nat.le_of_eq hul.symm), bind_ok,
    List.drop_of_length_le (Nat.le_of_eq hul), List.append_nil, r3.len,
    show intSz cfg.bits (((g2.subtree_hashes.length : Int) - 1) * C.OUT_LEN) = 32 * ([x].length - 1) from by
      rw [show (((g2.subtree_hashes.length : Nat) : Int) - 1) * (C.OUT_LEN : Nat) = ((0 : Nat) : Int) from rfl,
        intSz_nat (Nat.two_pow_pos _)]; rfl]
  have hf := finalize_loop_sim h16 r4 (g := { g2 with chunk := s' }) (h := { h3 with chunk := c4 }) out ho [x] rest o.to_hash 256 _
    hmem rfl (by simp) (by simp)
  rw [hf, to_hash_eq, to_hash_eq, ho6]
  simp only [toInput, Model.hash_one_parent, hs'.hkey, hs'.hflags, IsRoot.flag, or_zero8]
  rfl

end Baokeshed.Proofs.C
