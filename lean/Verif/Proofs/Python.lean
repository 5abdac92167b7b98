import Verif.Proofs.Reference
import Verif.Model.Python

/-! # baokeshed.py computes the specified function -/

set_option linter.unusedVariables false
set_option linter.unusedSimpArgs false

namespace Baokeshed.Proofs
open Baokeshed.Model

/-! ## Arithmetic -/

theorem py_add (a b : Word) : Py.wrapping_add a.toNat b.toNat = (a + b).toNat := by
  rw [Py.wrapping_add, Nat.and_two_pow_sub_one_eq_mod, BitVec.toNat_add]

theorem py_rot (x : Word) (n : Nat) (h : n < 32) : Py.rotate_right x.toNat n = (x.rotateRight n).toNat := by
  rw [Py.rotate_right, Nat.and_two_pow_sub_one_eq_mod, BitVec.toNat_rotateRight, Nat.or_mod_two_pow,
    Nat.mod_eq_of_lt h]
  congr 1
  apply Nat.mod_eq_of_lt
  exact Nat.lt_of_le_of_lt (Nat.shiftRight_le _ _) x.isLt

theorem py_g (v : Vector Word 16) (a b c d : Fin 16) (x y : Word) :
    Py.g (v.map BitVec.toNat) a b c d x.toNat y.toNat = (Portable.g v a b c d x y).map BitVec.toNat := by
  simp only [Py.g, Portable.g, Fin.getElem_fin, Vector.getElem_map, py_add, ← Vector.map_set, ← BitVec.toNat_xor,
    py_rot _ _ (show 16 < 32 by decide), py_rot _ _ (show 12 < 32 by decide), py_rot _ _ (show 8 < 32 by decide),
    py_rot _ _ (show 7 < 32 by decide), BitVec.add_assoc]

theorem py_idx (l : List Nat) (i : Nat) (h : i < l.length) : Py.idx l i = .ok l[i] := by
  rw [Py.idx, List.getElem?_eq_getElem h]

theorem py_idx_map (v : Vector Word 16) (i : Nat) (h : i < 16) :
    Py.idx (v.toList.map BitVec.toNat) i = .ok v[i].toNat := by
  rw [py_idx _ _ (by simpa using h)]; simp

theorem py_gm (m : Vector Word 16) (p : Vector (Fin 16) 16) (v : Vector Word 16) (a b c d i j : Fin 16) :
    Py.gm (m.toList.map BitVec.toNat) (p.map Fin.val) a b c d i j (v.map BitVec.toNat) =
      .ok ((Portable.g v a b c d m[p[i]] m[p[j]]).map BitVec.toNat) := by
  rw [Py.gm]
  simp only [Fin.getElem_fin, Vector.getElem_map]
  rw [py_idx_map _ _ (Fin.isLt _), bind_ok, py_idx_map _ _ (Fin.isLt _), bind_ok, py_g]
  rfl

theorem py_round (m : Vector Word 16) (p : Vector (Fin 16) 16) (v : Vector Word 16) :
    Py.round (v.map BitVec.toNat) (m.toList.map BitVec.toNat) (p.map Fin.val) =
      .ok ((roundP v m p).map BitVec.toNat) := by
  simp only [Py.round, py_gm, bind_ok]
  rfl

theorem py_schedule_entry : ∀ (r : Fin 7) (i : Fin 16), Py.MSG_SCHEDULE[r][i] = (Spec.sigma r)[i].val := by decide

theorem py_schedule (r : Fin 7) : Py.MSG_SCHEDULE[r] = (Spec.sigma r).map Fin.val := by
  apply Vector.ext
  intro i hi
  rw [Vector.getElem_map]
  exact py_schedule_entry r ⟨i, hi⟩

/-! ## Words and bytes -/

theorem shl_or (a b : Nat) (h : b < 2 ^ 8) : a <<< 8 ||| b = b + 256 * a := by
  rw [Nat.shiftLeft_eq, Nat.mul_comm, ← Nat.two_pow_add_eq_or_of_lt h]; omega

theorem from_bytes_four (a b c d : Byte) : Py.from_bytes [a, b, c, d] = (leWord a b c d).toNat := by
  simp only [leWord]
  rw [BitVec.toNat_append, BitVec.toNat_append, BitVec.toNat_append, shl_or _ _ a.isLt, shl_or _ _ b.isLt,
    shl_or _ _ c.isLt]
  simp only [Py.from_bytes, List.foldr_cons, List.foldr_nil]
  omega

theorem slice_four (buf : Bytes) (i : Nat) (h : 4 * i + 3 < buf.length) :
    Py.slice buf (i * 4) ((i + 1) * 4) = [buf[4 * i], buf[4 * i + 1], buf[4 * i + 2], buf[4 * i + 3]] := by
  apply List.ext_getElem
  · simp [Py.slice]; omega
  · intro k h1 h2
    simp only [Py.slice, List.getElem_drop, List.getElem_take]
    simp only [List.length_cons, List.length_nil] at h2
    rcases k with _ | _ | _ | _ | k <;> simp only [List.getElem_cons_zero, List.getElem_cons_succ, Nat.mul_comm i 4] <;> first | rfl | omega

theorem py_words_getElem (buf : Bytes) (i : Nat) (h : 4 * i + 3 < buf.length)
    (hi : i < (Py.words_from_bytes buf).length) :
    (Py.words_from_bytes buf)[i] = (leWord buf[4 * i] buf[4 * i + 1] buf[4 * i + 2] buf[4 * i + 3]).toNat := by
  simp only [Py.words_from_bytes, List.getElem_map, List.getElem_range]
  rw [slice_four buf i h, from_bytes_four]

theorem py_words_block (b : Vector Byte 64) :
    Py.words_from_bytes b.toList = (blockWords b).toList.map BitVec.toNat := by
  apply List.ext_getElem
  · simp [Py.words_from_bytes, Py.WORD_BYTES]
  · intro i h1 h2
    have hi : i < 16 := by simpa using h2
    rw [py_words_getElem _ _ (by simp; omega)]
    simp only [List.getElem_map, Vector.getElem_toList, blockWords, Vector.getElem_ofFn]
    rfl

theorem to_bytes_word (w : Word) : Py.to_bytes 4 w.toNat = .ok (leBytes w) := by
  have hw := w.isLt
  have h0 : w.toNat / 256 / 256 / 256 / 256 = 0 := by omega
  simp only [Py.to_bytes, h0, if_true, bind_ok, pure_eq]
  refine congrArg Except.ok ?_
  have e : ∀ k (v : Nat), v = w.toNat >>> k % 256 → BitVec.ofNat 8 v = w.extractLsb' k 8 := by
    intro k v hv
    apply BitVec.eq_of_toNat_eq
    rw [BitVec.toNat_ofNat, BitVec.extractLsb'_toNat, hv]
    omega
  simp only [leBytes, List.cons.injEq, and_true]
  refine ⟨e 0 _ rfl, e 8 _ ?_, e 16 _ ?_, e 24 _ ?_⟩ <;> rw [Nat.shiftRight_eq_div_pow] <;> omega

theorem py_bytes_loop (ws : List Word) : ∀ (pre : Bytes) (i : Nat), pre.length = 4 * i →
    Py.bytes_from_words_loop (pre ++ List.replicate (ws.length * 4) 0) i (ws.map BitVec.toNat) =
      .ok (pre ++ Spec.wordBytes ws) := by
  induction ws with
  | nil => intro pre i h; simp [Py.bytes_from_words_loop, Spec.wordBytes]
  | cons w ws ih =>
    intro pre i h
    rw [List.map_cons, Py.bytes_from_words_loop]
    simp only [Py.WORD_BYTES]
    rw [to_bytes_word, bind_ok]
    have e : Py.setSlice (pre ++ List.replicate ((w :: ws).length * 4) 0) (4 * i) (4 * (i + 1)) (leBytes w) =
        (pre ++ leBytes w) ++ List.replicate (ws.length * 4) 0 := by
      rw [Py.setSlice, List.take_left' h, List.drop_append, List.drop_of_length_le (by omega), List.nil_append,
        List.drop_replicate, List.length_cons, h, show (ws.length + 1) * 4 - (4 * (i + 1) - 4 * i) = ws.length * 4 by omega]
    rw [e, ih (pre ++ leBytes w) (i + 1) (by rw [List.length_append, h]; rfl), List.append_assoc]
    rfl

theorem py_bytes_from_words (ws : List Word) : Py.bytes_from_words (ws.map BitVec.toNat) = .ok (Spec.wordBytes ws) := by
  have := py_bytes_loop ws [] 0 rfl
  rw [List.nil_append, List.nil_append] at this
  rw [Py.bytes_from_words, List.length_map]
  exact this

/-! ## Compression -/

/-- The eight words of `cv`, followed by words that are never used. -/
def PyCv (l : List Nat) (cv : Vector Word 8) : Prop := ∃ extra, l = cv.toList.map BitVec.toNat ++ extra

theorem PyCv.idx {l : List Nat} {cv : Vector Word 8} (h : PyCv l cv) (i : Nat) (hi : i < 8) :
    Py.idx l i = .ok cv[i].toNat := by
  obtain ⟨e, rfl⟩ := h
  rw [py_idx _ _ (by simp; omega), List.getElem_append_left (by simpa using hi)]
  simp

theorem PyCv.of (cv : Vector Word 8) : PyCv (cv.toList.map BitVec.toNat) cv := ⟨[], by simp⟩

theorem py_feed {l : List Nat} {cv : Vector Word 8} (h : PyCv l cv) (v : Vector Word 16) (i : Fin 8) :
    Py.feed l (v.map BitVec.toNat) i = .ok ((Ref.feed cv v i).map BitVec.toNat) := by
  rw [Py.feed, h.idx i i.isLt, bind_ok, pure_eq]
  simp only [Ref.feed, Vector.getElem_map, ← BitVec.toNat_xor, ← Vector.map_set, Fin.getElem_fin]

theorem py_fold {α : Type} (fp : Vector Nat 16 → α → R (Vector Nat 16)) (fw : Vector Word 16 → α → Vector Word 16)
    (h : ∀ v a, fp (v.map BitVec.toNat) a = .ok ((fw v a).map BitVec.toNat)) (L : List α) : ∀ v : Vector Word 16,
    L.foldlM fp (v.map BitVec.toNat) = .ok ((L.foldl fw v).map BitVec.toNat) := by
  induction L with
  | nil => intro v; rfl
  | cons a L ih => intro v; rw [List.foldlM_cons, h, bind_ok, ih, List.foldl_cons]

theorem py_compress (n : Spec.Input) (l : List Nat) (h : PyCv l n.cv) (off : Nat) (ho : n.offset = BitVec.ofNat 64 off) :
    Py.compress l n.block.toList n.blockLen.toNat off n.flags.toNat = .ok ((outWords n).toList.map BitVec.toNat) := by
  rw [Py.compress, h.idx 0 (by decide), bind_ok, h.idx 1 (by decide), bind_ok, h.idx 2 (by decide), bind_ok,
    h.idx 3 (by decide), bind_ok, h.idx 4 (by decide), bind_ok, h.idx 5 (by decide), bind_ok, h.idx 6 (by decide), bind_ok,
    h.idx 7 (by decide), bind_ok]
  rw [py_idx Py.IV 0 (by decide), bind_ok, py_idx Py.IV 1 (by decide), bind_ok, py_idx Py.IV 2 (by decide), bind_ok,
    py_idx Py.IV 3 (by decide), bind_ok]
  have hst : (#v[n.cv[0].toNat, n.cv[1].toNat, n.cv[2].toNat, n.cv[3].toNat, n.cv[4].toNat, n.cv[5].toNat, n.cv[6].toNat,
      n.cv[7].toNat, Py.IV[0], Py.IV[1], Py.IV[2], Py.IV[3], off &&& Py.WORD_MAX, (off >>> Py.WORD_BITS) &&& Py.WORD_MAX,
      n.blockLen.toNat, n.flags.toNat] : Vector Nat 16) =
      (#v[n.cv[0], n.cv[1], n.cv[2], n.cv[3], n.cv[4], n.cv[5], n.cv[6], n.cv[7], Ref.IV[0], Ref.IV[1], Ref.IV[2], Ref.IV[3],
        n.offset.setWidth 32, (n.offset >>> 32).setWidth 32, n.blockLen.setWidth 32, n.flags.setWidth 32] : Vector Word 16).map
        BitVec.toNat := by
    have e1 : off &&& Py.WORD_MAX = (n.offset.setWidth 32).toNat := by
      simp only [Py.WORD_MAX, Py.WORD_BITS]
      rw [ho, Nat.and_two_pow_sub_one_eq_mod, BitVec.toNat_setWidth, BitVec.toNat_ofNat]; omega
    have e2 : (off >>> Py.WORD_BITS) &&& Py.WORD_MAX = ((n.offset >>> 32).setWidth 32).toNat := by
      simp only [Py.WORD_MAX, Py.WORD_BITS]
      rw [ho, Nat.and_two_pow_sub_one_eq_mod, BitVec.toNat_setWidth, BitVec.toNat_ushiftRight, BitVec.toNat_ofNat,
        Nat.shiftRight_eq_div_pow, Nat.shiftRight_eq_div_pow]; omega
    have e3 : n.blockLen.toNat = (n.blockLen.setWidth 32).toNat := by
      rw [BitVec.toNat_setWidth]; have := n.blockLen.isLt; omega
    have e4 : n.flags.toNat = (n.flags.setWidth 32).toNat := by
      rw [BitVec.toNat_setWidth]; have := n.flags.isLt; omega
    rw [e1, e2, e3, e4]
    apply Vector.ext
    intro i hi
    rw [Vector.getElem_map]
    rcases i with _|_|_|_|_|_|_|_|_|_|_|_|_|_|_|_|i
    all_goals first | rfl | omega
  dsimp only
  rw [hst, py_words_block, py_fold _ (fun v r => Ref.round v (blockWords n.block) Ref.MSG_SCHEDULE[r]), bind_ok,
    py_fold _ (Ref.feed n.cv) (py_feed h), bind_ok, pure_eq, Vector.toList_map]
  · have := ref_compress_eq n
    rw [← this]
    rfl
  · intro v r
    rw [py_schedule, py_round, ref_schedule_eq, ref_round_roundP]

attribute [local irreducible] Spec.compress Spec.outBytes Spec.cvBytes Spec.pad outWords blockWords

/-! ## Output -/

/-- The `Output` object that stands for a compression input at byte offset `off`. -/
structure PyOut (o : Py.Output) (n : Spec.Input) : Prop where
  cv : PyCv o.cv n.cv
  block : o.block = n.block.toList
  offset : n.offset = BitVec.ofNat 64 o.offset
  len : o.block_len = n.blockLen.toNat
  flags : o.flags = n.flags.toNat

theorem outWords_take (n : Spec.Input) : (outWords n).toList.take 8 = (Spec.compress n).toList := by
  rw [← outWords_first]
  apply List.ext_getElem
  · simp
  · intro i h1 h2
    simp [Ref.first_8_words]

theorem cvBytes_words (v : Vector Word 8) : (Spec.cvBytes v).toList = Spec.wordBytes v.toList := by
  unfold Spec.cvBytes; rfl

theorem PyOut.chaining_value {o : Py.Output} {n : Spec.Input} (h : PyOut o n) :
    o.chaining_value = .ok (Spec.cvBytes (Spec.compress n)).toList := by
  rw [Py.Output.chaining_value, h.block, h.len, h.flags, py_compress n _ h.cv _ h.offset, bind_ok, ← List.map_take,
    outWords_take, py_bytes_from_words, cvBytes_words]

theorem PyOut.block_bytes {o : Py.Output} {m : Spec.Mode} {input : Bytes} {n : Spec.Input}
    (h : PyOut o n) (hn : asRoot n = Spec.root m input) (k : Nat) :
    ∃ ws, Py.compress o.cv o.block o.block_len (64 * k) (o.flags ||| Py.ROOT) = .ok (ws.map BitVec.toNat) ∧
      Spec.wordBytes ws = (Spec.streamBlock m input k).toList := by
  have hf : o.flags ||| Py.ROOT = (asRoot n).flags.toNat := by
    rw [h.flags]
    simp only [asRoot, Flags.ROOT, BitVec.toNat_or]
    rfl
  refine ⟨(outWords { asRoot n with offset := BitVec.ofNat 64 (64 * k) }).toList, ?_, ?_⟩
  · rw [hf, h.block, h.len]
    exact py_compress { asRoot n with offset := BitVec.ofNat 64 (64 * k) } o.cv h.cv (64 * k) rfl
  · rw [outWords_bytes, hn, Spec.streamBlock]

theorem py_root_loop {o : Py.Output} {m : Spec.Mode} {input : Bytes} {n : Spec.Input}
    (h : PyOut o n) (hn : asRoot n = Spec.root m input) (out_len : Nat) : ∀ (fuel k : Nat) (buf : Bytes),
    buf.length = out_len → buf.take (64 * k) = slice m input 0 (min (64 * k) out_len) → out_len - 64 * k ≤ fuel →
    o.root_output_loop out_len fuel buf (min (64 * k) out_len) = .ok (slice m input 0 out_len) := by
  have done : ∀ (fuel k : Nat) (buf : Bytes), buf.length = out_len →
      buf.take (64 * k) = slice m input 0 (min (64 * k) out_len) → out_len ≤ 64 * k → buf = slice m input 0 out_len := by
    intro fuel k buf hb ht hk
    rwa [List.take_of_length_le (by omega), Nat.min_eq_right hk] at ht
  intro fuel
  induction fuel with
  | zero =>
    intro k buf hb ht hk
    rw [Py.Output.root_output_loop, if_neg (by omega), done 0 k buf hb ht (by omega)]
  | succ fuel ih =>
    intro k buf hb ht hk
    rw [Py.Output.root_output_loop]
    by_cases hlt : 64 * k < out_len
    · rw [Nat.min_eq_left (by omega)] at ht ⊢
      obtain ⟨ws, e, hw⟩ := h.block_bytes hn k
      have hwl : (Spec.wordBytes ws).length = 64 := by rw [hw]; simp
      rw [if_pos hlt, e, bind_ok, py_bytes_from_words, bind_ok]
      dsimp only
      rw [hwl, show 64 * k + min 64 (out_len - 64 * k) = min (64 * (k + 1)) out_len by omega]
      apply ih
      · simp only [Py.setSlice, List.length_append, List.length_take, List.length_drop]; omega
      · have hs : (Spec.wordBytes ws).take (min 64 (out_len - 64 * k)) = slice m input (64 * k) (min 64 (out_len - 64 * k)) := by
          rw [hw, slice_block _ _ _ _ (by omega)]
        have hsl := slice_append m input 0 (64 * k) (min 64 (out_len - 64 * k))
        rw [Nat.zero_add] at hsl
        rw [Py.setSlice, ht, hs, ← hsl, show 64 * k + min 64 (out_len - 64 * k) = min (64 * (k + 1)) out_len by omega]
        rw [List.take_append, List.take_of_length_le (by simp [slice]; omega)]
        by_cases hle : 64 * (k + 1) ≤ out_len
        · rw [show 64 * (k + 1) - (slice m input 0 (min (64 * (k + 1)) out_len)).length = 0 by simp [slice]; omega]
          simp
        · rw [List.drop_of_length_le (by omega)]; simp
      · omega
    · rw [if_neg (by omega), done 0 k buf hb ht (by omega)]

theorem PyOut.root_output_bytes {o : Py.Output} {m : Spec.Mode} {input : Bytes} {n : Spec.Input}
    (h : PyOut o n) (hn : asRoot n = Spec.root m input) (out_len : Nat) :
    o.root_output_bytes out_len = .ok (Spec.output m input out_len) := by
  have := py_root_loop h hn out_len out_len 0 (List.replicate out_len 0) (by simp) (by simp [slice]) (by omega)
  rw [output_eq_slice, Py.Output.root_output_bytes]
  rwa [Nat.mul_zero, Nat.zero_min] at this

/-! ## The tree -/

section
variable (key : Vector Word 8) (flags : Byte) (key_words : List Nat)

theorem py_chunk_loop (chunk : Bytes) (offset : Nat) : ∀ (position : Nat) (cv : Vector Word 8) (cvl : List Nat) (fl : Byte),
    PyCv cvl cv → position ≤ chunk.length →
    ∃ cvl' cv' fl' pos', Py.hash_chunk_loop chunk offset flags.toNat cvl fl.toNat position = .ok (cvl', fl'.toNat, pos') ∧
      PyCv cvl' cv' ∧ pos' ≤ chunk.length ∧ chunk.length - pos' ≤ 64 ∧
      Spec.chunkFrom flags offset cv fl (chunk.drop position) =
        { cv := cv', block := Spec.pad (chunk.drop pos'), blockLen := BitVec.ofNat 8 (chunk.length - pos'),
          offset := BitVec.ofNat 64 offset, flags := fl' ||| Spec.chunkEnd } := by
  intro position
  induction hn : chunk.length - position using Nat.strongRecOn generalizing position with
  | ind n ih =>
  intro cv cvl fl hcv hp
  rw [Py.hash_chunk_loop, Spec.chunkFrom]
  simp only [Py.BLOCK_LEN]
  by_cases h : 64 < chunk.length - position
  · rw [dif_pos h, dif_neg (by rw [List.length_drop]; omega)]
    have hblk : Py.slice chunk position (position + 64) = (Spec.pad ((chunk.drop position).take 64)).toList := by
      rw [pad_toList _ (by simp; omega), List.length_take, List.length_drop,
        show 64 - min 64 (chunk.length - position) = 0 by omega, Py.slice, List.drop_take,
        show position + 64 - position = 64 by omega]
      simp
    have e := py_compress
      { cv, block := Spec.pad ((chunk.drop position).take 64), blockLen := 64, offset := BitVec.ofNat 64 offset, flags := fl }
      cvl hcv offset rfl
    simp only at e
    rw [hblk]
    change Py.compress cvl _ 64 offset fl.toNat = _ at e
    rw [e, bind_ok, ← List.map_take, outWords_take]
    obtain ⟨cvl', cv', fl', pos', e', h1, h2, h3, h4⟩ := ih (chunk.length - (position + 64)) (by omega) (position + 64) rfl _ _ flags
      (PyCv.of (Spec.compress _)) (by omega)
    exact ⟨cvl', cv', fl', pos', e', h1, h2, h3, by rw [List.drop_drop]; exact h4⟩
  · rw [dif_neg h, dif_pos (by rw [List.length_drop]; omega)]
    exact ⟨cvl, cv, fl, position, rfl, hcv, hp, by omega, by rw [List.length_drop]⟩

theorem py_hash_chunk (hk : PyCv key_words key) (chunk : Bytes) (offset : Nat) :
    ∃ o, Py.hash_chunk chunk key_words offset flags.toNat = .ok o ∧ PyOut o (Spec.chunk key flags offset chunk) := by
  obtain ⟨cvl', cv', fl', pos', e, h1, h2, h3, h4⟩ := py_chunk_loop flags chunk offset 0 key key_words (flags ||| Spec.chunkStart) hk (by omega)
  rw [Py.hash_chunk]
  have hf : flags.toNat ||| Py.CHUNK_START = (flags ||| Spec.chunkStart).toNat := by rw [BitVec.toNat_or]; rfl
  rw [hf, e, bind_ok]
  refine ⟨_, rfl, ?_⟩
  rw [List.drop_zero] at h4
  rw [Spec.chunk, h4]
  refine ⟨h1, ?_, rfl, ?_, ?_⟩
  · dsimp only
    rw [pad_toList _ (by rw [List.length_drop]; omega), Py.setSlice, List.length_drop, List.take_zero, List.nil_append,
      List.drop_replicate]
  · dsimp only
    rw [BitVec.toNat_ofNat]; omega
  · dsimp only
    rw [BitVec.toNat_or]; rfl

theorem py_hash_parent (hk : PyCv key_words key) (l r : Py.Output) (nl nr : Spec.Input) (hl : PyOut l nl) (hr : PyOut r nr) :
    ∃ o, Py.hash_parent l r key_words flags.toNat = .ok o ∧
      PyOut o (Spec.parent key flags (Spec.compress nl) (Spec.compress nr)) := by
  rw [Py.hash_parent, hl.chaining_value, bind_ok, hr.chaining_value, bind_ok]
  refine ⟨_, rfl, hk, ?_, rfl, rfl, ?_⟩
  · exact Vector.toList_append.symm
  · show Py.PARENT ||| flags.toNat = (flags ||| Spec.parentFlag).toNat
    rw [BitVec.toNat_or, Nat.or_comm]; rfl

theorem bit_length_eq (n : Nat) (h : n ≠ 0) : Py.bit_length n - 1 = Nat.log2 n := by
  induction n using Nat.strongRecOn with
  | ind n ih =>
  rw [Py.bit_length, if_neg h]
  by_cases h2 : n < 2
  · have : n = 1 := by omega
    subst this
    have h0 : Py.bit_length 0 = 0 := by rw [Py.bit_length, if_pos rfl]
    rw [show 1 / 2 = 0 from rfl, h0]
    rfl
  · have := ih (n / 2) (by omega) (by omega)
    rw [Nat.log2_def, if_pos (by omega), ← this]
    have : Py.bit_length (n / 2) ≠ 0 := by
      rw [Py.bit_length, if_neg (by omega)]; omega
    omega

theorem py_left_len (n : Nat) (h : 2048 < n) : Py.left_len n = Spec.leftLen n := by
  rw [Py.left_len, Spec.leftLen]
  simp only [Py.CHUNK_LEN]
  rw [bit_length_eq _ (by omega)]

theorem py_hash_recurse (hk : PyCv key_words key) (fuel : Nat) : ∀ (input : Bytes) (offset : Nat), input.length < fuel →
    ∃ o, Py.hash_recurse fuel input key_words offset flags.toNat = .ok o ∧ PyOut o (Spec.subtree key flags offset input) := by
  induction fuel with
  | zero => intro input offset h; omega
  | succ fuel ih =>
    intro input offset h
    rw [Py.hash_recurse, Spec.subtree]
    simp only [Py.CHUNK_LEN]
    by_cases hle : input.length ≤ 2048
    · rw [if_pos hle, dif_pos hle]
      exact py_hash_chunk key flags key_words hk input offset
    · rw [if_neg hle, dif_neg hle, py_left_len _ (by omega)]
      have h1 := Spec.leftLen_lt (Nat.lt_of_not_le hle)
      have h2 := Spec.leftLen_pos input.length
      have hl : (input.take (Spec.leftLen input.length)).length = Spec.leftLen input.length := by
        rw [List.length_take]; omega
      rw [hl]
      obtain ⟨ol, el, hol⟩ := ih (input.take (Spec.leftLen input.length)) offset (by omega)
      obtain ⟨or, er, hor⟩ := ih (input.drop (Spec.leftLen input.length)) (offset + Spec.leftLen input.length)
        (by rw [List.length_drop]; omega)
      rw [el, bind_ok, er, bind_ok]
      exact py_hash_parent key flags key_words hk ol or _ _ hol hor

end

theorem py_hash_internal (m : Spec.Mode) (input : Bytes) (key_words : List Nat) (hk : PyCv key_words m.key) (out_len : Nat) :
    Py.hash_internal input key_words m.flag.toNat out_len = .ok (Spec.output m input out_len) := by
  obtain ⟨o, e, ho⟩ := py_hash_recurse m.key m.flag key_words hk (input.length + 1) input 0 (by omega)
  rw [Py.hash_internal, e, bind_ok]
  exact ho.root_output_bytes rfl out_len

/-- the words of a key of at least 32 bytes -/
theorem py_words_key (k : Vector Byte 32) (extra : Bytes) :
    PyCv (Py.words_from_bytes (k.toList ++ extra)) (Vector.ofFn fun i : Fin 8 =>
      k[4 * i.val + 3] ++ k[4 * i.val + 2] ++ k[4 * i.val + 1] ++ k[4 * i.val]) := by
  refine ⟨(Py.words_from_bytes (k.toList ++ extra)).drop 8, ?_⟩
  have hl : (Py.words_from_bytes (k.toList ++ extra)).length = (32 + extra.length) / 4 := by
    simp [Py.words_from_bytes]
  conv => lhs; rw [← List.take_append_drop 8 (Py.words_from_bytes (k.toList ++ extra))]
  congr 1
  apply List.ext_getElem
  · rw [List.length_take, hl]; simp; omega
  · intro i h1 h2
    have hi : i < 8 := by simpa using h2
    rw [List.getElem_take, py_words_getElem _ _ (by simp; omega)]
    simp only [List.getElem_map, Vector.getElem_toList, Vector.getElem_ofFn]
    rw [List.getElem_append_left (by simp; omega), List.getElem_append_left (by simp; omega),
      List.getElem_append_left (by simp; omega), List.getElem_append_left (by simp; omega)]
    simp only [Vector.getElem_toList]
    rfl

end Baokeshed.Proofs
