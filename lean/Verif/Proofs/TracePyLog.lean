import Verif.Proofs.TraceRef

/-! # baokeshed.py performs the compressions of the tree, each once -/

set_option linter.unusedVariables false
set_option linter.unusedSimpArgs false

namespace Baokeshed.Proofs.RT
open Baokeshed.Model Baokeshed.Proofs

attribute [local irreducible] Spec.compress Spec.outBytes Spec.cvBytes Spec.pad outWords blockWords

/-- The calls stand for the compressions, one by one. -/
def Stand (cs : List PyT.Call) (ns : List Spec.Input) : Prop :=
  ∃ p : List (PyT.Call × Spec.Input), cs = p.map Prod.fst ∧ ns = p.map Prod.snd ∧ ∀ x ∈ p, Spec.PyCall x.1 x.2

theorem Stand.nil : Stand [] [] := ⟨[], rfl, rfl, by simp⟩

theorem Stand.one {c : PyT.Call} {n : Spec.Input} (h : Spec.PyCall c n) : Stand [c] [n] :=
  ⟨[(c, n)], rfl, rfl, fun x hx => by rw [List.mem_singleton.1 hx]; exact h⟩

theorem Stand.append {cs cs' : List PyT.Call} {ns ns' : List Spec.Input} (h : Stand cs ns) (h' : Stand cs' ns') :
    Stand (cs ++ cs') (ns ++ ns') := by
  obtain ⟨p, rfl, rfl, hp⟩ := h
  obtain ⟨p', rfl, rfl, hp'⟩ := h'
  refine ⟨p ++ p', List.map_append.symm, List.map_append.symm, fun x hx => ?_⟩
  rcases List.mem_append.1 hx with h | h
  · exact hp x h
  · exact hp' x h

theorem Stand.cons {c : PyT.Call} {n : Spec.Input} {cs : List PyT.Call} {ns : List Spec.Input} (h : Spec.PyCall c n)
    (h' : Stand cs ns) : Stand (c :: cs) (n :: ns) := (Stand.one h).append h'

theorem Stand.length {cs : List PyT.Call} {ns : List Spec.Input} (h : Stand cs ns) : cs.length = ns.length := by
  obtain ⟨p, rfl, rfl, -⟩ := h
  rw [List.length_map, List.length_map]

theorem py_compress_log {cv : List Nat} {b : Bytes} {bl off f : Nat} {r : R (List Nat)} (h : Py.compress cv b bl off f = r) :
    PyT.compress cv b bl off f = ⟨r, [⟨cv, b, bl, off, f⟩]⟩ := by rw [PyT.compress, h]

/-! ## Output -/

theorem PyOut.call {o : Py.Output} {n : Spec.Input} (h : PyOut o n) :
    Spec.PyCall ⟨o.cv, o.block, o.block_len, o.offset, o.flags⟩ n :=
  ⟨h.cv, h.block, h.len, h.offset.symm, h.flags⟩

theorem py_chaining_value_log {o : Py.Output} {n : Spec.Input} (h : PyOut o n) :
    PyT.Output.chaining_value o = ⟨.ok (Spec.cvBytes (Spec.compress n)).toList,
      [⟨o.cv, o.block, o.block_len, o.offset, o.flags⟩]⟩ := by
  have e := py_compress n _ h.cv _ h.offset
  rw [← h.block, ← h.len, ← h.flags] at e
  rw [PyT.Output.chaining_value]
  refine rec_bind' (l := [_]) (l' := []) (a := (outWords n).toList.map BitVec.toNat) ?_ ?_
  · rw [PyT.compress, e]
  · rw [← List.map_take, outWords_take, py_bytes_from_words, cvBytes_words]
    rfl

theorem py_root_loop_log {o : Py.Output} {m : Spec.Mode} {input : Bytes} {n : Spec.Input}
    (h : PyOut o n) (hn : asRoot n = Spec.root m input) (out_len : Nat) : ∀ (fuel k : Nat) (buf : Bytes),
    out_len - 64 * k ≤ fuel →
    Stand (PyT.Output.root_output_loop o out_len fuel buf (min (64 * k) out_len)).log
      ((List.range' k ((out_len + 63) / 64 - k)).map (Spec.outCall m input)) := by
  have hz : ∀ k, out_len ≤ 64 * k → (out_len + 63) / 64 - k = 0 := fun k h => by omega
  intro fuel
  induction fuel with
  | zero =>
    intro k buf hk
    rw [PyT.Output.root_output_loop, if_neg (by omega), hz k (by omega)]
    exact Stand.nil
  | succ fuel ih =>
    intro k buf hk
    rw [PyT.Output.root_output_loop]
    by_cases hlt : 64 * k < out_len
    · rw [Nat.min_eq_left (by omega)]
      obtain ⟨ws, e, hw⟩ := h.block_bytes hn k
      have hwl : (Spec.wordBytes ws).length = 64 := by rw [hw]; simp
      rw [if_pos hlt, rec_bind _ (py_compress_log e), py_bytes_from_words, lift_ok]
      dsimp only
      rw [hwl, show 64 * k + min 64 (out_len - 64 * k) = min (64 * (k + 1)) out_len by omega,
        show (out_len + 63) / 64 - k = (out_len + 63) / 64 - (k + 1) + 1 by omega, List.range'_succ, List.map_cons]
      refine Stand.cons ?_ (ih (k + 1) _ (by omega))
      have hf : o.flags ||| Py.ROOT = (asRoot n).flags.toNat := by
        rw [h.flags]
        simp only [asRoot, Flags.ROOT, BitVec.toNat_or]
        rfl
      rw [Spec.outCall, ← hn]
      exact ⟨h.cv, h.block, h.len, rfl, hf⟩
    · rw [if_neg (by omega), hz k (by omega)]
      exact Stand.nil

/-! ## The tree -/

section
variable (key : Vector Word 8) (flags : Byte) (key_words : List Nat)

theorem py_chunk_loop_log (chunk : Bytes) (offset : Nat) : ∀ (position : Nat) (cv : Vector Word 8) (cvl : List Nat) (fl : Byte),
    PyCv cvl cv → position ≤ chunk.length →
    Stand (PyT.hash_chunk_loop chunk offset flags.toNat cvl fl.toNat position).log
      (Spec.chunkBefore flags offset cv fl (chunk.drop position)) := by
  intro position
  induction hn : chunk.length - position using Nat.strongRecOn generalizing position with
  | ind n ih =>
  intro cv cvl fl hcv hp
  rw [PyT.hash_chunk_loop, Spec.chunkBefore]
  simp only [Py.BLOCK_LEN]
  by_cases h : 64 < chunk.length - position
  · rw [dif_pos h, dif_neg (by rw [List.length_drop]; omega)]
    have hblk : Py.slice chunk position (position + 64) = (Spec.pad ((chunk.drop position).take 64)).toList := by
      rw [pad_toList _ (by simp; omega), List.length_take, List.length_drop,
        show 64 - min 64 (chunk.length - position) = 0 by omega, Py.slice, List.drop_take,
        show position + 64 - position = 64 by omega]
      simp
    have e := py_compress
      { cv, block := Spec.pad ((chunk.drop position).take 64), blockLen := 64, offset := BitVec.ofNat 64 offset, flags := fl }
      cvl hcv offset rfl
    simp only at e
    rw [hblk]
    change Py.compress cvl _ 64 offset fl.toNat = _ at e
    rw [rec_bind _ (py_compress_log e), ← List.map_take, outWords_take]
    have h' := ih (chunk.length - (position + 64)) (by omega) (position + 64) rfl _ _ flags
      (PyCv.of (Spec.compress { cv, block := Spec.pad ((chunk.drop position).take 64), blockLen := 64, offset := BitVec.ofNat 64 offset, flags := fl })) (by omega)
    rw [← List.drop_drop] at h'
    exact Stand.cons ⟨hcv, rfl, rfl, rfl, rfl⟩ h'
  · rw [dif_neg h, dif_pos (by rw [List.length_drop]; omega)]
    exact Stand.nil

theorem py_hash_chunk_log (hk : PyCv key_words key) (chunk : Bytes) (offset : Nat) :
    Stand (PyT.hash_chunk chunk key_words offset flags.toNat).log
      (Spec.chunkBefore flags offset key (flags ||| Spec.chunkStart) chunk) := by
  have h := py_chunk_loop_log flags chunk offset 0 key key_words (flags ||| Spec.chunkStart) hk (by omega)
  have hf : flags.toNat ||| Py.CHUNK_START = (flags ||| Spec.chunkStart).toNat := by rw [BitVec.toNat_or]; rfl
  rw [List.drop_zero] at h
  rw [PyT.hash_chunk, hf]
  have : ∀ (x : PyT.TR (List Nat × Nat × Nat)) (f : List Nat × Nat × Nat → Py.Output), (x >>= fun a => pure (f a)).log = x.log := by
    intro x f
    obtain ⟨r, l⟩ := x
    cases r
    · rfl
    · exact List.append_nil l
  rw [← this _ (fun x => { cv := x.1, block := Py.setSlice (List.replicate Py.BLOCK_LEN 0) 0 (chunk.length - x.2.2) (chunk.drop x.2.2), block_len := chunk.length - x.2.2, offset, flags := x.2.1 ||| Py.CHUNK_END })] at h
  exact h

theorem py_hash_recurse_log (hk : PyCv key_words key) (fuel : Nat) : ∀ (input : Bytes) (offset : Nat), input.length < fuel →
    ∃ ns, Stand (PyT.hash_recurse fuel input key_words offset flags.toNat).log ns ∧
      ns.Perm (Spec.below key flags offset input) := by
  induction fuel with
  | zero => intro input offset h; omega
  | succ fuel ih =>
    intro input offset h
    rw [PyT.hash_recurse, Spec.below]
    simp only [Py.CHUNK_LEN]
    by_cases hle : input.length ≤ 2048
    · rw [if_pos hle, dif_pos hle]
      exact ⟨_, py_hash_chunk_log key flags key_words hk input offset, List.Perm.refl _⟩
    · rw [if_neg hle, dif_neg hle, py_left_len _ (by omega)]
      have h1 := Spec.leftLen_lt (Nat.lt_of_not_le hle)
      have h2 := Spec.leftLen_pos input.length
      have hl : (input.take (Spec.leftLen input.length)).length = Spec.leftLen input.length := by
        rw [List.length_take]; omega
      rw [hl]
      obtain ⟨ol, el, hol⟩ := py_hash_recurse key flags key_words hk fuel (input.take (Spec.leftLen input.length)) offset (by omega)
      obtain ⟨or, er, hor⟩ := py_hash_recurse key flags key_words hk fuel (input.drop (Spec.leftLen input.length))
        (offset + Spec.leftLen input.length) (by rw [List.length_drop]; omega)
      obtain ⟨nl, sl, pl⟩ := ih (input.take (Spec.leftLen input.length)) offset (by omega)
      obtain ⟨nr, sr, pr⟩ := ih (input.drop (Spec.leftLen input.length)) (offset + Spec.leftLen input.length)
        (by rw [List.length_drop]; omega)
      have mk : ∀ {α : Type} (x : PyT.TR α) (r : R α), x.res = r → x = ⟨r, x.log⟩ := fun x r h => by subst h; rfl
      refine ⟨nl ++ (nr ++ ([Spec.subtree key flags offset (input.take (Spec.leftLen input.length))] ++
        [Spec.subtree key flags (offset + Spec.leftLen input.length) (input.drop (Spec.leftLen input.length))])), ?_, ?_⟩
      · rw [rec_bind _ (mk _ _ ((Py.hash_recurse_res ..).trans el)), rec_bind _ (mk _ _ ((Py.hash_recurse_res ..).trans er)),
          PyT.hash_parent, rec_bind _ (py_chaining_value_log hol), rec_bind _ (py_chaining_value_log hor), rec_pure, List.append_nil]
        exact sl.append (sr.append ((Stand.one (PyOut.call hol)).append (Stand.one (PyOut.call hor))))
      · classical
        rw [List.perm_iff_count] at pl pr ⊢
        intro a
        have q1 := pl a
        have q2 := pr a
        simp only [List.count_append] at q1 q2 ⊢
        omega

end

theorem py_hash_internal_log (m : Spec.Mode) (input : Bytes) (key_words : List Nat) (hk : PyCv key_words m.key) (out_len : Nat) :
    ∃ ns, Stand (PyT.hash_internal input key_words m.flag.toNat out_len).log ns ∧ ns.Perm (Spec.outCalls m input out_len) := by
  obtain ⟨o, e, ho⟩ := py_hash_recurse m.key m.flag key_words hk (input.length + 1) input 0 (by omega)
  obtain ⟨ns, s, p⟩ := py_hash_recurse_log m.key m.flag key_words hk (input.length + 1) input 0 (by omega)
  have mk : ∀ {α : Type} (x : PyT.TR α) (r : R α), x.res = r → x = ⟨r, x.log⟩ := fun x r h => by subst h; rfl
  have hr := py_root_loop_log ho (m := m) (input := input) rfl out_len out_len 0 (List.replicate out_len 0) (by omega)
  rw [Nat.mul_zero, Nat.zero_min, Nat.sub_zero, ← List.range_eq_range'] at hr
  refine ⟨_, ?_, p.append_right ((List.range ((out_len + 63) / 64)).map (Spec.outCall m input))⟩
  rw [PyT.hash_internal, rec_bind _ (mk _ _ ((Py.hash_recurse_res ..).trans e))]
  exact s.append hr

end Baokeshed.Proofs.RT
