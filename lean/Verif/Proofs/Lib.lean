import Verif.Proofs.Tree

/-! # The one-shot functions compute the specified hash -/

set_option linter.unusedVariables false
set_option linter.unusedSimpArgs false

namespace Baokeshed.Proofs
open Baokeshed.Model

attribute [local irreducible] Spec.compress Spec.outBytes Spec.cvBytes Spec.pad

/-! ## Platform -/

theorem plat_compress (p : Platform) (cv : Vector Word 8) (b : Vector Byte 64) (l : Byte) (o : U64) (f : Byte) :
    p.compress cv b l o f = Spec.compress ⟨cv, b, l, o, f⟩ := by
  cases p <;> simp only [Platform.compress, sse41_compress_eq, compress_eq]

theorem plat_compress_xof (p : Platform) (cv : Vector Word 8) (b : Vector Byte 64) (l : Byte) (o : U64) (f : Byte) :
    p.compress_xof cv b l o f = Spec.outBytes ⟨cv, b, l, o, f⟩ := by
  cases p <;> simp only [Platform.compress_xof, sse41_compress_xof_eq, compress_xof_eq]

theorem plat_hash_many (p : Platform) (cap : Nat) (hcap : cap % 64 = 0) (xs : List Bytes) (key : Vector Word 8)
    (off d : U64) (flags fs fe : Byte) (out : Bytes) (hx : ∀ x ∈ xs, x.length = cap)
    (hout : 32 * xs.length ≤ out.length) (hoff : off.toNat + xs.length * d.toNat < 2 ^ 64) :
    p.hash_many cap xs key off d flags fs fe out =
      .ok (lanesOut key off d flags fs fe 0 xs ++ out.drop (32 * xs.length)) := by
  have e : p.hash_many cap xs key off d flags fs fe out =
      Portable.hash_many xs key off d flags fs fe out := by
    cases p
    · rfl
    · exact sse41_hash_many_eq cap hcap xs key off d flags fs fe out hx
    · exact avx2_hash_many_eq cap hcap xs key off d flags fs fe out hx
  have e2 := portable_many_append key d flags fs fe xs [] off out
    (fun x h => by rw [hx x h]; exact hcap) hout
  rw [List.append_nil, if_pos hoff] at e2
  rw [e, Portable.hash_many, assertR, if_pos (by simp only [OUT_LEN]; omega), bind_ok, e2]
  rfl

/-- the compression input an `Output` stands for -/
def toInput (o : Output) : Spec.Input := ⟨o.cv, o.block, o.block_len, o.offset, o.flags⟩

theorem to_hash_eq (o : Output) : o.to_hash = Spec.cvBytes (Spec.compress (toInput o)) := by
  rw [Output.to_hash, bytes_from_state_words_eq, plat_compress]; rfl

theorem or_zero8 (x : Byte) : x ||| 0 = x := BitVec.or_zero

/-! ## Chunks -/

theorem pad_drop_le (s : Bytes) (off : Nat) (h : s.length ≤ off + 64) :
    writeAt (List.replicate 64 (0 : Byte)) 0 (s.drop off) =
      .ok (s.drop off ++ List.replicate (64 - (s.length - off)) 0) := by
  rw [writeAt, if_pos (by simp only [List.length_drop, List.length_replicate]; omega), List.drop_replicate,
    List.take_zero, List.nil_append, Nat.zero_add, List.length_drop]

theorem arrayRef_pad (b : Bytes) (h : b.length ≤ 64) :
    arrayRef (b ++ List.replicate (64 - b.length) (0 : Byte)) 0 64 = .ok (Spec.pad b) := by
  rw [arrayRef_block _ 0 (by simp; omega), List.drop_zero]
  refine congrArg Except.ok (Vector.ext fun i hi => ?_)
  rw [pad_getElem, pad_getElem]
  simp only [List.getD_eq_getElem?_getD, List.getElem?_append]
  split
  · rfl
  · rw [List.getElem?_eq_none (l := b) (by omega)]
    simp only [List.getElem?_replicate]
    split <;> rfl

/-- The output of a chunk: everything but the last block absorbed. -/
theorem hash_one_chunk_loop_eq (p : Platform) (chunk : Bytes) (off : Nat) (r : IsRoot) (flags : Byte)
    (cv : Vector Word 8) (bf : Byte) (bo : Nat) (hbo : bo < chunk.length ∨ (bo = 0 ∧ chunk = [])) :
    hash_one_chunk_loop p chunk (BitVec.ofNat 64 off) r flags cv bf bo =
      .ok { cv := (Spec.chunkFrom flags off cv bf (chunk.drop bo)).cv
            block := (Spec.chunkFrom flags off cv bf (chunk.drop bo)).block
            block_len := (Spec.chunkFrom flags off cv bf (chunk.drop bo)).blockLen
            offset := BitVec.ofNat 64 off
            flags := (Spec.chunkFrom flags off cv bf (chunk.drop bo)).flags ||| r.flag
            platform := p } := by
  induction hn : chunk.length - bo using Nat.strongRecOn generalizing cv bf bo with
  | ind n ih =>
  rw [hash_one_chunk_loop, Spec.chunkFrom]
  split
  next h =>
    simp only [BLOCK_LEN] at h
    have hbo' : bo < chunk.length := by omega
    by_cases h1 : bo + BLOCK_LEN = chunk.length
    · simp only [BLOCK_LEN] at h1
      rw [if_pos h1, arrayRef_block _ _ h, bind_ok, pure_eq, dif_pos (by simp; omega)]
      have : (chunk.drop bo).length = 64 := by simp; omega
      simp only [this]
      rfl
    · simp only [BLOCK_LEN] at h1
      rw [if_neg h1, arrayRef_block _ _ h, bind_ok, dif_neg (by simp; omega),
        ih (chunk.length - (bo + 64)) (by omega) _ _ (bo + BLOCK_LEN) (Or.inl (by simp only [BLOCK_LEN]; omega)) rfl,
        plat_compress, List.drop_drop, pad_take]
      rfl
  next h =>
    simp only [BLOCK_LEN] at h
    have hlen : bo ≤ chunk.length := by
      rcases hbo with h | ⟨h, -⟩ <;> omega
    rw [subN, if_pos hlen, bind_ok, show (List.replicate BLOCK_LEN (0 : Byte)) = List.replicate 64 0 from rfl,
      pad_drop_le _ _ (by omega), bind_ok, ← List.length_drop,
      arrayRef_pad _ (by simp; omega), bind_ok, pure_eq, dif_pos (by simp; omega)]
    rfl

theorem hash_one_chunk_eq (chunk : Bytes) (key : Vector Word 8) (off : Nat) (r : IsRoot) (flags : Byte)
    (p : Platform) (hr : r = .root → off = 0) :
    ∃ o, hash_one_chunk chunk key (BitVec.ofNat 64 off) r flags p = .ok o ∧ o.platform = p ∧
      toInput o = { Spec.chunk key flags off chunk with
        flags := (Spec.chunk key flags off chunk).flags ||| r.flag } := by
  have hoff : ∀ (c : Bytes) cv bf, (Spec.chunkFrom flags off cv bf c).offset = BitVec.ofNat 64 off := by
    intro c
    induction hn : c.length using Nat.strongRecOn generalizing c with
    | ind n ih =>
    intro cv bf
    rw [Spec.chunkFrom]
    split
    · rfl
    · exact ih _ (by simp; omega) _ rfl _ _
  have e := hash_one_chunk_loop_eq p chunk off r flags key (flags ||| Flags.CHUNK_START) 0
    (by rcases chunk with _ | _ <;> simp)
  have e' : hash_one_chunk chunk key (BitVec.ofNat 64 off) r flags p =
      hash_one_chunk_loop p chunk (BitVec.ofNat 64 off) r flags key (flags ||| Flags.CHUNK_START) 0 := by
    rw [hash_one_chunk, assertR, if_pos (by intro h; rw [hr h]; rfl), bind_ok]
  rw [e', e]
  refine ⟨_, rfl, rfl, ?_⟩
  rw [List.drop_zero, toInput, Spec.chunk]
  simp only [hoff]
  rfl

theorem cvLoop_chunk (flags : Byte) (off : Nat) (cv : Vector Word 8) (bf : Byte) (s : Bytes)
    (h : s.length % 64 = 0) (h0 : s ≠ []) :
    cvLoop flags Flags.CHUNK_END (BitVec.ofNat 64 off) cv bf s =
      Spec.compress (Spec.chunkFrom flags off cv bf s) := by
  induction hn : s.length using Nat.strongRecOn generalizing s cv bf with
  | ind n ih =>
  have hp : 0 < s.length := List.length_pos_iff.2 h0
  rw [cvLoop, dif_pos (by omega), Spec.chunkFrom]
  by_cases h1 : s.length = 64
  · rw [dif_pos (by omega), if_pos h1, List.drop_of_length_le (by omega), cvLoop, dif_neg (by simp), h1]
    rfl
  · rw [dif_neg (by omega), if_neg h1, ih (s.length - 64) (by omega) _ _ _ (by simp; omega)
      (by intro h; have := congrArg List.length h; simp at this; omega) (by simp), pad_take]

/-! ## Buffers of chaining values -/

section
variable (key : Vector Word 8) (flags : Byte)

/-- chaining value of a tree, as bytes -/
def hashOf (t : Tree Spec.Input) : Vector Byte 32 := Spec.cvBytes (cvOf key flags t)

/-- concatenated chaining values -/
def bufOf (ts : List (Tree Spec.Input)) : Bytes := ts.flatMap fun t => (hashOf key flags t).toList

@[simp] theorem length_bufOf (ts : List (Tree Spec.Input)) : (bufOf key flags ts).length = 32 * ts.length := by
  induction ts with
  | nil => rfl
  | cons t ts ih => simp [bufOf, List.flatMap_cons] at ih ⊢; omega

theorem bufOf_append (a b : List (Tree Spec.Input)) :
    bufOf key flags (a ++ b) = bufOf key flags a ++ bufOf key flags b := by
  simp [bufOf, List.flatMap_append]

theorem bufOf_cons (t : Tree Spec.Input) (ts : List (Tree Spec.Input)) :
    bufOf key flags (t :: ts) = (hashOf key flags t).toList ++ bufOf key flags ts := rfl

/-- leaves made from a list of chunks -/
def chunkLeaves (off : Nat) : List Bytes → List (Tree Spec.Input)
  | [] => []
  | c :: cs => .leaf (Spec.chunk key flags off c) :: chunkLeaves (off + 2048) cs

@[simp] theorem length_chunkLeaves (off : Nat) (cs : List Bytes) :
    (chunkLeaves key flags off cs).length = cs.length := by
  induction cs generalizing off with
  | nil => rfl
  | cons c cs ih => rw [chunkLeaves, List.length_cons, ih, List.length_cons]

theorem chunksExact_step {α} (n : Nat) (s : List α) (h : 0 < n ∧ n ≤ s.length) :
    chunksExact n s = s.take n :: chunksExact n (s.drop n) := by
  rw [chunksExact, dif_pos h]

theorem chunksExact_short {α} (n : Nat) (s : List α) (h : s.length < n) : chunksExact n s = [] := by
  rw [chunksExact, dif_neg (by omega)]

theorem mem_chunksExact {α} (n : Nat) (hn : 0 < n) (s : List α) : ∀ x ∈ chunksExact n s, x.length = n := by
  induction hl : s.length using Nat.strongRecOn generalizing s with
  | ind l ih =>
  intro x hx
  by_cases h : n ≤ s.length
  · rw [chunksExact_step n s ⟨hn, h⟩] at hx
    rcases List.mem_cons.1 hx with rfl | hx
    · simp; omega
    · exact ih (s.drop n).length (by simp; omega) _ rfl x hx
  · rw [chunksExact_short n s (by omega)] at hx; simp at hx

theorem length_chunksExact {α} (n : Nat) (hn : 0 < n) (s : List α) : (chunksExact n s).length = s.length / n := by
  induction hl : s.length using Nat.strongRecOn generalizing s with
  | ind l ih =>
  by_cases h : n ≤ s.length
  · rw [chunksExact_step n s ⟨hn, h⟩, List.length_cons, ih (l - n) (by omega) _ (by simp; omega),
      Nat.div_eq_sub_div hn (a := l) (by omega)]
  · rw [chunksExact_short n s (by omega), Nat.div_eq_of_lt (by omega)]; rfl

theorem flatten_chunksExact {α} (n : Nat) (hn : 0 < n) (s : List α) :
    (chunksExact n s).flatten = s.take (s.length / n * n) := by
  induction hl : s.length using Nat.strongRecOn generalizing s with
  | ind l ih =>
  by_cases h : n ≤ s.length
  · rw [chunksExact_step n s ⟨hn, h⟩, List.flatten_cons, ih (l - n) (by omega) _ (by simp; omega),
      Nat.div_eq_sub_div hn (a := l) (by omega), Nat.add_mul, Nat.one_mul, Nat.add_comm,
      List.take_add]
  · rw [chunksExact_short n s (by omega), Nat.div_eq_of_lt (by omega)]; simp

theorem leaves_eq_chunks (off : Nat) (input : Bytes) (h0 : input ≠ []) :
    leaves key flags off input = chunkLeaves key flags off (chunksExact 2048 input) ++
      (if chunksRemainder 2048 input = [] then []
       else [.leaf (Spec.chunk key flags (off + 2048 * (chunksExact 2048 input).length)
              (chunksRemainder 2048 input))]) := by
  induction hl : input.length using Nat.strongRecOn generalizing input off with
  | ind l ih =>
  have hp : 0 < input.length := List.length_pos_iff.2 h0
  rw [leaves]
  by_cases h : input.length ≤ 2048
  · rw [dif_pos h]
    by_cases h1 : input.length = 2048
    · have hrem : chunksRemainder 2048 input = [] := by
        rw [chunksRemainder, h1]; exact List.drop_of_length_le (by omega)
      rw [if_pos hrem, chunksExact_step 2048 input (by omega), List.take_of_length_le (by omega),
        List.drop_of_length_le (by omega), chunksExact_short _ _ (by simp)]
      rfl
    · have hrem : chunksRemainder 2048 input = input := by
        rw [chunksRemainder, Nat.div_eq_of_lt (by omega)]; rfl
      rw [hrem, if_neg h0, chunksExact_short 2048 input (by omega)]
      rfl
  · have hrem : chunksRemainder 2048 (input.drop 2048) = chunksRemainder 2048 input := by
      unfold chunksRemainder
      rw [List.drop_drop, List.length_drop]
      congr 1; omega
    rw [dif_neg h, ih (l - 2048) (by omega) _ _
      (by intro h; have := congrArg List.length h; simp at this; omega) (by simp; omega),
      chunksExact_step 2048 input (by omega), chunkLeaves, List.cons_append, hrem, List.length_cons,
      show off + 2048 + 2048 * (chunksExact 2048 (input.drop 2048)).length =
        off + 2048 * ((chunksExact 2048 (input.drop 2048)).length + 1) by omega]

theorem lanesOut_chunks (off : Nat) (cs : List Bytes) (hc : ∀ c ∈ cs, c.length = 2048) (hoff : off < 2 ^ 64)
    (i : Nat) :
    lanesOut key (BitVec.ofNat 64 off) (BitVec.ofNat 64 2048) flags Flags.CHUNK_START Flags.CHUNK_END i cs =
      bufOf key flags (chunkLeaves key flags (off + 2048 * i) cs) := by
  induction cs generalizing i with
  | nil => rfl
  | cons c cs ih =>
    have hl := hc c (List.mem_cons_self ..)
    have ho : offs (BitVec.ofNat 64 off) (BitVec.ofNat 64 2048) i = BitVec.ofNat 64 (off + 2048 * i) := by
      rw [offs, BitVec.toNat_ofNat, Nat.mod_eq_of_lt hoff, BitVec.toNat_ofNat, Nat.mul_comm]
    rw [lanesOut, ih (fun x hx => hc x (List.mem_cons_of_mem _ hx)), chunkLeaves, bufOf_cons, ho,
      cvLoop_chunk _ _ _ _ _ (by omega) (by intro h; rw [h] at hl; simp at hl),
      show off + 2048 * (i + 1) = off + 2048 * i + 2048 by omega]
    rfl

/-- number of chunks of a non-empty input -/
def nChunks (len : Nat) : Nat := (len - 1) / 2048 + 1

theorem hash_chunks_parallel_eq (cfg : Config) (input : Bytes) (off : Nat) (p : Platform) (out : Bytes)
    (h0 : input ≠ []) (h1 : input.length ≤ MAX_SIMD_DEGREE cfg * 2048) (hoff : off % 2048 = 0)
    (hlt : off + input.length < 2 ^ 64) (hout : 32 * nChunks input.length ≤ out.length) :
    hash_chunks_parallel cfg input key (BitVec.ofNat 64 off) flags p out =
      .ok (nChunks input.length,
        bufOf key flags (leaves key flags off input) ++ out.drop (32 * nChunks input.length)) := by
  have hp : 0 < input.length := List.length_pos_iff.2 h0
  have hl := length_chunksExact 2048 (by decide) input
  have hrl : (chunksRemainder 2048 input).length = input.length % 2048 := by
    rw [chunksRemainder, List.length_drop]; omega
  have hmod : BitVec.ofNat 64 off % BitVec.ofNat 64 CHUNK_LEN = 0 := by
    apply BitVec.eq_of_toNat_eq
    rw [BitVec.toNat_umod, BitVec.toNat_ofNat, BitVec.toNat_ofNat, Nat.mod_eq_of_lt (a := off) (by omega)]
    simpa [CHUNK_LEN] using hoff
  unfold nChunks at *
  rw [hash_chunks_parallel, assertR, if_pos h0, bind_ok, assertR, if_pos h1, bind_ok, assertR, if_pos hmod,
    bind_ok, pushAll, if_pos (by simp only [CHUNK_LEN] at *; rw [hl]; omega), bind_ok]
  simp only [CHUNK_LEN] at *
  have hdiv : input.length / 2048 * 2048 ≤ input.length := Nat.div_mul_le_self _ _
  rw [plat_hash_many p 2048 (by decide) _ _ _ _ _ _ _ _ (mem_chunksExact 2048 (by decide) input)
    (by rw [hl]; omega)
    (by rw [hl, BitVec.toNat_ofNat, BitVec.toNat_ofNat, Nat.mod_eq_of_lt (a := off) (by omega)]; omega),
    bind_ok, lanesOut_chunks key flags off _ (mem_chunksExact 2048 (by decide) input) (by omega),
    leaves_eq_chunks key flags off input h0]
  by_cases hr : chunksRemainder 2048 input = []
  · have hm : input.length % 2048 = 0 := by rw [← hrl, hr]; rfl
    rw [if_neg (by simpa using hr), if_pos hr, hl, pure_eq, List.append_nil, Nat.mul_zero, Nat.add_zero,
      show (input.length - 1) / 2048 + 1 = input.length / 2048 by omega]
  · have hm : 0 < input.length % 2048 := by rw [← hrl]; exact List.length_pos_iff.2 hr
    have e1 : mulU64 (BitVec.ofNat 64 (chunksExact 2048 input).length) (BitVec.ofNat 64 2048) =
        .ok (BitVec.ofNat 64 (2048 * (chunksExact 2048 input).length)) := by
      have ea : (BitVec.ofNat 64 (chunksExact 2048 input).length).toNat = (chunksExact 2048 input).length := by
        rw [BitVec.toNat_ofNat, Nat.mod_eq_of_lt (by rw [hl]; omega)]
      rw [mulU64, ea, if_pos (by rw [hl, BitVec.toNat_ofNat]; omega)]
      refine congrArg Except.ok (BitVec.eq_of_toNat_eq ?_)
      rw [BitVec.toNat_mul, ea, BitVec.toNat_ofNat, BitVec.toNat_ofNat, Nat.mul_comm]
    have e2 : addU64 (BitVec.ofNat 64 off) (BitVec.ofNat 64 (2048 * (chunksExact 2048 input).length)) =
        .ok (BitVec.ofNat 64 (off + 2048 * (chunksExact 2048 input).length)) := by
      rw [addU64, if_pos (by
        rw [BitVec.toNat_ofNat, BitVec.toNat_ofNat, Nat.mod_eq_of_lt (by omega), Nat.mod_eq_of_lt (by rw [hl]; omega), hl]
        omega)]
      refine congrArg Except.ok (BitVec.eq_of_toNat_eq ?_)
      rw [BitVec.toNat_add, BitVec.toNat_ofNat, BitVec.toNat_ofNat, BitVec.toNat_ofNat]
      simp
    obtain ⟨o, eo, -, ho⟩ := hash_one_chunk_eq (chunksRemainder 2048 input) key
      (off + 2048 * (chunksExact 2048 input).length) .notRoot flags p (by intro h; cases h)
    have hto : o.to_hash = hashOf key flags (.leaf (Spec.chunk key flags
        (off + 2048 * (chunksExact 2048 input).length) (chunksRemainder 2048 input))) := by
      rw [to_hash_eq, ho]
      simp only [IsRoot.flag, or_zero8]
      rfl
    rw [if_pos (by simpa using hr), if_neg hr, e1, bind_ok, e2, bind_ok, eo, bind_ok, hto,
      writeAt_append _ _ _ _ (by simp [OUT_LEN]; omega) (by simp; rw [hl]; omega), bind_ok, pure_eq,
      List.drop_drop, bufOf_append, bufOf_cons, Vector.length_toList]
    simp only [hl, bufOf, List.flatMap_nil, List.append_nil, List.append_assoc, Nat.mul_zero, Nat.add_zero]
    rw [show (input.length - 1) / 2048 + 1 = input.length / 2048 + 1 by omega, Nat.mul_succ]

/-! ## Parents -/

theorem pad_two (l r : Vector Byte 32) (t : Bytes) (h : t = []) : Spec.pad (l.toList ++ r.toList ++ t) = l ++ r := by
  subst h
  apply Vector.ext
  intro i hi
  rw [pad_getElem, List.append_nil, List.getD_eq_getElem?_getD, List.getElem?_append, Vector.getElem_append]
  simp only [Vector.length_toList]
  split
  next h => simp [h]
  next h => simp [show i - 32 < 32 by omega]

theorem cvLoop_parent (x y : Tree Spec.Input) :
    cvLoop (flags ||| Flags.PARENT) 0 0 key (flags ||| Flags.PARENT ||| 0)
      ((hashOf key flags x).toList ++ (hashOf key flags y).toList) = cvOf key flags (.node x y) := by
  rw [cvLoop, dif_pos (by simp), List.drop_of_length_le (by simp), cvLoop, dif_neg (by simp), if_pos (by simp),
    ← List.append_nil (_ ++ _), pad_two _ _ _ rfl, or_zero8, or_zero8]
  rfl

theorem chunksRemainder_append {α} (n : Nat) (hn : 0 < n) (a b : List α) (ha : a.length = n) :
    chunksRemainder n (a ++ b) = chunksRemainder n b := by
  unfold chunksRemainder
  rw [List.length_append, ha, Nat.add_div_left _ hn, Nat.succ_mul, Nat.add_comm, ← List.drop_drop,
    List.drop_left' ha]

theorem chunksExact_append {α} (n : Nat) (hn : 0 < n) (a b : List α) (ha : a.length = n) :
    chunksExact n (a ++ b) = a :: chunksExact n b := by
  rw [chunksExact_step n (a ++ b) ⟨hn, by simp; omega⟩, List.take_left' ha, List.drop_left' ha]

theorem lanesOut_parents (ts : List (Tree Spec.Input)) (i : Nat) :
    lanesOut key 0 0 (flags ||| Flags.PARENT) 0 0 i (chunksExact 64 (bufOf key flags ts)) ++
      chunksRemainder 64 (bufOf key flags ts) = bufOf key flags (pairs ts) := by
  induction ts using pairs.induct generalizing i with
  | case1 => rw [chunksExact_short _ _ (by simp)]; simp [lanesOut, chunksRemainder, bufOf, pairs]
  | case2 x =>
    rw [chunksExact_short _ _ (by simp), chunksRemainder, length_bufOf]; simp [lanesOut, pairs]
  | case3 x y r ih =>
    have e : offs 0 0 i = 0 := by rw [offs]; simp
    rw [bufOf_cons, bufOf_cons, ← List.append_assoc, chunksExact_append 64 (by decide) _ _ (by simp),
      chunksRemainder_append 64 (by decide) _ _ (by simp), lanesOut, List.append_assoc, ih, e, cvLoop_parent,
      pairs, bufOf_cons]
    rfl

theorem length_lanesOut (off d : U64) (fl fs fe : Byte) (i : Nat) (xs : List Bytes) :
    (lanesOut key off d fl fs fe i xs).length = 32 * xs.length := by
  induction xs generalizing i with
  | nil => rfl
  | cons x xs ih => rw [lanesOut, List.length_append, ih, Vector.length_toList, List.length_cons]; omega

theorem hash_parents_parallel_eq (cfg : Config) (ts : List (Tree Spec.Input)) (p : Platform) (out : Bytes)
    (h1 : 2 ≤ ts.length) (h2 : ts.length ≤ 2 * MAX_SIMD_DEGREE_OR_2 cfg)
    (hout : 32 * (pairs ts).length ≤ out.length) :
    hash_parents_parallel cfg (bufOf key flags ts) key flags p out =
      .ok ((pairs ts).length, bufOf key flags (pairs ts) ++ out.drop (32 * (pairs ts).length)) := by
  have hl := length_bufOf key flags ts
  have hcl := length_chunksExact 64 (by decide) (bufOf key flags ts)
  have hrl : (chunksRemainder 64 (bufOf key flags ts)).length = (bufOf key flags ts).length % 64 := by
    rw [chunksRemainder, List.length_drop]; omega
  have hpl := length_pairs ts
  have hlanes := lanesOut_parents key flags ts 0
  rw [hl] at hcl hrl
  rw [hash_parents_parallel, assertR, if_pos (by rw [hl]; simp only [OUT_LEN]; omega), bind_ok]
  dsimp only
  rw [assertR,
    if_pos (by rw [hl]; simp only [OUT_LEN]; omega), bind_ok, assertR,
    if_pos (by rw [hl]; simp only [OUT_LEN]; omega), bind_ok, pushAll,
    if_pos (by simp only [BLOCK_LEN]; rw [hcl]; omega), bind_ok]
  simp only [BLOCK_LEN, OUT_LEN]
  rw [plat_hash_many p 64 (by decide) _ _ _ _ _ _ _ _ (mem_chunksExact 64 (by decide) _) (by rw [hcl]; omega)
    (by simp), bind_ok]
  by_cases hr : chunksRemainder 64 (bufOf key flags ts) = []
  · have hm : 32 * ts.length % 64 = 0 := by rw [← hrl, hr]; rfl
    rw [hr, List.append_nil] at hlanes
    rw [if_neg (by simpa using hr), hlanes, hcl, pure_eq, hpl,
      show 32 * ts.length / 64 = (ts.length + 1) / 2 by omega]
  · have hm : 0 < 32 * ts.length % 64 := by rw [← hrl]; exact List.length_pos_iff.2 hr
    have hr32 : (chunksRemainder 64 (bufOf key flags ts)).length = 32 := by rw [hrl]; omega
    rw [if_pos (by simpa using hr), assertR, if_pos hr32, bind_ok,
      writeAt_append _ _ _ _ (by rw [length_lanesOut]; omega)
        (by rw [hr32, List.length_drop, hcl]; omega), bind_ok, pure_eq, List.drop_drop, hr32, hlanes, hcl, hpl,
      show 32 * ts.length / 64 + 1 = (ts.length + 1) / 2 by omega,
      show 32 * (32 * ts.length / 64) + 32 = 32 * ((ts.length + 1) / 2) by omega]

/-! ## left_len -/

theorem left_len_eq {w n : Nat} (h : CHUNK_LEN < n) (hw : n < 2 ^ w) :
    left_len w n = .ok (2048 * lp (nChunks n)) := by
  have h1 : 1 ≤ (n - 1) / CHUNK_LEN := by
    rw [Nat.le_div_iff_mul_le (by decide)]; simp only [CHUNK_LEN] at *; omega
  have e := log2_half_add_one h1
  have hle := Nat.log2_self_le (n := (n - 1) / CHUNK_LEN) (by omega)
  have e2 : lp (nChunks n) = 2 ^ ((n - 1) / CHUNK_LEN).log2 := by
    rw [nChunks, lp, Nat.add_sub_cancel]
  have hd := Nat.div_mul_le_self (n - 1) CHUNK_LEN
  have hd2 := Nat.mul_le_mul_right CHUNK_LEN hle
  have hd3 := Nat.div_le_self (n - 1) CHUNK_LEN
  rw [left_len, assertR, if_pos h, bind_ok]
  simp only [largest_power_of_two_leq, addN, nextPowerOfTwo]
  rw [if_pos (by omega), bind_ok, e, if_pos (by omega), bind_ok, mulN, if_pos (by omega), e2, Nat.mul_comm]

/-! ## The recursion -/

theorem simd_pow (p : Platform) : ∃ k, p.simd_degree = 2 ^ k ∧ k ≤ 3 := by
  cases p
  · exact ⟨0, rfl, by decide⟩
  · exact ⟨2, rfl, by decide⟩
  · exact ⟨3, rfl, by decide⟩

theorem popcount_simd (p : Platform) : popcount p.simd_degree = 1 := by
  cases p <;> simp [Platform.simd_degree, popcount]

theorem detect_le (cfg : Config) : (Platform.detect cfg).simd_degree ≤ MAX_SIMD_DEGREE cfg := by
  unfold Platform.detect MAX_SIMD_DEGREE
  split
  · split
    · decide
    · split <;> decide
  · decide

theorem or_2_ge (cfg : Config) (d : Nat) (h : d ≤ MAX_SIMD_DEGREE cfg) :
    max d 2 ≤ MAX_SIMD_DEGREE_OR_2 cfg := by
  unfold MAX_SIMD_DEGREE at h
  unfold MAX_SIMD_DEGREE_OR_2
  split at h <;> split <;> simp_all <;> omega

theorem addU64_ofNat (a b : Nat) (h : a + b < 2 ^ 64) :
    addU64 (BitVec.ofNat 64 a) (BitVec.ofNat 64 b) = .ok (BitVec.ofNat 64 (a + b)) := by
  rw [addU64, if_pos (by
    rw [BitVec.toNat_ofNat, BitVec.toNat_ofNat, Nat.mod_eq_of_lt (by omega), Nat.mod_eq_of_lt (by omega)]
    omega)]
  refine congrArg Except.ok (BitVec.eq_of_toNat_eq ?_)
  rw [BitVec.toNat_add, BitVec.toNat_ofNat, BitVec.toNat_ofNat, BitVec.toNat_ofNat]
  simp

/-- Result of the recursion: a list of trees, in order, whose tree is the tree of the leaves. -/
structure RecOk (deg : Nat) (off : Nat) (input : Bytes) (T : List (Tree Spec.Input)) : Prop where
  shape_eq : shape T = shape (leaves key flags off input)
  pos : 1 ≤ T.length
  le : T.length ≤ min (nChunks input.length) (max deg 2)
  two : 2 ≤ nChunks input.length → 2 ≤ T.length
  pow : ∀ k, nChunks input.length = 2 ^ k → T.length = min (nChunks input.length) (max deg 2)

theorem hash_recurse_eq (cfg : Config) (p : Platform) (hp : p.simd_degree ≤ MAX_SIMD_DEGREE cfg)
    (input : Bytes) (off : Nat) (out : Bytes) (h0 : input ≠ []) (hoff : off % 2048 = 0)
    (hlt : off + input.length < 2 ^ 64) (hw : input.length < 2 ^ cfg.usizeBits)
    (hout : 32 * min (nChunks input.length) (max p.simd_degree 2) ≤ out.length) :
    ∃ T, RecOk key flags p.simd_degree off input T ∧
      hash_recurse cfg input key (BitVec.ofNat 64 off) flags p out =
        .ok (T.length, bufOf key flags T ++ out.drop (32 * T.length)) := by
  induction hn : input.length using Nat.strongRecOn generalizing input off out with
  | ind n ih =>
  have hpos : 0 < input.length := List.length_pos_iff.2 h0
  obtain ⟨kd, hkd, hkd3⟩ := simd_pow p
  have hdpos : 0 < p.simd_degree := by rw [hkd]; exact Nat.two_pow_pos _
  have hor2 := or_2_ge cfg _ hp
  rw [hash_recurse]
  by_cases h : input.length ≤ p.simd_degree * CHUNK_LEN
  · have hN : nChunks input.length ≤ p.simd_degree := by
      unfold nChunks; simp only [CHUNK_LEN] at h; omega
    have hll : (leaves key flags off input).length = nChunks input.length := length_leaves key flags off input
    refine ⟨leaves key flags off input, ⟨rfl, ?_, ?_, ?_, ?_⟩, ?_⟩
    · rw [hll]; unfold nChunks; omega
    · rw [hll]; omega
    · rw [hll]; exact id
    · intro _ _; rw [hll]; omega
    · rw [if_pos h, hash_chunks_parallel_eq key flags cfg input off p out h0
        (Nat.le_trans h (Nat.mul_le_mul_right _ hp)) hoff hlt (by omega), hll]
  · have hcl : CHUNK_LEN < input.length := by
      have := Nat.mul_le_mul_right CHUNK_LEN (show 1 ≤ p.simd_degree from hdpos); omega
    have hN : p.simd_degree < nChunks input.length := by
      simp only [CHUNK_LEN] at h; unfold nChunks; omega
    have hN2 : 2 ≤ nChunks input.length := by omega
    have hlp1 := lp_lt hN2
    have hlp2 := le_two_lp hN2
    have hlp0 := lp_pos (nChunks input.length)
    obtain ⟨kl, hkl⟩ : ∃ k, lp (nChunks input.length) = 2 ^ k := ⟨_, rfl⟩
    have hdl : p.simd_degree ≤ lp (nChunks input.length) := by
      rw [hkd, hkl]
      rw [hkd] at hN; rw [hkl] at hlp2
      have : 2 ^ kd < 2 ^ (kl + 1) := by rw [Nat.pow_succ]; omega
      exact Nat.pow_le_pow_right (by decide) (by have := (Nat.pow_lt_pow_iff_right (by decide)).1 this; omega)
    generalize hNl : lp (nChunks input.length) = Nl at *
    have hlen : 2048 * Nl < input.length := by unfold nChunks at hlp1; omega
    -- left and right
    have hleft : (input.take (2048 * Nl)).length = 2048 * Nl := by rw [List.length_take]; omega
    have hright : (input.drop (2048 * Nl)).length = input.length - 2048 * Nl := List.length_drop
    have hNleft : nChunks (input.take (2048 * Nl)).length = Nl := by rw [hleft]; unfold nChunks; omega
    have hNright : nChunks (input.drop (2048 * Nl)).length = nChunks input.length - Nl := by
      rw [hright]; unfold nChunks; omega
    have hne : input.drop (2048 * Nl) ≠ [] := by
      intro h; have := congrArg List.length h; simp at this; omega
    obtain ⟨deg, hdeg⟩ : ∃ d, d = (if Nl = 1 then 1 else max p.simd_degree 2) := ⟨_, rfl⟩
    have hdegmin : deg = min Nl (max p.simd_degree 2) := by
      rw [hdeg]; split <;> omega
    have hll : left_len cfg.usizeBits input.length = .ok (2048 * Nl) := by rw [left_len_eq hcl hw, hNl]
    obtain ⟨TL, hTL, eL⟩ := ih (2048 * Nl) (by omega) (input.take (2048 * Nl)) off
      (List.take (deg * 32) (List.replicate (2 * MAX_SIMD_DEGREE_OR_2 cfg * 32) 0))
      (by intro h; have := congrArg List.length h; rw [hleft] at this; simp at this; omega) hoff
      (by rw [hleft]; omega) (by rw [hleft]; omega)
      (by rw [hNleft, ← hdegmin, List.length_take, List.length_replicate]; omega) hleft
    obtain ⟨TR, hTR, eR⟩ := ih (input.length - 2048 * Nl) (by omega) (input.drop (2048 * Nl)) (off + 2048 * Nl)
      (List.drop (deg * 32) (List.replicate (2 * MAX_SIMD_DEGREE_OR_2 cfg * 32) 0))
      hne (by omega) (by rw [hright]; omega) (by rw [hright]; omega)
      (by rw [hNright, List.length_drop, List.length_replicate]; omega) hright
    have hTLlen : TL.length = deg := by rw [hTL.pow kl (by rw [hNleft, hkl]), hNleft, hdegmin]
    have hTRle := hTR.le
    have hTRpos := hTR.pos
    rw [hNright] at hTRle
    have hTRlen : TR.length ≤ deg := by omega
    have hpow : ∃ j, deg = 2 ^ j := by
      rw [hdeg]; split
      · exact ⟨0, rfl⟩
      · by_cases h1 : kd = 0
        · exact ⟨1, by rw [hkd, h1]; rfl⟩
        · refine ⟨kd, ?_⟩
          rw [hkd]
          have := Nat.pow_le_pow_right (n := 2) (by decide) (show 1 ≤ kd by omega)
          omega
    obtain ⟨kdeg, hkdeg⟩ := hpow
    have hshape : shape (TL ++ TR) = shape (leaves key flags off input) := by
      rw [shape_append TL TR kdeg (by omega) hTR.pos (by omega), hTL.shape_eq, hTR.shape_eq,
        ← shape_append _ _ kl (by rw [length_leaves]; exact hNleft.trans hkl) (by rw [length_leaves]; omega)
          (by rw [length_leaves]; show nChunks _ ≤ _; rw [hNright]; omega)]
      have e := leaves_append key flags off (input.take (2048 * Nl)) (input.drop (2048 * Nl)) (Nl - 1)
        (by rw [hleft]; omega) hne
      rw [List.take_append_drop, hleft] at e
      rw [e]
    have hTLdrop : (List.take (deg * 32) (List.replicate (2 * MAX_SIMD_DEGREE_OR_2 cfg * 32) (0 : Byte))).drop
        (32 * TL.length) = [] := List.drop_of_length_le (by rw [List.length_take]; omega)
    have hRHS : ∀ x : R (Nat × Bytes), x = (do
        if deg = 1 then
          let c ← sliceTo (bufOf key flags (TL ++ TR) ++ (List.drop (deg * 32) (List.replicate
            (2 * MAX_SIMD_DEGREE_OR_2 cfg * 32) 0)).drop (32 * TR.length)) (2 * OUT_LEN)
          let out ← writeAt out 0 c
          return (2, out)
        else
          let c ← sliceTo (bufOf key flags (TL ++ TR) ++ (List.drop (deg * 32) (List.replicate
            (2 * MAX_SIMD_DEGREE_OR_2 cfg * 32) 0)).drop (32 * TR.length)) ((deg + TR.length) * OUT_LEN)
          hash_parents_parallel cfg c key flags p out) → ∃ T, RecOk key flags p.simd_degree off input T ∧
            x = .ok (T.length, bufOf key flags T ++ out.drop (32 * T.length)) := by
      intro x hx
      have htl : (TL ++ TR).length = deg + TR.length := by rw [List.length_append, hTLlen]
      by_cases h1 : deg = 1
      · have hNl1 : Nl = 1 := by omega
        have hT2 : (TL ++ TR).length = 2 := by omega
        refine ⟨TL ++ TR, ⟨hshape, by omega, by omega, by omega, by intro k hk; omega⟩, ?_⟩
        rw [hx, if_pos h1, sliceTo, if_pos (by rw [List.length_append, length_bufOf]; simp only [OUT_LEN]; omega),
          bind_ok, List.take_left' (by rw [length_bufOf]; simp only [OUT_LEN]; omega), writeAt,
          if_pos (by rw [length_bufOf]; omega), bind_ok, pure_eq, hT2, List.take_zero, List.nil_append, length_bufOf, hT2]
      · have hNl1 : Nl ≠ 1 := by intro h; rw [if_pos h] at hdeg; exact h1 hdeg
        rw [if_neg hNl1] at hdeg
        have hpl := length_pairs (TL ++ TR)
        refine ⟨pairs (TL ++ TR), ⟨(shape_pairs _).trans hshape, by omega, by omega, by omega, ?_⟩, ?_⟩
        · intro k hk
          -- a power of two splits in halves
          have hk' : 2 ^ k = 2 * Nl := by
            have hk0 : k ≠ 0 := by intro h; rw [h] at hk; omega
            obtain ⟨j, rfl⟩ := Nat.exists_eq_succ_of_ne_zero hk0
            rw [← hNl, hk, lp_eq (k := j) (by rw [Nat.pow_succ]; have := Nat.two_pow_pos j; omega)
              (by rw [Nat.pow_succ]; omega), Nat.pow_succ]; omega
          have hr := hTR.pow kl (by rw [hNright]; omega)
          rw [hNright] at hr
          omega
        · rw [hx, if_neg h1, sliceTo,
            if_pos (by rw [List.length_append, length_bufOf]; simp only [OUT_LEN]; omega), bind_ok,
            List.take_left' (by rw [length_bufOf]; simp only [OUT_LEN]; omega),
            hash_parents_parallel_eq key flags cfg _ p out (by omega) (by omega) (by omega)]
    apply hRHS
    rw [if_neg h]
    split
    next e he => rw [hll] at he; cases he
    next l he =>
      rw [hll] at he
      obtain rfl := Except.ok.inj he
      dsimp only
      rw [hleft, addU64_ofNat _ _ (by omega), bind_ok, assertR, if_pos (popcount_simd p), bind_ok]
      have hif : (if 2048 * Nl = CHUNK_LEN then 1 else max p.simd_degree 2) = deg := by
        rw [hdeg]; simp only [CHUNK_LEN]; congr 1; apply propext; omega
      rw [hif]
      simp only [OUT_LEN]
      rw [splitAtR, if_pos (by rw [List.length_replicate]; omega), bind_ok]
      dsimp only
      rw [eL, bind_ok]
      dsimp only
      rw [eR, bind_ok]
      dsimp only
      rw [assertR, if_pos hTLlen, bind_ok, assertR, if_pos (by omega), bind_ok, hTLdrop, List.append_nil,
        ← List.append_assoc, ← bufOf_append, hTLlen]

/-! ## The root -/

theorem condense_loop_eq (cfg : Config) (p : Platform) (n : Nat) (T : List (Tree Spec.Input)) (out : Bytes)
    (h2 : 2 ≤ T.length) (hle : T.length ≤ MAX_SIMD_DEGREE_OR_2 cfg) (hn : T.length ≤ n)
    (hout : 2 < T.length → 32 * (pairs T).length ≤ out.length) :
    ∃ a b, shape T = .node a b ∧ condense_loop cfg key flags p n (bufOf key flags T) out =
      .ok (bufOf key flags [a, b]) := by
  induction n generalizing T out with
  | zero => omega
  | succ n ih =>
    rw [condense_loop]
    by_cases h : 2 < T.length
    · have hpl := length_pairs T
      have hpp := length_pairs (pairs T)
      rw [if_pos (by rw [length_bufOf]; simp only [BLOCK_LEN]; omega),
        hash_parents_parallel_eq key flags cfg T p out h2 (by omega) (hout h), bind_ok]
      dsimp only
      rw [sliceTo, if_pos (by rw [List.length_append, length_bufOf]; simp only [OUT_LEN]; omega), bind_ok,
        List.take_left' (by rw [length_bufOf]; simp only [OUT_LEN]; omega), writeAt,
        if_pos (by rw [length_bufOf, length_bufOf]; omega), bind_ok, List.take_zero, List.nil_append, sliceTo,
        if_pos (by rw [List.length_append, length_bufOf]; simp only [OUT_LEN]; omega), bind_ok,
        List.take_left' (by rw [length_bufOf]; simp only [OUT_LEN]; omega)]
      obtain ⟨a, b, hs, e⟩ := ih (pairs T) (bufOf key flags (pairs T) ++ out.drop (32 * (pairs T).length)) (by omega)
        (by omega) (by omega) (by rw [List.length_append, length_bufOf]; omega)
      exact ⟨a, b, (shape_pairs T).symm.trans hs, e⟩
    · rw [if_neg (by rw [length_bufOf]; simp only [BLOCK_LEN]; omega)]
      match T, h2, h with
      | [a, b], _, _ =>
        refine ⟨a, b, ?_, rfl⟩
        rw [show [a, b] = [a] ++ [b] from rfl, shape_append [a] [b] 0 rfl (by simp) (by simp), shape_one, shape_one]
      | a :: b :: c :: r, _, h => simp at h

/-- the same input as the root of the tree -/
def asRoot (n : Spec.Input) : Spec.Input := { n with flags := n.flags ||| Spec.rootFlag }

theorem condense_root_eq (cfg : Config) (p : Platform) (T : List (Tree Spec.Input))
    (h2 : 2 ≤ T.length) (hle : T.length ≤ MAX_SIMD_DEGREE_OR_2 cfg) :
    ∃ o, condense_root cfg (bufOf key flags T) key flags p = .ok o ∧ o.platform = p ∧
      toInput o = asRoot (inp key flags (shape T)) := by
  have hl := length_bufOf key flags T
  obtain ⟨a, b, hs, e⟩ := condense_loop_eq key flags cfg p ((bufOf key flags T).length + 1) T
    (List.replicate (MAX_SIMD_DEGREE cfg * OUT_LEN / 2) 0) h2 hle (by omega) (by
      intro h
      rw [length_pairs, List.length_replicate]
      unfold MAX_SIMD_DEGREE
      unfold MAX_SIMD_DEGREE_OR_2 at hle
      simp only [OUT_LEN]
      split at hle <;> simp_all <;> omega)
  have e' : condense_root cfg (bufOf key flags T) key flags p = .ok
      { cv := key, block := hashOf key flags a ++ hashOf key flags b, block_len := BitVec.ofNat 8 BLOCK_LEN, offset := 0,
        flags := flags ||| Flags.PARENT ||| Flags.ROOT, platform := p } := by
    rw [condense_root, assertR, if_pos (by rw [hl]; simp only [OUT_LEN]; omega), bind_ok, assertR,
      if_pos (by rw [hl]; simp only [BLOCK_LEN]; omega), bind_ok]
    dsimp only
    rw [e, bind_ok]
    simp only [BLOCK_LEN]
    rw [arrayRef_block _ _ (by rw [length_bufOf]; simp), bind_ok, pure_eq, List.drop_zero, bufOf_cons, bufOf_cons,
      ← List.append_assoc, pad_two _ _ (bufOf key flags []) rfl]
  exact ⟨_, e', rfl, by rw [hs]; rfl⟩

theorem hash_internal_eq (cfg : Config) (input : Bytes) (hw : input.length < 2 ^ cfg.usizeBits)
    (h64 : input.length < 2 ^ 64) :
    ∃ o, hash_internal cfg input key flags = .ok o ∧ o.platform = Platform.detect cfg ∧
      toInput o = asRoot (Spec.subtree key flags 0 input) := by
  rw [hash_internal]
  dsimp only
  by_cases h : input.length ≤ CHUNK_LEN
  · rw [if_pos h]
    obtain ⟨o, e, hp, ho⟩ := hash_one_chunk_eq input key 0 .root flags (Platform.detect cfg) (fun _ => rfl)
    refine ⟨o, e, hp, ho.trans ?_⟩
    rw [subtree_eq, leaves, dif_pos h, shape_one]
    rfl
  · rw [if_neg h]
    simp only [CHUNK_LEN] at h
    have hor := or_2_ge cfg _ (detect_le cfg)
    obtain ⟨T, hT, e⟩ := hash_recurse_eq key flags cfg (Platform.detect cfg) (detect_le cfg) input 0
      (List.replicate (MAX_SIMD_DEGREE_OR_2 cfg * OUT_LEN) 0) (by rintro rfl; simp at h) rfl (by omega) hw
      (by rw [List.length_replicate]; simp only [OUT_LEN]; omega)
    have hTle := hT.le
    obtain ⟨o, eo, hp, ho⟩ := condense_root_eq key flags cfg (Platform.detect cfg) T
      (hT.two (by unfold nChunks; omega)) (by omega)
    refine ⟨o, ?_, hp, ?_⟩
    · rw [show (0 : U64) = BitVec.ofNat 64 0 from rfl, e, bind_ok]
      dsimp only
      rw [sliceTo, if_pos (by rw [List.length_append, length_bufOf]; simp only [OUT_LEN]; omega), bind_ok,
        List.take_left' (by rw [length_bufOf]; simp only [OUT_LEN]; omega), eo]
    · rw [ho, hT.shape_eq, ← subtree_eq]

end

end Baokeshed.Proofs
