import Verif.Proofs.Erase
import Verif.Proofs.Lib
import Verif.SpecCalls

/-! # The compressions the one-shot functions perform are those of the specified tree, each once -/

set_option linter.unusedVariables false
set_option linter.unusedSimpArgs false

namespace Baokeshed.Proofs
open Baokeshed.Model Baokeshed.Model.T Baokeshed.Proofs.T

attribute [local irreducible] Spec.compress Spec.outBytes Spec.cvBytes Spec.pad

/-! ## The monad -/

theorem lift_ok {α β} (a : α) (f : α → TR β) : ((liftM (Except.ok a : R α) : TR α) >>= f) = f a := rfl

theorem log_bind {α β} {x : TR α} {a : α} (f : α → TR β) (h : x.res = .ok a) :
    (x >>= f).log = x.log ++ (f a).log := by
  obtain ⟨r, l⟩ := x
  cases h
  rfl

theorem tr_bind {α β} {x : TR α} {a : α} {l : List Spec.Input} (f : α → TR β) (h : x = ⟨.ok a, l⟩) :
    x >>= f = ⟨(f a).res, l ++ (f a).log⟩ := by
  subst h; rfl

theorem tr_eq {α} {x : TR α} {r : R α} (h : x.res = r) : x = ⟨r, x.log⟩ := by
  subst h; rfl

theorem log_pure {α} (a : α) : (pure a : TR α).log = [] := rfl

/-! ## Nodes of a tree -/

section
variable (key : Vector Word 8) (flags : Byte)

/-- the compressions of a tree below its top node -/
def under : Tree Spec.Input → List Spec.Input
  | .empty => []
  | .leaf _ => []
  | .node l r => under l ++ [inp key flags l] ++ (under r ++ [inp key flags r])

/-- the compressions of a tree -/
def nodes (t : Tree Spec.Input) : List Spec.Input := under key flags t ++ [inp key flags t]

theorem under_node (l r : Tree Spec.Input) :
    under key flags (.node l r) = nodes key flags l ++ nodes key flags r := rfl

/-- the compressions of the chunks of an input, except the last of every chunk -/
def pre (offset : Nat) (input : Bytes) : List Spec.Input :=
  if h : input.length ≤ 2048 then Spec.chunkBefore flags offset key (flags ||| Spec.chunkStart) input
  else Spec.chunkBefore flags offset key (flags ||| Spec.chunkStart) (input.take 2048) ++
    pre (offset + 2048) (input.drop 2048)
termination_by input.length
decreasing_by simp; omega

theorem pre_append (offset : Nat) (a b : Bytes) (k : Nat) (ha : a.length = 2048 * (k + 1)) (hb : b ≠ []) :
    pre key flags offset (a ++ b) = pre key flags offset a ++ pre key flags (offset + a.length) b := by
  have hb' : 0 < b.length := List.length_pos_iff.2 hb
  induction k generalizing offset a with
  | zero =>
    rw [pre, dif_neg (by simp; omega), pre.eq_def _ _ _ a, dif_pos (by omega)]
    rw [List.take_append_of_le_length (by omega), List.drop_append_of_le_length (by omega),
      List.take_of_length_le (by omega), List.drop_of_length_le (by omega), List.nil_append,
      show a.length = 2048 by omega]
  | succ k ih =>
    rw [pre, dif_neg (by simp; omega), pre.eq_def _ _ _ a, dif_neg (by omega)]
    rw [List.take_append_of_le_length (by omega), List.drop_append_of_le_length (by omega),
      ih _ _ (by simp; omega), List.append_assoc, List.length_drop,
      show offset + 2048 + (a.length - 2048) = offset + a.length by omega]

theorem below_perm (offset : Nat) (input : Bytes) :
    (Spec.below key flags offset input).Perm
      (pre key flags offset input ++ under key flags (shape (leaves key flags offset input))) := by
  induction hn : input.length using Nat.strongRecOn generalizing input offset with
  | ind n ih =>
  rw [Spec.below]
  split
  next h => rw [leaves, dif_pos h, shape_one, pre, dif_pos h, under, List.append_nil]
  next h =>
    have hlt := Spec.leftLen_lt (Nat.lt_of_not_le h)
    have hpos := Spec.leftLen_pos input.length
    have hlp : Spec.leftLen input.length = 2048 * lp ((input.length - 1) / 2048 + 1) := rfl
    rw [hn] at hlt hpos hlp h
    have hk := lp_pos ((n - 1) / 2048 + 1)
    have hne : input.drop (Spec.leftLen n) ≠ [] := by
      intro h0; have := congrArg List.length h0; simp at this; omega
    have htl : (input.take (Spec.leftLen n)).length = 2048 * (lp ((n - 1) / 2048 + 1) - 1 + 1) := by
      rw [List.length_take]; omega
    have e := leaves_append key flags offset (input.take (Spec.leftLen n)) (input.drop (Spec.leftLen n))
        (lp ((n - 1) / 2048 + 1) - 1) htl hne
    have e2 := pre_append key flags offset (input.take (Spec.leftLen n)) (input.drop (Spec.leftLen n))
        (lp ((n - 1) / 2048 + 1) - 1) htl hne
    rw [List.take_append_drop, List.length_take, show min (Spec.leftLen n) input.length = Spec.leftLen n by omega]
      at e e2
    have l1 : (leaves key flags offset (input.take (Spec.leftLen n))).length = lp ((n - 1) / 2048 + 1) := by
      rw [length_leaves, List.length_take]; omega
    rw [e, e2, shape_append _ _ (Nat.log2 ((n - 1) / 2048 + 1 - 1)) l1 (by rw [length_leaves]; omega)
      (by
        have h2 := le_two_lp (n := (n - 1) / 2048 + 1) (by omega)
        rw [length_leaves, List.length_drop]; change _ ≤ lp ((n - 1) / 2048 + 1); omega)]
    simp only [hn]
    rw [under, ← subtree_eq, ← subtree_eq]
    have p1 := ih _ (by rw [List.length_take]; omega) offset (input.take (Spec.leftLen n)) rfl
    have p2 := ih _ (by rw [List.length_drop]; omega) (offset + Spec.leftLen n) (input.drop (Spec.leftLen n)) rfl
    classical
    rw [List.perm_iff_count] at p1 p2 ⊢
    intro a
    have q1 := p1 a
    have q2 := p2 a
    simp only [List.count_append] at q1 q2 ⊢
    omega

/-! ## `hash_many` -/

/-- the compressions of `hash1` -/
def loopCalls (fl fe : Byte) (off : U64) (cv : Vector Word 8) (bf : Byte) (s : Bytes) : List Spec.Input :=
  if _h : 64 ≤ s.length then
    ⟨cv, Spec.pad s, 64, off, if s.length = 64 then bf ||| fe else bf⟩ ::
      loopCalls fl fe off (Spec.compress ⟨cv, Spec.pad s, 64, off, if s.length = 64 then bf ||| fe else bf⟩) fl
        (s.drop 64)
  else []
termination_by s.length
decreasing_by simp; omega

theorem hash1_loop_log (fl fe : Byte) (off : U64) (cv : Vector Word 8) (bf : Byte) (s : Bytes) :
    (T.hash1_loop fl fe off cv bf s).log = loopCalls fl fe off cv bf s := by
  induction hn : s.length using Nat.strongRecOn generalizing s cv bf with
  | _ n ih =>
    rw [T.hash1_loop, loopCalls]
    split
    next h =>
      have h' : 64 ≤ s.length := h
      dsimp only
      rw [arrayRef_block s 0 (by simpa using h), lift_ok, List.drop_zero]
      rw [log_bind (a := Spec.compress ⟨cv, Spec.pad s, 64, off, if s.length = 64 then bf ||| fe else bf⟩)]
      · rw [show BLOCK_LEN = 64 from rfl, ih (s.drop 64).length (by rw [List.length_drop]; omega) _ _ _ rfl]
        rfl
      · rw [compress_res, plat_compress]
        rfl
    next h => rfl

theorem hash1_log (x : Bytes) (off : U64) (f fs fe : Byte) (h : x.length % 64 = 0) :
    (T.hash1 x key off f fs fe).log = loopCalls f fe off key (f ||| fs) x := by
  rw [T.hash1, assertR, if_pos h, lift_ok, log_bind (a := cvLoop f fe off key (f ||| fs) x), hash1_loop_log,
    log_pure, List.append_nil]
  rw [hash1_loop_res, hash1_loop_eq]

/-- the compressions of `hash_many` -/
def manyCalls (d : Nat) (f fs fe : Byte) : Nat → List Bytes → List Spec.Input
  | _, [] => []
  | o, x :: xs => loopCalls f fe (BitVec.ofNat 64 o) key (f ||| fs) x ++ manyCalls d f fs fe (o + d) xs

theorem hash_many_log (p : Platform) (cap : Nat) (xs : List Bytes) (o d : Nat) (f fs fe : Byte) (out : Bytes)
    (hx : ∀ x ∈ xs, x.length % 64 = 0) (hout : 32 * xs.length ≤ out.length) (hd : d < 2 ^ 64)
    (hoff : o + xs.length * d < 2 ^ 64) :
    (T.hash_many p cap xs key (BitVec.ofNat 64 o) (BitVec.ofNat 64 d) f fs fe out).log =
      manyCalls key d f fs fe o xs := by
  rw [T.hash_many, T.hash_many_portable, assertR, if_pos (by simp only [OUT_LEN]; omega), lift_ok]
  show (T.hash_many_loop _ _ _ _ _ _ _ _).log = _
  induction xs generalizing o out with
  | nil => rfl
  | cons x xs ih =>
    have hl := hx x (List.mem_cons_self ..)
    rw [List.length_cons] at hout hoff
    rw [Nat.succ_mul] at hoff
    rw [T.hash_many_loop, if_neg (by simp only [OUT_LEN]; omega),
      log_bind (a := Spec.cvBytes (cvLoop f fe (BitVec.ofNat 64 o) key (f ||| fs) x)) _
        (by rw [hash1_res, hash1_eq _ _ _ _ _ _ hl]),
      hash1_log key _ _ _ _ _ hl, addU64_ofNat _ _ (by omega), lift_ok, manyCalls,
      ← ih (o + d) (out.drop 32) (fun y hy => hx y (List.mem_cons_of_mem _ hy)) (by rw [List.length_drop]; omega)
        (by omega)]
    congr 1
    have e2 := portable_many_append key (BitVec.ofNat 64 d) f fs fe xs [] (BitVec.ofNat 64 (o + d)) (out.drop 32)
      (fun y hy => hx y (List.mem_cons_of_mem _ hy)) (by rw [List.length_drop]; omega)
    have h1 : (BitVec.ofNat 64 (o + d)).toNat = o + d := by rw [BitVec.toNat_ofNat, Nat.mod_eq_of_lt (by omega)]
    have h2 : (BitVec.ofNat 64 d).toNat = d := by rw [BitVec.toNat_ofNat, Nat.mod_eq_of_lt hd]
    rw [List.append_nil, if_pos (by rw [h1, h2]; omega)] at e2
    rw [log_bind _ ((hash_many_loop_res ..).trans e2), log_pure, List.append_nil]

theorem loopCalls_chunk (off : Nat) (cv : Vector Word 8) (bf : Byte) (s : Bytes) (h : s.length % 64 = 0)
    (h0 : s ≠ []) :
    loopCalls flags Flags.CHUNK_END (BitVec.ofNat 64 off) cv bf s =
      Spec.chunkBefore flags off cv bf s ++ [Spec.chunkFrom flags off cv bf s] := by
  induction hn : s.length using Nat.strongRecOn generalizing s cv bf with
  | ind n ih =>
  have hp : 0 < s.length := List.length_pos_iff.2 h0
  rw [loopCalls, dif_pos (by omega), Spec.chunkFrom, Spec.chunkBefore]
  by_cases h1 : s.length = 64
  · rw [dif_pos (by omega), dif_pos (by omega), if_pos h1, List.drop_of_length_le (by omega), loopCalls,
      dif_neg (by simp), h1]
    rfl
  · rw [dif_neg (by omega), dif_neg (by omega), if_neg h1, ih (s.length - 64) (by omega) _ _ _ (by simp; omega)
      (by intro h; have := congrArg List.length h; simp at this; omega) (by simp), pad_take]
    rfl

theorem loopCalls_parent (x y : Tree Spec.Input) :
    loopCalls (flags ||| Flags.PARENT) 0 0 key (flags ||| Flags.PARENT ||| 0)
      ((hashOf key flags x).toList ++ (hashOf key flags y).toList) = [inp key flags (.node x y)] := by
  rw [loopCalls, dif_pos (by simp), List.drop_of_length_le (by simp), loopCalls, dif_neg (by simp), if_pos (by simp),
    ← List.append_nil (_ ++ _), pad_two _ _ _ rfl, or_zero8, or_zero8]
  rfl

/-- the compressions of whole chunks -/
def chunkCalls (off : Nat) : List Bytes → List Spec.Input
  | [] => []
  | c :: cs => Spec.chunkBefore flags off key (flags ||| Spec.chunkStart) c ++ [Spec.chunk key flags off c] ++
      chunkCalls (off + 2048) cs

theorem manyCalls_chunks (off : Nat) (cs : List Bytes) (hc : ∀ c ∈ cs, c.length = 2048) :
    manyCalls key 2048 flags Flags.CHUNK_START Flags.CHUNK_END off cs = chunkCalls key flags off cs := by
  induction cs generalizing off with
  | nil => rfl
  | cons c cs ih =>
    have hl := hc c (List.mem_cons_self ..)
    rw [manyCalls, ih _ (fun x hx => hc x (List.mem_cons_of_mem _ hx)), chunkCalls,
      loopCalls_chunk _ _ _ _ _ (by omega) (by intro h; rw [h] at hl; simp at hl)]
    rfl

theorem manyCalls_parents (ts : List (Tree Spec.Input)) (a : Spec.Input) :
    (manyCalls key 0 (flags ||| Flags.PARENT) 0 0 0 (chunksExact 64 (bufOf key flags ts))).count a +
      (ts.flatMap (nodes key flags)).count a = ((pairs ts).flatMap (nodes key flags)).count a := by
  induction ts using pairs.induct with
  | case1 => rw [chunksExact_short _ _ (by simp)]; rfl
  | case2 x => rw [chunksExact_short _ _ (by simp)]; simp [manyCalls, pairs]
  | case3 x y r ih =>
    rw [bufOf_cons, bufOf_cons, ← List.append_assoc, chunksExact_append 64 (by decide) _ _ (by simp), manyCalls,
      pairs, show (BitVec.ofNat 64 0) = (0 : U64) from rfl, loopCalls_parent]
    rw [Nat.zero_add]
    simp only [List.flatMap_cons, List.count_append, nodes, under_node] at ih ⊢
    omega

/-! ## One chunk -/

theorem hash_one_chunk_loop_log (p : Platform) (chunk : Bytes) (off : Nat) (r : IsRoot)
    (cv : Vector Word 8) (bf : Byte) (bo : Nat) (hbo : bo < chunk.length ∨ (bo = 0 ∧ chunk = [])) :
    (T.hash_one_chunk_loop p chunk (BitVec.ofNat 64 off) r flags cv bf bo).log =
      Spec.chunkBefore flags off cv bf (chunk.drop bo) := by
  induction hn : chunk.length - bo using Nat.strongRecOn generalizing cv bf bo with
  | ind n ih =>
  rw [T.hash_one_chunk_loop, Spec.chunkBefore]
  split
  next h =>
    simp only [BLOCK_LEN] at h
    by_cases h1 : bo + BLOCK_LEN = chunk.length
    · simp only [BLOCK_LEN] at h1
      rw [if_pos h1, arrayRef_block _ _ h, lift_ok, dif_pos (by simp; omega)]
      rfl
    · simp only [BLOCK_LEN] at h1
      rw [if_neg h1, arrayRef_block _ _ h, lift_ok, dif_neg (by simp; omega), log_bind _ (compress_res ..),
        ih (chunk.length - (bo + 64)) (by omega) _ _ (bo + BLOCK_LEN) (Or.inl (by simp only [BLOCK_LEN]; omega)) rfl,
        plat_compress, List.drop_drop, pad_take]
      rfl
  next h =>
    simp only [BLOCK_LEN] at h
    have hlen : bo ≤ chunk.length := by
      rcases hbo with h | ⟨h, -⟩ <;> omega
    rw [subN, if_pos hlen, lift_ok, show (List.replicate BLOCK_LEN (0 : Byte)) = List.replicate 64 0 from rfl,
      pad_drop_le _ _ (by omega), lift_ok, ← List.length_drop,
      arrayRef_pad _ (by simp; omega), lift_ok, dif_pos (by simp; omega)]
    rfl

theorem hash_one_chunk_log (chunk : Bytes) (off : Nat) (r : IsRoot) (p : Platform) (hr : r = .root → off = 0) :
    (T.hash_one_chunk chunk key (BitVec.ofNat 64 off) r flags p).log =
      Spec.chunkBefore flags off key (flags ||| Spec.chunkStart) chunk := by
  rw [T.hash_one_chunk, assertR, if_pos (by intro h; rw [hr h]; rfl), lift_ok, hash_one_chunk_loop_log _ _ _ _ _ _ _ _
    (by rcases chunk with _ | _ <;> simp), List.drop_zero]
  rfl

theorem to_hash_log (o : Output) : (T.Output.to_hash o).log = [toInput o] := rfl

/-! ## Chunks -/

theorem leaves_calls (off : Nat) (input : Bytes) (h0 : input ≠ []) (a : Spec.Input) :
    (chunkCalls key flags off (chunksExact 2048 input)).count a +
      (if chunksRemainder 2048 input = [] then 0
       else (Spec.chunkBefore flags (off + 2048 * (chunksExact 2048 input).length) key (flags ||| Spec.chunkStart)
        (chunksRemainder 2048 input)).count a +
        [Spec.chunk key flags (off + 2048 * (chunksExact 2048 input).length) (chunksRemainder 2048 input)].count a) =
      (pre key flags off input).count a + ((leaves key flags off input).flatMap (nodes key flags)).count a := by
  induction hl : input.length using Nat.strongRecOn generalizing input off with
  | ind l ih =>
  have hp : 0 < input.length := List.length_pos_iff.2 h0
  rw [leaves, pre]
  by_cases h : input.length ≤ 2048
  · rw [dif_pos h, dif_pos h]
    by_cases h1 : input.length = 2048
    · have hrem : chunksRemainder 2048 input = [] := by
        rw [chunksRemainder, h1]; exact List.drop_of_length_le (by omega)
      rw [if_pos hrem, chunksExact_step 2048 input (by omega), List.take_of_length_le (by omega),
        List.drop_of_length_le (by omega), chunksExact_short _ _ (by simp)]
      simp only [chunkCalls, List.flatMap_cons, List.flatMap_nil, nodes, under, inp, List.count_append,
        List.append_nil, List.nil_append, Nat.add_zero]
    · have hrem : chunksRemainder 2048 input = input := by
        rw [chunksRemainder, Nat.div_eq_of_lt (by omega)]; rfl
      rw [hrem, if_neg h0, chunksExact_short 2048 input (by omega)]
      simp only [chunkCalls, List.flatMap_cons, List.flatMap_nil, nodes, under, inp, List.count_append,
        List.append_nil, List.nil_append, Nat.add_zero, List.length_nil, Nat.mul_zero, List.count_nil, Nat.zero_add]
  · have hrem : chunksRemainder 2048 (input.drop 2048) = chunksRemainder 2048 input := by
      unfold chunksRemainder
      rw [List.drop_drop, List.length_drop]
      congr 1; omega
    have q := ih (l - 2048) (by omega) (off + 2048) (input.drop 2048)
      (by intro h; have := congrArg List.length h; simp at this; omega) (by simp; omega)
    rw [hrem, show off + 2048 + 2048 * (chunksExact 2048 (input.drop 2048)).length =
        off + 2048 * ((chunksExact 2048 (input.drop 2048)).length + 1) by omega] at q
    rw [dif_neg h, dif_neg h, chunksExact_step 2048 input (by omega), List.length_cons, chunkCalls]
    simp only [List.flatMap_cons, List.count_append, nodes, under, inp, List.nil_append] at q ⊢
    omega

theorem hash_chunks_parallel_log (cfg : Config) (input : Bytes) (off : Nat) (p : Platform) (out : Bytes)
    (h0 : input ≠ []) (h1 : input.length ≤ MAX_SIMD_DEGREE cfg * 2048) (hoff : off % 2048 = 0)
    (hlt : off + input.length < 2 ^ 64) (hout : 32 * nChunks input.length ≤ out.length) (a : Spec.Input) :
    (T.hash_chunks_parallel cfg input key (BitVec.ofNat 64 off) flags p out).log.count a =
      (pre key flags off input).count a + ((leaves key flags off input).flatMap (nodes key flags)).count a := by
  have hp : 0 < input.length := List.length_pos_iff.2 h0
  have hl := length_chunksExact 2048 (by decide) input
  have hrl : (chunksRemainder 2048 input).length = input.length % 2048 := by
    rw [chunksRemainder, List.length_drop]; omega
  have hmod : BitVec.ofNat 64 off % BitVec.ofNat 64 CHUNK_LEN = 0 := by
    apply BitVec.eq_of_toNat_eq
    rw [BitVec.toNat_umod, BitVec.toNat_ofNat, BitVec.toNat_ofNat, Nat.mod_eq_of_lt (a := off) (by omega)]
    simpa [CHUNK_LEN] using hoff
  have hmem := mem_chunksExact 2048 (by decide) input
  have hmem64 : ∀ x ∈ chunksExact 2048 input, x.length % 64 = 0 := fun x hx => by rw [hmem x hx]
  have hcalls := leaves_calls key flags off input h0 a
  unfold nChunks at *
  rw [T.hash_chunks_parallel, assertR, if_pos h0, lift_ok, assertR, if_pos h1, lift_ok, assertR, if_pos hmod,
    lift_ok, pushAll, if_pos (by simp only [CHUNK_LEN] at *; rw [hl]; omega), lift_ok]
  simp only [CHUNK_LEN] at *
  have hdiv : input.length / 2048 * 2048 ≤ input.length := Nat.div_mul_le_self _ _
  have hres := plat_hash_many p 2048 (by decide) (chunksExact 2048 input) key (BitVec.ofNat 64 off)
    (BitVec.ofNat 64 2048) flags Flags.CHUNK_START Flags.CHUNK_END out hmem
    (by rw [hl]; omega)
    (by rw [hl, BitVec.toNat_ofNat, BitVec.toNat_ofNat, Nat.mod_eq_of_lt (a := off) (by omega)]; omega)
  rw [log_bind _ ((hash_many_res ..).trans hres), hash_many_log key p 2048 _ off 2048 flags _ _ out hmem64
    (by rw [hl]; omega) (by omega) (by rw [hl]; omega), manyCalls_chunks key flags off _ hmem, List.count_append]
  have hlo : (lanesOut key (BitVec.ofNat 64 off) (BitVec.ofNat 64 2048) flags Flags.CHUNK_START Flags.CHUNK_END 0
      (chunksExact 2048 input)).length = 32 * (chunksExact 2048 input).length := by
    rw [lanesOut_chunks key flags off _ hmem (by omega)]; simp
  by_cases hr : chunksRemainder 2048 input = []
  · rw [if_pos hr] at hcalls
    rw [if_neg (by simpa using hr), log_pure, List.count_nil, ← hcalls]
  · have hm : 0 < input.length % 2048 := by rw [← hrl]; exact List.length_pos_iff.2 hr
    have e1 : mulU64 (BitVec.ofNat 64 (chunksExact 2048 input).length) (BitVec.ofNat 64 2048) =
        .ok (BitVec.ofNat 64 (2048 * (chunksExact 2048 input).length)) := by
      have ea : (BitVec.ofNat 64 (chunksExact 2048 input).length).toNat = (chunksExact 2048 input).length := by
        rw [BitVec.toNat_ofNat, Nat.mod_eq_of_lt (by rw [hl]; omega)]
      rw [mulU64, ea, if_pos (by rw [hl, BitVec.toNat_ofNat]; omega)]
      refine congrArg Except.ok (BitVec.eq_of_toNat_eq ?_)
      rw [BitVec.toNat_mul, ea, BitVec.toNat_ofNat, BitVec.toNat_ofNat, Nat.mul_comm]
    have e2 := addU64_ofNat off (2048 * (chunksExact 2048 input).length) (by rw [hl]; omega)
    obtain ⟨o, eo, -, ho⟩ := hash_one_chunk_eq (chunksRemainder 2048 input) key
      (off + 2048 * (chunksExact 2048 input).length) .notRoot flags p (by intro h; cases h)
    have hto : toInput o = Spec.chunk key flags
        (off + 2048 * (chunksExact 2048 input).length) (chunksRemainder 2048 input) := by
      rw [ho]
      simp only [IsRoot.flag, or_zero8]
    rw [if_neg hr] at hcalls
    rw [if_pos (by simpa using hr), e1, lift_ok, e2, lift_ok, log_bind _ ((hash_one_chunk_res ..).trans eo),
      log_bind _ (to_hash_res o), hash_one_chunk_log key flags _ _ _ _ (by intro h; cases h), to_hash_log, hto,
      writeAt_append _ _ _ _ (by rw [hlo]; simp [OUT_LEN]; omega) (by simp; rw [hl]; omega), lift_ok, log_pure,
      List.append_nil, List.count_append, ← hcalls]

/-! ## Parents -/

theorem hash_parents_parallel_log (cfg : Config) (ts : List (Tree Spec.Input)) (p : Platform) (out : Bytes)
    (h1 : 2 ≤ ts.length) (h2 : ts.length ≤ 2 * MAX_SIMD_DEGREE_OR_2 cfg)
    (hout : 32 * (pairs ts).length ≤ out.length) (a : Spec.Input) :
    (T.hash_parents_parallel cfg (bufOf key flags ts) key flags p out).log.count a +
      (ts.flatMap (nodes key flags)).count a = ((pairs ts).flatMap (nodes key flags)).count a := by
  have hl := length_bufOf key flags ts
  have hcl := length_chunksExact 64 (by decide) (bufOf key flags ts)
  have hrl : (chunksRemainder 64 (bufOf key flags ts)).length = (bufOf key flags ts).length % 64 := by
    rw [chunksRemainder, List.length_drop]; omega
  have hpl := length_pairs ts
  have hmem := mem_chunksExact 64 (by decide) (bufOf key flags ts)
  rw [hl] at hcl hrl
  rw [T.hash_parents_parallel, assertR, if_pos (by rw [hl]; simp only [OUT_LEN]; omega), lift_ok]
  dsimp only
  rw [assertR,
    if_pos (by rw [hl]; simp only [OUT_LEN]; omega), lift_ok, assertR,
    if_pos (by rw [hl]; simp only [OUT_LEN]; omega), lift_ok, pushAll,
    if_pos (by simp only [BLOCK_LEN]; rw [hcl]; omega), lift_ok]
  simp only [BLOCK_LEN, OUT_LEN]
  have hres := plat_hash_many p 64 (by decide) (chunksExact 64 (bufOf key flags ts)) key 0 0
    (flags ||| Flags.PARENT) 0 0 out hmem (by rw [hcl]; omega) (by simp)
  have hlog := hash_many_log key p 64 (chunksExact 64 (bufOf key flags ts)) 0 0
    (flags ||| Flags.PARENT) 0 0 out (fun x hx => by rw [hmem x hx]) (by rw [hcl]; omega) (by omega) (by omega)
  have hlo := length_lanesOut key 0 0 (flags ||| Flags.PARENT) 0 0 0 (chunksExact 64 (bufOf key flags ts))
  rw [log_bind _ ((hash_many_res ..).trans hres)]
  rw [show (BitVec.ofNat 64 0) = (0 : U64) from rfl] at hlog
  rw [hlog, List.count_append]
  have hcalls := manyCalls_parents key flags ts a
  by_cases hr : chunksRemainder 64 (bufOf key flags ts) = []
  · rw [if_neg (by simpa using hr), log_pure, List.count_nil, Nat.add_zero, hcalls]
  · have hm : 0 < 32 * ts.length % 64 := by rw [← hrl]; exact List.length_pos_iff.2 hr
    have hr32 : (chunksRemainder 64 (bufOf key flags ts)).length = 32 := by rw [hrl]; omega
    rw [if_pos (by simpa using hr), assertR, if_pos hr32, lift_ok,
      writeAt_append _ _ _ _ (by rw [length_lanesOut]; omega)
        (by rw [hr32, List.length_drop, hcl]; omega), lift_ok, log_pure, List.count_nil, Nat.add_zero, hcalls]

/-! ## The recursion -/

theorem hash_recurse_log (cfg : Config) (p : Platform) (hp : p.simd_degree ≤ MAX_SIMD_DEGREE cfg)
    (input : Bytes) (off : Nat) (out : Bytes) (h0 : input ≠ []) (hoff : off % 2048 = 0)
    (hlt : off + input.length < 2 ^ 64) (hw : input.length < 2 ^ cfg.usizeBits)
    (hout : 32 * min (nChunks input.length) (max p.simd_degree 2) ≤ out.length) :
    ∃ ts log, RecOk key flags p.simd_degree off input ts ∧
      T.hash_recurse cfg input key (BitVec.ofNat 64 off) flags p out =
        ⟨.ok (ts.length, bufOf key flags ts ++ out.drop (32 * ts.length)), log⟩ ∧
      ∀ a, log.count a = (pre key flags off input).count a + (ts.flatMap (nodes key flags)).count a := by
  induction hn : input.length using Nat.strongRecOn generalizing input off out with
  | ind n ih =>
  have hpos : 0 < input.length := List.length_pos_iff.2 h0
  obtain ⟨kd, hkd, hkd3⟩ := simd_pow p
  have hdpos : 0 < p.simd_degree := by rw [hkd]; exact Nat.two_pow_pos _
  have hor2 := or_2_ge cfg _ hp
  rw [T.hash_recurse]
  by_cases h : input.length ≤ p.simd_degree * CHUNK_LEN
  · have hN : nChunks input.length ≤ p.simd_degree := by
      unfold nChunks; simp only [CHUNK_LEN] at h; omega
    have hll : (leaves key flags off input).length = nChunks input.length := length_leaves key flags off input
    refine ⟨leaves key flags off input, _, ⟨rfl, ?_, ?_, ?_, ?_⟩, ?_,
      hash_chunks_parallel_log key flags cfg input off p out h0
        (Nat.le_trans h (Nat.mul_le_mul_right _ hp)) hoff hlt (by omega)⟩
    · rw [hll]; unfold nChunks; omega
    · rw [hll]; omega
    · rw [hll]; exact id
    · intro _ _; rw [hll]; omega
    · rw [if_pos h]
      refine tr_eq ?_
      rw [hash_chunks_parallel_res, hash_chunks_parallel_eq key flags cfg input off p out h0
        (Nat.le_trans h (Nat.mul_le_mul_right _ hp)) hoff hlt (by omega), hll]
  · have hcl : CHUNK_LEN < input.length := by
      have := Nat.mul_le_mul_right CHUNK_LEN (show 1 ≤ p.simd_degree from hdpos); omega
    have hN : p.simd_degree < nChunks input.length := by
      simp only [CHUNK_LEN] at h; unfold nChunks; omega
    have hN2 : 2 ≤ nChunks input.length := by omega
    have hlp1 := lp_lt hN2
    have hlp2 := le_two_lp hN2
    have hlp0 := lp_pos (nChunks input.length)
    obtain ⟨kl, hkl⟩ : ∃ k, lp (nChunks input.length) = 2 ^ k := ⟨_, rfl⟩
    have hdl : p.simd_degree ≤ lp (nChunks input.length) := by
      rw [hkd, hkl]
      rw [hkd] at hN; rw [hkl] at hlp2
      have : 2 ^ kd < 2 ^ (kl + 1) := by rw [Nat.pow_succ]; omega
      exact Nat.pow_le_pow_right (by decide) (by have := (Nat.pow_lt_pow_iff_right (by decide)).1 this; omega)
    generalize hNl : lp (nChunks input.length) = Nl at *
    have hlen : 2048 * Nl < input.length := by unfold nChunks at hlp1; omega
    -- left and right
    have hleft : (input.take (2048 * Nl)).length = 2048 * Nl := by rw [List.length_take]; omega
    have hright : (input.drop (2048 * Nl)).length = input.length - 2048 * Nl := List.length_drop
    have hNleft : nChunks (input.take (2048 * Nl)).length = Nl := by rw [hleft]; unfold nChunks; omega
    have hNright : nChunks (input.drop (2048 * Nl)).length = nChunks input.length - Nl := by
      rw [hright]; unfold nChunks; omega
    have hne : input.drop (2048 * Nl) ≠ [] := by
      intro h; have := congrArg List.length h; simp at this; omega
    obtain ⟨deg, hdeg⟩ : ∃ d, d = (if Nl = 1 then 1 else max p.simd_degree 2) := ⟨_, rfl⟩
    have hdegmin : deg = min Nl (max p.simd_degree 2) := by
      rw [hdeg]; split <;> omega
    have hll : left_len cfg.usizeBits input.length = .ok (2048 * Nl) := by rw [left_len_eq hcl hw, hNl]
    obtain ⟨tsL, lL, hTL, eL, cL⟩ := ih (2048 * Nl) (by omega) (input.take (2048 * Nl)) off
      (List.take (deg * 32) (List.replicate (2 * MAX_SIMD_DEGREE_OR_2 cfg * 32) 0))
      (by intro h; have := congrArg List.length h; rw [hleft] at this; simp at this; omega) hoff
      (by rw [hleft]; omega) (by rw [hleft]; omega)
      (by rw [hNleft, ← hdegmin, List.length_take, List.length_replicate]; omega) hleft
    obtain ⟨tsR, lR, hTR, eR, cR⟩ := ih (input.length - 2048 * Nl) (by omega) (input.drop (2048 * Nl)) (off + 2048 * Nl)
      (List.drop (deg * 32) (List.replicate (2 * MAX_SIMD_DEGREE_OR_2 cfg * 32) 0))
      hne (by omega) (by rw [hright]; omega) (by rw [hright]; omega)
      (by rw [hNright, List.length_drop, List.length_replicate]; omega) hright
    have hTLlen : tsL.length = deg := by rw [hTL.pow kl (by rw [hNleft, hkl]), hNleft, hdegmin]
    have hTRle := hTR.le
    have hTRpos := hTR.pos
    rw [hNright] at hTRle
    have hTRlen : tsR.length ≤ deg := by omega
    have hpow : ∃ j, deg = 2 ^ j := by
      rw [hdeg]; split
      · exact ⟨0, rfl⟩
      · by_cases h1 : kd = 0
        · exact ⟨1, by rw [hkd, h1]; rfl⟩
        · refine ⟨kd, ?_⟩
          rw [hkd]
          have := Nat.pow_le_pow_right (n := 2) (by decide) (show 1 ≤ kd by omega)
          omega
    obtain ⟨kdeg, hkdeg⟩ := hpow
    have hshape : shape (tsL ++ tsR) = shape (leaves key flags off input) := by
      rw [shape_append tsL tsR kdeg (by omega) hTR.pos (by omega), hTL.shape_eq, hTR.shape_eq,
        ← shape_append _ _ kl (by rw [length_leaves]; exact hNleft.trans hkl) (by rw [length_leaves]; omega)
          (by rw [length_leaves]; show nChunks _ ≤ _; rw [hNright]; omega)]
      have e := leaves_append key flags off (input.take (2048 * Nl)) (input.drop (2048 * Nl)) (Nl - 1)
        (by rw [hleft]; omega) hne
      rw [List.take_append_drop, hleft] at e
      rw [e]
    have hpre : pre key flags off input = pre key flags off (input.take (2048 * Nl)) ++
        pre key flags (off + 2048 * Nl) (input.drop (2048 * Nl)) := by
      have e := pre_append key flags off (input.take (2048 * Nl)) (input.drop (2048 * Nl)) (Nl - 1)
        (by rw [hleft]; omega) hne
      rwa [List.take_append_drop, hleft] at e
    have hTLdrop : (List.take (deg * 32) (List.replicate (2 * MAX_SIMD_DEGREE_OR_2 cfg * 32) (0 : Byte))).drop
        (32 * tsL.length) = [] := List.drop_of_length_le (by rw [List.length_take]; omega)
    have hRHS : ∀ x y : TR (Nat × Bytes), y = (do
        if deg = 1 then
          let c ← sliceTo (bufOf key flags (tsL ++ tsR) ++ (List.drop (deg * 32) (List.replicate
            (2 * MAX_SIMD_DEGREE_OR_2 cfg * 32) 0)).drop (32 * tsR.length)) (2 * OUT_LEN)
          let out ← writeAt out 0 c
          return (2, out)
        else
          let c ← sliceTo (bufOf key flags (tsL ++ tsR) ++ (List.drop (deg * 32) (List.replicate
            (2 * MAX_SIMD_DEGREE_OR_2 cfg * 32) 0)).drop (32 * tsR.length)) ((deg + tsR.length) * OUT_LEN)
          T.hash_parents_parallel cfg c key flags p out) → x = ⟨y.res, lL ++ (lR ++ y.log)⟩ →
        ∃ ts log, RecOk key flags p.simd_degree off input ts ∧
            x = ⟨.ok (ts.length, bufOf key flags ts ++ out.drop (32 * ts.length)), log⟩ ∧
            ∀ a, log.count a = (pre key flags off input).count a + (ts.flatMap (nodes key flags)).count a := by
      intro x y hy hx
      have htl : (tsL ++ tsR).length = deg + tsR.length := by rw [List.length_append, hTLlen]
      by_cases h1 : deg = 1
      · have hNl1 : Nl = 1 := by omega
        have hT2 : (tsL ++ tsR).length = 2 := by omega
        refine ⟨tsL ++ tsR, lL ++ lR, ⟨hshape, by omega, by omega, by omega, by intro k hk; omega⟩, ?_, ?_⟩
        · rw [hx, hy, if_pos h1, sliceTo, if_pos (by rw [List.length_append, length_bufOf]; simp only [OUT_LEN]; omega),
            lift_ok, List.take_left' (by rw [length_bufOf]; simp only [OUT_LEN]; omega), writeAt,
            if_pos (by rw [length_bufOf]; omega), lift_ok, log_pure, res_pure, hT2, List.take_zero, List.nil_append,
            length_bufOf, hT2, List.append_nil]
        · intro a
          have q1 := cL a
          have q2 := cR a
          rw [hpre]
          simp only [List.count_append, List.flatMap_append]
          omega
      · have hNl1 : Nl ≠ 1 := by intro h; rw [if_pos h] at hdeg; exact h1 hdeg
        rw [if_neg hNl1] at hdeg
        have hpl := length_pairs (tsL ++ tsR)
        refine ⟨pairs (tsL ++ tsR), lL ++ (lR ++ (T.hash_parents_parallel cfg (bufOf key flags (tsL ++ tsR)) key flags p out).log),
          ⟨(shape_pairs _).trans hshape, by omega, by omega, by omega, ?_⟩, ?_, ?_⟩
        · intro k hk
          -- a power of two splits in halves
          have hk' : 2 ^ k = 2 * Nl := by
            have hk0 : k ≠ 0 := by intro h; rw [h] at hk; omega
            obtain ⟨j, rfl⟩ := Nat.exists_eq_succ_of_ne_zero hk0
            rw [← hNl, hk, lp_eq (k := j) (by rw [Nat.pow_succ]; have := Nat.two_pow_pos j; omega)
              (by rw [Nat.pow_succ]; omega), Nat.pow_succ]; omega
          have hr := hTR.pow kl (by rw [hNright]; omega)
          rw [hNright] at hr
          omega
        · rw [hx, hy, if_neg h1, sliceTo,
            if_pos (by rw [List.length_append, length_bufOf]; simp only [OUT_LEN]; omega), lift_ok,
            List.take_left' (by rw [length_bufOf]; simp only [OUT_LEN]; omega), hash_parents_parallel_res,
            hash_parents_parallel_eq key flags cfg _ p out (by omega) (by omega) (by omega)]
        · intro a
          have q1 := cL a
          have q2 := cR a
          have q3 := hash_parents_parallel_log key flags cfg (tsL ++ tsR) p out (by omega) (by omega) (by omega) a
          rw [hpre]
          simp only [List.count_append, List.flatMap_append] at q3 ⊢
          omega
    apply hRHS _ _ rfl
    rw [if_neg h]
    split
    next e he => rw [hll] at he; cases he
    next l he =>
      rw [hll] at he
      obtain rfl := Except.ok.inj he
      dsimp only
      rw [hleft, addU64_ofNat _ _ (by omega), lift_ok, assertR, if_pos (popcount_simd p), lift_ok]
      have hif : (if 2048 * Nl = CHUNK_LEN then 1 else max p.simd_degree 2) = deg := by
        rw [hdeg]; simp only [CHUNK_LEN]; congr 1; apply propext; omega
      rw [hif]
      simp only [OUT_LEN]
      rw [splitAtR, if_pos (by rw [List.length_replicate]; omega), lift_ok]
      dsimp only
      rw [tr_bind _ eL]
      dsimp only
      rw [tr_bind _ eR]
      dsimp only
      rw [assertR, if_pos hTLlen, lift_ok, assertR, if_pos (by omega), lift_ok, hTLdrop, List.append_nil,
        ← List.append_assoc, ← bufOf_append, hTLlen]

/-! ## The root -/

theorem condense_loop_log (cfg : Config) (p : Platform) (n : Nat) (ts : List (Tree Spec.Input)) (out : Bytes)
    (h2 : 2 ≤ ts.length) (hle : ts.length ≤ MAX_SIMD_DEGREE_OR_2 cfg) (hn : ts.length ≤ n)
    (hout : 2 < ts.length → 32 * (pairs ts).length ≤ out.length) :
    ∃ a b log, shape ts = .node a b ∧ T.condense_loop cfg key flags p n (bufOf key flags ts) out =
      ⟨.ok (bufOf key flags [a, b]), log⟩ ∧
      ∀ i, log.count i + (ts.flatMap (nodes key flags)).count i = (under key flags (shape ts)).count i := by
  induction n generalizing ts out with
  | zero => omega
  | succ n ih =>
    rw [T.condense_loop]
    by_cases h : 2 < ts.length
    · have hpl := length_pairs ts
      have hpp := length_pairs (pairs ts)
      obtain ⟨a, b, l, hs, e, c⟩ := ih (pairs ts) (bufOf key flags (pairs ts) ++ out.drop (32 * (pairs ts).length)) (by omega)
        (by omega) (by omega) (by rw [List.length_append, length_bufOf]; omega)
      refine ⟨a, b, (T.hash_parents_parallel cfg (bufOf key flags ts) key flags p out).log ++ l,
        (shape_pairs ts).symm.trans hs, ?_, ?_⟩
      · rw [if_pos (by rw [length_bufOf]; simp only [BLOCK_LEN]; omega),
          tr_bind _ (tr_eq ((hash_parents_parallel_res ..).trans
            (hash_parents_parallel_eq key flags cfg ts p out h2 (by omega) (hout h))))]
        dsimp only
        rw [sliceTo, if_pos (by rw [List.length_append, length_bufOf]; simp only [OUT_LEN]; omega), lift_ok,
          List.take_left' (by rw [length_bufOf]; simp only [OUT_LEN]; omega), writeAt,
          if_pos (by rw [length_bufOf, length_bufOf]; omega), lift_ok, List.take_zero, List.nil_append, sliceTo,
          if_pos (by rw [List.length_append, length_bufOf]; simp only [OUT_LEN]; omega), lift_ok,
          List.take_left' (by rw [length_bufOf]; simp only [OUT_LEN]; omega), e]
      · intro i
        have q1 := c i
        have q2 := hash_parents_parallel_log key flags cfg ts p out h2 (by omega) (hout h) i
        rw [shape_pairs] at q1
        simp only [List.count_append]
        omega
    · rw [if_neg (by rw [length_bufOf]; simp only [BLOCK_LEN]; omega)]
      match ts, h2, h with
      | [a, b], _, _ =>
        have e : shape [a, b] = .node a b := by
          rw [show [a, b] = [a] ++ [b] from rfl, shape_append [a] [b] 0 rfl (by simp) (by simp), shape_one, shape_one]
        refine ⟨a, b, [], e, rfl, fun i => ?_⟩
        rw [e, under_node]
        simp [List.flatMap_cons, List.count_append]
      | a :: b :: c :: r, _, h => simp at h

theorem condense_root_log (cfg : Config) (p : Platform) (ts : List (Tree Spec.Input))
    (h2 : 2 ≤ ts.length) (hle : ts.length ≤ MAX_SIMD_DEGREE_OR_2 cfg) (i : Spec.Input) :
    (T.condense_root cfg (bufOf key flags ts) key flags p).log.count i + (ts.flatMap (nodes key flags)).count i =
      (under key flags (shape ts)).count i := by
  have hl := length_bufOf key flags ts
  obtain ⟨a, b, l, hs, e, c⟩ := condense_loop_log key flags cfg p ((bufOf key flags ts).length + 1) ts
    (List.replicate (MAX_SIMD_DEGREE cfg * OUT_LEN / 2) 0) h2 hle (by omega) (by
      intro h
      rw [length_pairs, List.length_replicate]
      unfold MAX_SIMD_DEGREE
      unfold MAX_SIMD_DEGREE_OR_2 at hle
      simp only [OUT_LEN]
      split at hle <;> simp_all <;> omega)
  rw [T.condense_root, assertR, if_pos (by rw [hl]; simp only [OUT_LEN]; omega), lift_ok, assertR,
    if_pos (by rw [hl]; simp only [BLOCK_LEN]; omega), lift_ok]
  dsimp only
  rw [tr_bind _ e]
  simp only [BLOCK_LEN]
  rw [arrayRef_block _ _ (by rw [length_bufOf]; simp), lift_ok, log_pure, List.append_nil, c]

theorem hash_internal_log (cfg : Config) (input : Bytes) (hw : input.length < 2 ^ cfg.usizeBits)
    (h64 : input.length < 2 ^ 64) :
    (T.hash_internal cfg input key flags).log.Perm (Spec.below key flags 0 input) := by
  refine List.Perm.trans ?_ (below_perm key flags 0 input).symm
  rw [T.hash_internal]
  dsimp only
  by_cases h : input.length ≤ CHUNK_LEN
  · rw [if_pos h, show (0 : U64) = BitVec.ofNat 64 0 from rfl,
      hash_one_chunk_log key flags input 0 .root (Platform.detect cfg) (fun _ => rfl), pre, dif_pos h, leaves,
      dif_pos h, shape_one, under, List.append_nil]
  · rw [if_neg h]
    simp only [CHUNK_LEN] at h
    have hor := or_2_ge cfg _ (detect_le cfg)
    obtain ⟨ts, l, hT, e, c⟩ := hash_recurse_log key flags cfg (Platform.detect cfg) (detect_le cfg) input 0
      (List.replicate (MAX_SIMD_DEGREE_OR_2 cfg * OUT_LEN) 0) (by rintro rfl; simp at h) rfl (by omega) hw
      (by rw [List.length_replicate]; simp only [OUT_LEN]; omega)
    have hTle := hT.le
    have q := condense_root_log key flags cfg (Platform.detect cfg) ts
      (hT.two (by unfold nChunks; omega)) (by omega)
    rw [show (0 : U64) = BitVec.ofNat 64 0 from rfl, tr_bind _ e]
    dsimp only
    rw [sliceTo, if_pos (by rw [List.length_append, length_bufOf]; simp only [OUT_LEN]; omega), lift_ok,
        List.take_left' (by rw [length_bufOf]; simp only [OUT_LEN]; omega), List.perm_iff_count]
    intro i
    have q1 := c i
    have q2 := q i
    rw [hT.shape_eq] at q2
    simp only [List.count_append]
    omega

end
end Baokeshed.Proofs
