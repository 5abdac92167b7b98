import Verif.Proofs.C.OrderHasher
import Verif.Proofs.Collide
import Verif.Props.CHasher

/-!
# C53: the byte order of the host

The C code is written for little-endian hosts ("TODO: This is probably incorrect for big-endian ARM. How should
that work?", c/baokeshed_neon.c:5).  The portable code turns bytes into words by shifting, so it does not
depend on the byte order; the NEON code loads, stores and copies words as they are in memory, so it does.
`ByteOrder` is the byte order of the host; `C.Config.order` is the one of the build.  `Spec.revGroups k` reverses
the bytes of each group of `k`.
-/

set_option linter.unusedVariables false

namespace Baokeshed.Props
open Baokeshed.Model Baokeshed.Proofs

attribute [local irreducible] Spec.compress Spec.cvBytes Spec.outBytes

/-- The groups of bytes that a vector load or store reverses: big-endian AArch64 treats a vector as one number of
16 bytes, big-endian AArch32 as two of 8. -/
def vecGroup : ByteOrder → Nat
  | .little => 1
  | .bigA64 => 16
  | .bigA32 => 8

/-- The groups of bytes that copying 32-bit words reverses. -/
def wordGroup : ByteOrder → Nat
  | .little => 1
  | .bigA64 | .bigA32 => 4

/-- The 32 bytes that `baokeshed_hash_many_neon` writes for input number `i` of `num` on a host of order `o`: the
inputs taken four at a time are read and written in reversed groups, those that remain are written as reversed words. -/
def neonResult (o : ByteOrder) (key : Vector Word 8) (offset step : U64) (flags first last : Byte) (blocks num : Nat)
    (input : Bytes) (i : Nat) : Bytes :=
  let offset := offset + BitVec.ofNat 64 i * step
  if i < 4 * (num / 4) then
    Spec.revGroups (vecGroup o) (Spec.cvBytes (Spec.blockChain key offset flags first last blocks
      (Spec.revGroups (vecGroup o) (input.take (64 * blocks))))).toList
  else Spec.revGroups (wordGroup o) (Spec.cvBytes (Spec.blockChain key offset flags first last blocks input)).toList

/-- C53.  Exactly what `baokeshed_hash_many_neon` computes on a host of any byte order. -/
theorem C53_neon_exact (o : ByteOrder) (inputs : List Bytes) (num_inputs blocks : Nat) (key : Vector Word 8) (offset d : U64)
    (deltas : List U64) (flags fs fe : Byte) (out : Bytes)
    (h : HashManyPre 4 inputs num_inputs blocks d deltas out) :
    C.Neon.hash_many_neon o inputs num_inputs blocks key offset deltas flags fs fe out =
      .ok ((List.range num_inputs).flatMap (fun i => neonResult o key offset d flags fs fe blocks num_inputs (inputs.getD i []) i) ++
        out.drop (32 * num_inputs)) := by
  rw [C.Neon.hash_many_neon, Proofs.C.Neon.loop4_swap o key d flags fs fe blocks deltas h.deltas num_inputs inputs offset out
    h.num h.len h.room]
  refine congrArg (fun x => Except.ok (x ++ out.drop (32 * num_inputs))) ?_
  have hv : Proofs.C.Neon.vk o = vecGroup o := by cases o <;> rfl
  have hw : Proofs.C.Neon.wk o = wordGroup o := by cases o <;> rfl
  have hs : num_inputs = 4 * (num_inputs / 4) + num_inputs % 4 := by omega
  rw [show List.range num_inputs = List.range (4 * (num_inputs / 4)) ++ (List.range (num_inputs % 4)).map (4 * (num_inputs / 4) + ·) by
    rw [← List.range_add, ← hs], List.flatMap_append, List.flatMap_map, Proofs.C.Neon.cat, Proofs.C.Neon.cat]
  congr 1
  · rw [List.flatMap_def, List.flatMap_def]
    refine congrArg List.flatten (List.map_congr_left fun i hi => ?_)
    rw [neonResult, if_pos (List.mem_range.1 hi), Proofs.C.Neon.vecRes, hv]
  · rw [List.flatMap_def, List.flatMap_def]
    refine congrArg List.flatten (List.map_congr_left fun i hi => ?_)
    rw [neonResult, if_neg (by omega), Proofs.C.Neon.oneRes, hw, Proofs.C.Neon.getD_drop, BitVec.ofNat_add, BitVec.add_mul, BitVec.add_assoc]

-- five inputs: four are taken together, one is left
example : HashManyPre 4 [rep 64 3, rep 64 4, rep 64 5, rep 64 6, rep 64 7] 5 1 2048 [0, 2048, 4096, 6144, 8192] (rep 160 0) :=
  ⟨by decide, by intro i hi; rcases i with _ | _ | _ | _ | _ | i <;> simp; omega, by simp, by
    intro i hi; rcases i with _ | _ | _ | _ | _ | i <;> first | decide | omega⟩

/-! ## Where the byte order does not matter -/

/-- C53.  A build without the NEON back end computes the specified hash on hosts of every byte order. -/
theorem C53_without_neon (cfg : C.Config) (hneon : cfg.neon = false) (h16 : 16 ≤ cfg.bits) (mem : Bytes)
    (hmem : mem.length = C.OUT_LEN * C.MAX_DEPTH) (m : Spec.Mode) (ss : List (Bytes × Bytes))
    (hlt : (fed ss).length < 2 ^ 63) (out : Vector Byte 32) :
    ∃ h₀ h, C.hasher_init mem (modeKey m).toList m.flag = .ok h₀ ∧ feed cfg h₀ ss = .ok h ∧
      C.hasher_finalize cfg h out.toList = .ok (Spec.hash m (fed ss)).toList :=
  C29_modes cfg h16 mem hmem m ss (by omega) (fun _ => Or.inl (by omega)) (Or.inl fun h => by rw [hneon] at h; cases h) out

/-- C53.  So does every build, provided each update passes less than 2048 bytes. -/
theorem C53_small_pieces (cfg : C.Config) (h16 : 16 ≤ cfg.bits) (mem : Bytes)
    (hmem : mem.length = C.OUT_LEN * C.MAX_DEPTH) (m : Spec.Mode) (ss : List (Bytes × Bytes))
    (hlt : (fed ss).length < 2 ^ 64) (hs : ∀ s ∈ ss, s.1.length < 2048) (out : Vector Byte 32) :
    ∃ h₀ h, C.hasher_init mem (modeKey m).toList m.flag = .ok h₀ ∧ feed cfg h₀ ss = .ok h ∧
      C.hasher_finalize cfg h out.toList = .ok (Spec.hash m (fed ss)).toList :=
  C29_modes cfg h16 mem hmem m ss hlt (fun _ => Or.inr hs) (Or.inr hs) out

/-! ## Where it does -/

/-- The bytes of a word in the opposite order. -/
def swapWord (w : Word) : Word :=
  w.extractLsb' 0 8 ++ w.extractLsb' 8 8 ++ w.extractLsb' 16 8 ++ w.extractLsb' 24 8

/-- A build for big-endian ARM with the NEON back end. -/
structure BigNeon (cfg : C.Config) : Prop where
  bits : 16 ≤ cfg.bits
  neon : cfg.neon = true
  big : cfg.order ≠ .little
  sse41 : cfg.sse41 = false
  avx2 : cfg.avx2 = false
  avx512 : cfg.avx512 = false

theorem bytes_of_append (a b c d : Byte) :
    (a ++ b ++ c ++ d : BitVec (8 + 8 + 8 + 8)).extractLsb' 0 8 = d ∧
    (a ++ b ++ c ++ d : BitVec (8 + 8 + 8 + 8)).extractLsb' 8 8 = c ∧
    (a ++ b ++ c ++ d : BitVec (8 + 8 + 8 + 8)).extractLsb' 16 8 = b ∧
    (a ++ b ++ c ++ d : BitVec (8 + 8 + 8 + 8)).extractLsb' 24 8 = a := by
  refine ⟨?_, ?_, ?_, ?_⟩ <;> ext i hi <;> rw [BitVec.getElem_extractLsb'] <;> repeat rw [BitVec.getLsbD_append]
  · rw [if_pos (by omega), Nat.zero_add]; exact BitVec.getLsbD_eq_getElem hi
  · rw [if_neg (by omega), if_pos (by omega), show 8 + i - 8 = i by omega]; exact BitVec.getLsbD_eq_getElem hi
  · rw [if_neg (by omega), if_neg (by omega), if_pos (by omega), show 16 + i - 8 - 8 = i by omega]
    exact BitVec.getLsbD_eq_getElem hi
  · rw [if_neg (by omega), if_neg (by omega), if_neg (by omega), show 24 + i - 8 - 8 - 8 = i by omega]
    exact BitVec.getLsbD_eq_getElem hi

theorem wordBytes_swapWord (w : Word) : Spec.wordBytes [swapWord w] = (Spec.wordBytes [w]).reverse := by
  obtain ⟨h0, h1, h2, h3⟩ := bytes_of_append (w.extractLsb' 0 8) (w.extractLsb' 8 8) (w.extractLsb' 16 8) (w.extractLsb' 24 8)
  simp only [Spec.wordBytes, List.flatMap_cons, List.flatMap_nil, List.append_nil, List.reverse_cons, List.reverse_nil,
    List.nil_append, List.cons_append, swapWord]
  exact congr (congrArg List.cons h0) (congr (congrArg List.cons h1) (congr (congrArg List.cons h2)
    (congr (congrArg List.cons h3) rfl)))

theorem revGroups_cvBytes (v : Vector Word 8) :
    Spec.revGroups 4 (Spec.cvBytes v).toList = (Spec.cvBytes (v.map swapWord)).toList := by
  have hb : ∀ l : List Word, Spec.revGroups 4 (Spec.wordBytes l) = Spec.wordBytes (l.map swapWord) := by
    intro l
    induction l with
    | nil => exact Proofs.C.Neon.revGroups_nil _
    | cons w l ih =>
      have hc : ∀ (w : Word) l, Spec.wordBytes (w :: l) = Spec.wordBytes [w] ++ Spec.wordBytes l := by
        intro w l; simp [Spec.wordBytes]
      rw [List.map_cons, hc, hc (swapWord w), Proofs.C.Neon.revGroups_append 4 (by decide) 1 _ _ (by rfl), ih,
        wordBytes_swapWord, Proofs.C.Neon.revGroups_cons 4 (by decide) _ (by simp [Spec.wordBytes]),
        show (Spec.wordBytes [w]).drop 4 = [] from rfl, Proofs.C.Neon.revGroups_nil, List.append_nil]
      rfl
  have hl : ∀ v : Vector Word 8, (Spec.cvBytes v).toList = Spec.wordBytes v.toList := by
    intro v; with_unfolding_all simp [Spec.cvBytes]
  rw [hl, hl, hb, Vector.toList_map]

theorem wk_big {o : ByteOrder} (h : o ≠ .little) : Proofs.C.Neon.wk o = 4 := by
  cases o with
  | little => exact absurd rfl h
  | bigA64 => rfl
  | bigA32 => rfl

/-- C53.  On big-endian ARM with the NEON back end, an update of a new hasher with a chunk and a shorter rest makes
the hasher return the hash of a tree in which the bytes of each word of the chaining value of that chunk are
exchanged. -/
theorem C53_big_neon (cfg : C.Config) (hb : BigNeon cfg) (mem : Bytes) (hM : 32 ≤ mem.length) (m : Spec.Mode)
    (c tail beyond : Bytes) (hc : c.length = 2048) (ht0 : 0 < tail.length) (ht : tail.length < 2048) (out : Vector Byte 32) :
    ∃ h₀ h, C.hasher_init mem (modeKey m).toList m.flag = .ok h₀ ∧ feed cfg h₀ [(c ++ tail, beyond)] = .ok h ∧
      C.hasher_finalize cfg h out.toList = .ok (Spec.cvBytes (Spec.compress
        { Spec.parent m.key m.flag ((Spec.compress (Spec.chunk m.key m.flag 0 c)).map swapWord)
            (Spec.compress (Spec.chunk m.key m.flag 2048 tail)) with
          flags := m.flag ||| Spec.parentFlag ||| Spec.rootFlag })).toList := by
  have hk : words_from_key_bytes (modeKey m) = m.key := by
    rw [keyWords]
    cases m with
    | hash => exact keyWords_iv
    | keyedHash k => rfl
    | deriveKey k => rfl
  obtain ⟨h0, h, e0, e1, e2⟩ := Proofs.C.two_chunks hb.bits hb.avx512 hb.avx2 hb.sse41 hb.neon mem hM (modeKey m) [] m.flag c tail beyond
    hc ht0 ht (Spec.cvBytes ((Spec.compress (Spec.chunk m.key m.flag 0 c)).map swapWord))
    (by rw [hk, wk_big hb.big, revGroups_cvBytes]) out.toList (by simp)
  rw [List.append_nil] at e0
  refine ⟨h0, h, e0, ?_, ?_⟩
  · rw [feed, List.length_append, hc, e1]; rfl
  · rw [e2, hk, List.drop_of_length_le (by simp), List.append_nil]
    rfl

/-! ### 2049 bytes of zeros -/

/-- a compression of a block of zeros -/
def zeroStep (fl : Byte) (cv : Vector Word 8) : Vector Word 8 := Portable.compress cv (Vector.replicate 64 0) 64 0 fl

/-- `n` of them -/
def zeroSteps : Nat → Vector Word 8 → Vector Word 8
  | 0, cv => cv
  | n + 1, cv => zeroSteps n (zeroStep 0 cv)

theorem pad_zeros (n : Nat) : Spec.pad (rep n 0) = Vector.replicate 64 0 := by
  apply Vector.ext
  intro i hi
  rw [pad_getElem, Vector.getElem_replicate, rep, List.getD_eq_getElem?_getD, List.getElem?_replicate]
  split <;> rfl

theorem chunkFrom_step (n : Nat) (cv : Vector Word 8) (fl : Byte) :
    Spec.chunkFrom 0 0 cv fl (rep (64 * (n + 2)) 0) = Spec.chunkFrom 0 0 (zeroStep fl cv) 0 (rep (64 * (n + 1)) 0) := by
  rw [Spec.chunkFrom, dif_neg (by rw [rep, List.length_replicate]; omega)]
  simp only [rep, List.take_replicate, List.drop_replicate]
  rw [show 64 * (n + 2) - 64 = 64 * (n + 1) by omega]
  refine congrArg (fun v => Spec.chunkFrom 0 0 v 0 _) ?_
  have := pad_zeros (min 64 (64 * (n + 2)))
  rw [rep] at this
  rw [this, zeroStep, compress_eq]
  rfl

theorem chunkFrom_zeroBlocks (n : Nat) (cv : Vector Word 8) :
    Spec.compress (Spec.chunkFrom 0 0 cv 0 (rep (64 * (n + 1)) 0)) = zeroStep 2 (zeroSteps n cv) := by
  induction n generalizing cv with
  | zero =>
    rw [Spec.chunkFrom, dif_pos (by simp), pad_zeros, zeroStep, compress_eq]
    rfl
  | succ n ih => rw [chunkFrom_step, ih]; rfl

def zeroCv : Vector Word 8 :=
  #v[0x3b24bb71, 0x0ed4ed57, 0xd5d8e2ec, 0x598b20c5, 0x7ee9d4ca, 0x79827900, 0xd9dd4d57, 0x1f5a7cad]

theorem zeroSteps_add (a b : Nat) (cv : Vector Word 8) : zeroSteps (a + b) cv = zeroSteps b (zeroSteps a cv) := by
  induction a generalizing cv with
  | zero => rw [Nat.zero_add]; rfl
  | succ a ih => rw [Nat.succ_add]; exact ih _

theorem zeroCv_half : zeroSteps 15 (zeroStep 1 (Vector.ofFn Spec.iv)) =
    #v[0x9a006f41, 0x063497cd, 0x70a88700, 0x511bac8c, 0x0b95e871, 0xe28560b2, 0x8c96b276, 0x97c15d34] := by decide +kernel

theorem zeroCv_rest : zeroStep 2 (zeroSteps 15
    #v[0x9a006f41, 0x063497cd, 0x70a88700, 0x511bac8c, 0x0b95e871, 0xe28560b2, 0x8c96b276, 0x97c15d34]) = zeroCv := by
  decide +kernel

theorem zeroCv_eq : Spec.compress (Spec.chunk (Vector.ofFn Spec.iv) 0 0 (rep 2048 0)) = zeroCv := by
  rw [Spec.chunk, show (2048 : Nat) = 64 * (30 + 2) from rfl, chunkFrom_step, chunkFrom_zeroBlocks,
    show 30 = 15 + 15 from rfl, zeroSteps_add]
  exact (congrArg (fun v => zeroStep 2 (zeroSteps 15 v)) zeroCv_half).trans zeroCv_rest

theorem tailCv_eq : Spec.compress (Spec.chunk (Vector.ofFn Spec.iv) 0 2048 [0]) =
    #v[0xccc56eb9, 0x87062756, 0xe98b35f0, 0x9496f63d, 0xc1a40ca3, 0x493fe811, 0xcb63d2fe, 0x9d2193de] := by
  rw [Spec.chunk, Spec.chunkFrom, dif_pos (by decide), ← compress_eq]
  decide +kernel

/-- the root of the tree over 2049 zeros -/
def zeroRoot (l : Vector Word 8) : Vector Word 8 :=
  Portable.compress (Vector.ofFn Spec.iv) (Spec.cvBytes l ++ Spec.cvBytes
    #v[0xccc56eb9, 0x87062756, 0xe98b35f0, 0x9496f63d, 0xc1a40ca3, 0x493fe811, 0xcb63d2fe, 0x9d2193de]) 64 0 12

theorem zeroRoot_eq : (zeroRoot zeroCv)[0] = 0xf92017ce := by decide +kernel

theorem zeroRoot_swapped : (zeroRoot (zeroCv.map swapWord))[0] = 0x70f954c8 := by decide +kernel

theorem hash_zeros : Spec.hash .hash (rep 2049 0) = Spec.cvBytes (zeroRoot zeroCv) := by
  rw [← keyedTree_mode, keyedTree, Spec.subtree, dif_neg (by rw [rep, List.length_replicate]; omega)]
  have hl : Spec.leftLen (rep 2049 0).length = 2048 := by rw [rep, List.length_replicate]; decide
  have h1 : (rep 2049 0).take 2048 = rep 2048 0 := by rw [rep, List.take_replicate]; rfl
  have h2 : (rep 2049 0).drop 2048 = [0] := by rw [rep, List.drop_replicate]; rfl
  dsimp only
  rw [hl, h1, h2, Spec.subtree, dif_pos (by rw [rep, List.length_replicate]; omega), Spec.subtree, dif_pos (by decide), keyWords_iv,
    show Spec.Mode.hash.flag = 0 from rfl, Nat.zero_add, zeroCv_eq, tailCv_eq, zeroRoot, compress_eq]
  rfl

/-- C53.  So the NEON back end does not work on big-endian ARM: for 2049 zeros in one piece the hasher does not return
the specified hash, and it returns another one if the same bytes are passed in two pieces. -/
theorem C53_wrong (cfg : C.Config) (hb : BigNeon cfg) (mem : Bytes) (hmem : mem.length = C.OUT_LEN * C.MAX_DEPTH)
    (out : Vector Byte 32) :
    ∃ h₀ h₁ h₂ d₁ d₂, C.hasher_init mem (modeKey .hash).toList 0 = .ok h₀ ∧
      feed cfg h₀ [(rep 2049 0, [])] = .ok h₁ ∧ C.hasher_finalize cfg h₁ out.toList = .ok d₁ ∧
      feed cfg h₀ [(rep 1025 0, []), (rep 1024 0, [])] = .ok h₂ ∧ C.hasher_finalize cfg h₂ out.toList = .ok d₂ ∧
      d₁ ≠ (Spec.hash .hash (rep 2049 0)).toList ∧ d₂ = (Spec.hash .hash (rep 2049 0)).toList := by
  have hr : rep 2048 0 ++ [0] = rep 2049 0 := by
    rw [rep, rep, List.replicate_succ' (n := 2048)]
  have hf : fed [(rep 1025 0, []), (rep 1024 0, [])] = rep 2049 0 := by
    simp only [fed, List.map_cons, List.map_nil, List.flatten_cons, List.flatten_nil, List.append_nil, rep,
      List.replicate_append_replicate]
  have hl : ∀ n, (rep n 0).length = n := fun n => List.length_replicate
  obtain ⟨h0, h1, e0, e1, e2⟩ := C53_big_neon cfg hb mem (by rw [hmem]; decide) .hash (rep 2048 0) [0] [] (hl _) (by decide) (by decide) out
  obtain ⟨h0', h2, e0', e3, e4⟩ := C53_small_pieces cfg hb.bits mem hmem .hash [(rep 1025 0, []), (rep 1024 0, [])]
    (by rw [hf, hl]; decide) (by
      intro s hs
      rcases List.mem_cons.1 hs with rfl | hs
      · exact Nat.lt_of_le_of_lt (Nat.le_of_eq (hl _)) (by decide)
      · rcases List.mem_singleton.1 hs with rfl
        exact Nat.lt_of_le_of_lt (Nat.le_of_eq (hl _)) (by decide)) out
  obtain rfl : h0 = h0' := by rw [e0] at e0'; cases e0'; rfl
  rw [hr] at e1
  rw [hf] at e4
  refine ⟨h0, h1, h2, _, _, e0, e1, e2, e3, e4, ?_, rfl⟩
  rw [hash_zeros]
  intro h
  have h3 := cvBytes_inj (Vector.toList_inj.1 h)
  have h4 : Spec.compress { Spec.parent (Vector.ofFn Spec.iv) 0 (zeroCv.map swapWord) (Spec.compress (Spec.chunk (Vector.ofFn Spec.iv) 0 2048 [0])) with
      flags := 0 ||| Spec.parentFlag ||| Spec.rootFlag } = zeroRoot (zeroCv.map swapWord) := by
    rw [tailCv_eq, zeroRoot, compress_eq]
    rfl
  have h5 : zeroRoot (zeroCv.map swapWord) = zeroRoot zeroCv := by
    rw [← h4, ← h3, ← zeroCv_eq]
    rfl
  have h6 := congrArg (fun v => v[0]) h5
  simp only [zeroRoot_eq, zeroRoot_swapped] at h6
  exact absurd h6 (by decide)

-- such builds
example : BigNeon ⟨false, false, false, true, false, true, 64, fun _ => 0, .bigA64⟩ := by
  constructor <;> decide

end Baokeshed.Props
