import Verif.Proofs.IndiffCount
import Verif.Proofs.Oracle
import Verif.Proofs.Extract

/-!
# The simulator recognises root nodes

Reading an input back from a table of questions and answers, for an arbitrary compression function; as in `Proofs/Extract.lean`.
-/

set_option linter.unusedVariables false

namespace Baokeshed.Proofs.Gen
open Baokeshed.Model

attribute [local irreducible] Spec.cvBytes Spec.outBytes Spec.pad Spec.Record.find Spec.Record.subtree

/-- the record of the calls `S` -/
def record (F : Spec.Input → Vector Word 8) (S : List Spec.Input) : Spec.Record := S.map fun a => (a, F a)

/-- no two calls collide -/
def NoColl (F : Spec.Input → Vector Word 8) (S : List Spec.Input) : Prop := ∀ a ∈ S, ∀ b ∈ S, F a = F b → a = b

variable {F : Spec.Input → Vector Word 8}

theorem find_record {S : List Spec.Input} (hS : NoColl F S) {a : Spec.Input} (ha : a ∈ S) {bytes : Bytes}
    (hb : bytes = (Spec.cvBytes (F a)).toList) : (record F S).find bytes = some a := by
  subst hb
  unfold Spec.Record.find
  have hex : ∃ p, (record F S).find? (fun p => decide ((Spec.cvBytes p.2).toList = (Spec.cvBytes (F a)).toList)) = some p := by
    rw [← Option.isSome_iff_exists, List.find?_isSome]
    exact ⟨(a, F a), List.mem_map.2 ⟨a, ha, rfl⟩, by simp⟩
  obtain ⟨p, hp⟩ := hex
  rw [hp]
  have h1 := List.find?_some hp
  have h2 := List.mem_of_find?_eq_some hp
  obtain ⟨b, hb, rfl⟩ := List.mem_map.1 h2
  have h3 := cvBytes_inj (Vector.toList_inj.1 (of_decide_eq_true h1))
  exact congrArg some (hS b hb a ha h3)

theorem chunk_record {S : List Spec.Input} (hS : NoColl F S) {f : Byte} (hf : ModeFlag f) (off : Nat) (c : Bytes) :
    ∀ (cv key : Vector Word 8) (s : Bool) (before : Bytes) (k n : Nat), Known (record F S) cv s key before k →
    (∀ a ∈ G.chunkBefore F f off cv (f ||| startFlag s) c, a ∈ S) → k + nBlocks c ≤ n →
    (record F S).chunk n (G.chunkFrom F f off cv (f ||| startFlag s) c) = some (key, before ++ c) := by
  induction hn : c.length using Nat.strongRecOn generalizing c with
  | ind _ ih =>
  intro cv key s before k n hk hm hle
  rw [G.chunkFrom]
  rw [G.chunkBefore] at hm
  by_cases h : c.length ≤ 64
  · rw [dif_pos h]
    exact chunk_step hk (by unfold nBlocks at hle; omega) hf (Or.inr rfl) c h _ (by rw [BitVec.toNat_ofNat]; omega) _
  · rw [dif_neg h]
    rw [dif_neg h] at hm
    dsimp only at hm
    have hd : nBlocks (c.drop 64) + 1 = nBlocks c := by unfold nBlocks; simp only [List.length_drop]; omega
    have hin := hm _ List.mem_cons_self
    have hrest := fun a ha => hm a (List.mem_cons_of_mem _ ha)
    have e0 : f ||| startFlag false = f := BitVec.or_zero
    have hstep := fun n (hn : k + 1 ≤ n) => chunk_step (n := n) hk hn hf (Or.inl rfl) (c.take 64) (by simp) 64
      (by rw [List.length_take, Nat.min_eq_left (by omega)]; rfl) (BitVec.ofNat 64 off)
    rw [show f ||| startFlag s ||| 0 = f ||| startFlag s from BitVec.or_zero] at hstep
    generalize hb : (⟨cv, Spec.pad (c.take 64), 64, BitVec.ofNat 64 off, f ||| startFlag s⟩ : Spec.Input) = b at *
    have := ih (c.drop 64).length (by simp; omega) (c.drop 64) rfl (F b) key false (before ++ c.take 64) (k + 1) n
      (Or.inr ⟨rfl, b, find_record hS hin rfl, hstep⟩) (by rw [e0]; exact hrest) (by omega)
    rw [e0, List.append_assoc, List.take_append_drop] at this
    exact this

theorem parent_halves (key : Vector Word 8) (f : Byte) (l r : Vector Word 8) :
    (Spec.parent key f l r).block.toList.take 32 = (Spec.cvBytes l).toList ∧
    (Spec.parent key f l r).block.toList.drop 32 = (Spec.cvBytes r).toList := by
  have hblk : (Spec.parent key f l r).block.toList = (Spec.cvBytes l).toList ++ (Spec.cvBytes r).toList := Vector.toList_append
  rw [hblk]
  exact ⟨List.take_left' (by simp), List.drop_left' (by simp)⟩

theorem parent_record {S : List Spec.Input} (hS : NoColl F S) {f : Byte} (hf : ModeFlag f) (key kl kr : Vector Word 8) (d : Nat)
    (a b : Spec.Input) (x y : Bytes) (mL : a ∈ S) (mR : b ∈ S) (hL : (record F S).subtree d a = some (kl, x))
    (hR : (record F S).subtree d b = some (kr, y)) :
    (record F S).subtree (d + 1) (Spec.parent key f (F a) (F b)) = some (key, x ++ y) := by
  rw [Spec.Record.subtree]
  rw [if_pos (show (Spec.parent key f (F a) (F b)).flags &&& Spec.parentFlag ≠ 0 from parent_bit hf)]
  obtain ⟨ht, hd⟩ := parent_halves key f (F a) (F b)
  rw [find_record hS mL ht, find_record hS mR hd]
  dsimp only [Option.bind_eq_bind, Option.bind_some]
  rw [hL, hR]
  rfl

theorem subtree_record {S : List Spec.Input} (hS : NoColl F S) {f : Byte} (hf : ModeFlag f) (key : Vector Word 8) (d : Nat) :
    ∀ (off : Nat) (input : Bytes), (∀ a ∈ G.below F key f off input, a ∈ S) → input.length ≤ 2048 * 2 ^ d →
    (record F S).subtree d (G.subtree F key f off input) = some (key, input) := by
  have hleaf : ∀ (off : Nat) (input : Bytes), (∀ a ∈ G.below F key f off input, a ∈ S) → input.length ≤ 2048 →
      (record F S).chunk 32 (G.subtree F key f off input) = some (key, input) ∧
      ¬ (G.subtree F key f off input).flags &&& Spec.parentFlag ≠ 0 := by
    intro off input hm h
    rw [G.below, dif_pos h] at hm
    rw [G.subtree, dif_pos h, G.chunk]
    constructor
    · exact chunk_record hS hf off input key key true [] 0 32 (Or.inl ⟨rfl, rfl, rfl⟩) hm (by unfold nBlocks; omega)
    · obtain ⟨s, hs⟩ := chunkFrom_flags (F := F) f off input key true
      rw [show f ||| Spec.chunkStart = f ||| startFlag true from rfl, hs]
      exact no_parent_bit hf s
  induction d with
  | zero =>
    intro off input hm hl
    obtain ⟨h1, h2⟩ := hleaf off input hm (by omega)
    rw [Spec.Record.subtree, if_neg h2, h1]
  | succ d ih =>
    intro off input hm hl
    by_cases h : input.length ≤ 2048
    · obtain ⟨h1, h2⟩ := hleaf off input hm h
      rw [Spec.Record.subtree, if_neg h2, h1]
    · obtain ⟨hl1, hl2⟩ := leftLen_le (by omega) hl
      rw [G.below, dif_neg h] at hm
      rw [G.subtree, dif_neg h]
      dsimp only at hm ⊢
      generalize Spec.leftLen input.length = l at *
      have hL := ih off (input.take l) (fun a ha => hm a (by simp [ha])) (by simp; omega)
      have hR := ih (off + l) (input.drop l) (fun a ha => hm a (by simp [ha])) (by simp; omega)
      have := parent_record hS hf key key key d _ _ _ _ (hm _ (by simp)) (hm _ (by simp)) hL hR
      rw [List.take_append_drop] at this
      exact this

/-! ## downwards from a node -/

/-- the chaining values that a node was given: two for a parent, one for a block of a chunk -/
def slots (a : Spec.Input) : List Bytes :=
  if a.flags &&& Spec.parentFlag ≠ 0 then [a.block.toList.take 32, a.block.toList.drop 32] else [(Spec.cvBytes a.cv).toList]

theorem slots_length (a : Spec.Input) : (slots a).length ≤ 2 := by
  rw [slots]; split <;> simp

theorem slots_block {f : Byte} (hf : ModeFlag f) (s : Bool) (cv : Vector Word 8) (b : Vector Byte 64) (n : Byte) (o : U64) (x : Byte)
    (hx : x = 0 ∨ x = Spec.chunkEnd) : slots ⟨cv, b, n, o, f ||| startFlag s ||| x⟩ = [(Spec.cvBytes cv).toList] := by
  rw [slots, if_neg]
  dsimp only
  rcases hx with rfl | rfl <;> rcases hf with rfl | rfl | rfl <;> cases s <;> decide

theorem slots_parent {f : Byte} (hf : ModeFlag f) (key l r : Vector Word 8) :
    slots (Spec.parent key f l r) = [(Spec.cvBytes l).toList, (Spec.cvBytes r).toList] := by
  obtain ⟨ht, hd⟩ := parent_halves key f l r
  rw [slots, if_pos (show (Spec.parent key f l r).flags &&& Spec.parentFlag ≠ 0 from parent_bit hf), ht, hd]

/-- the inputs whose results were passed on -/
def From (F : Spec.Input → Vector Word 8) (C Q : List Spec.Input) (b : Spec.Input) : Prop :=
  ∀ n ∈ Q, (Spec.cvBytes (F n)).toList ∈ slots b → n ∈ C

theorem chunk_descent {C Q : List Spec.Input} (hC : ∀ b ∈ C, From F C Q b) {f : Byte} (hf : ModeFlag f) (off : Nat) (c : Bytes) :
    ∀ (cv : Vector Word 8) (s : Bool), From F C Q (G.chunkFrom F f off cv (f ||| startFlag s) c) →
    (∀ n ∈ G.chunkBefore F f off cv (f ||| startFlag s) c, n ∈ Q) →
    (∀ n ∈ G.chunkBefore F f off cv (f ||| startFlag s) c, n ∈ C) ∧ ∀ n ∈ Q, F n = cv → n ∈ C := by
  induction hn : c.length using Nat.strongRecOn generalizing c with
  | ind _ ih =>
  intro cv s htop hq
  rw [G.chunkFrom] at htop
  rw [G.chunkBefore] at hq ⊢
  by_cases h : c.length ≤ 64
  · rw [dif_pos h] at htop ⊢
    refine ⟨fun n hn => absurd hn List.not_mem_nil, fun n hn e => htop n hn ?_⟩
    rw [slots_block hf s _ _ _ _ _ (Or.inr rfl), e]
    exact List.mem_singleton_self _
  · rw [dif_neg h] at htop hq ⊢
    dsimp only at hq ⊢
    have e0 : f ||| startFlag false = f := BitVec.or_zero
    have hs := slots_block hf s cv (Spec.pad (c.take 64)) 64 (BitVec.ofNat 64 off) 0 (Or.inl rfl)
    rw [show f ||| startFlag s ||| 0 = f ||| startFlag s from BitVec.or_zero] at hs
    generalize (⟨cv, Spec.pad (c.take 64), 64, BitVec.ofNat 64 off, f ||| startFlag s⟩ : Spec.Input) = b at *
    have := ih (c.drop 64).length (by simp; omega) (c.drop 64) rfl (F b) false (by rw [e0]; exact htop)
      (by rw [e0]; exact fun n hn => hq n (List.mem_cons_of_mem _ hn))
    rw [e0] at this
    have hb := this.2 b (hq b List.mem_cons_self) rfl
    refine ⟨fun n hn => ?_, fun n hn e => hC b hb n hn ?_⟩
    · rcases List.mem_cons.1 hn with rfl | hn
      · exact hb
      · exact this.1 n hn
    · rw [hs, e]
      exact List.mem_singleton_self _

theorem subtree_descent {C Q : List Spec.Input} (hC : ∀ b ∈ C, From F C Q b) {f : Byte} (hf : ModeFlag f) (key : Vector Word 8) (x : Bytes) :
    ∀ off, From F C Q (G.subtree F key f off x) → (∀ n ∈ G.below F key f off x, n ∈ Q) → ∀ n ∈ G.below F key f off x, n ∈ C := by
  induction hn : x.length using Nat.strongRecOn generalizing x with
  | ind _ ih =>
  intro off htop hq
  rw [G.subtree] at htop
  rw [G.below] at hq ⊢
  by_cases h : x.length ≤ 2048
  · rw [dif_pos h] at htop hq ⊢
    exact (chunk_descent hC hf off x key true htop hq).1
  · rw [dif_neg h] at htop hq ⊢
    have hl := Spec.leftLen_lt (Nat.lt_of_not_le h)
    have hp := Spec.leftLen_pos x.length
    dsimp only at htop hq ⊢
    generalize Spec.leftLen x.length = l at *
    have hL : G.subtree F key f off (x.take l) ∈ C :=
      htop _ (hq _ (by simp)) (by rw [slots_parent hf]; exact List.mem_cons_self)
    have hR : G.subtree F key f (off + l) (x.drop l) ∈ C :=
      htop _ (hq _ (by simp)) (by rw [slots_parent hf]; exact List.mem_cons_of_mem _ List.mem_cons_self)
    have h1 := ih (x.take l).length (by simp; omega) (x.take l) rfl off (hC _ hL) (fun n hn => hq n (by simp [hn]))
    have h2 := ih (x.drop l).length (by simp; omega) (x.drop l) rfl (off + l) (hC _ hR) (fun n hn => hq n (by simp [hn]))
    intro n hn
    rcases List.mem_append.1 hn with hn | hn <;> rcases List.mem_append.1 hn with hn | hn
    · exact h1 n hn
    · rw [List.mem_singleton.1 hn]; exact hL
    · exact h2 n hn
    · rw [List.mem_singleton.1 hn]; exact hR

/-! ## the system -/

def sys (N : Nat) : Indiff.Sys Spec.Input Spec.Full (Spec.Want N) Bytes where
  root a := a.flags &&& Spec.rootFlag ≠ 0
  rt F μ := rootAt (low F) μ.1.1 μ.1.2.1 μ.1.2.2
  inner F μ := G.inner (low F) μ.1.1 μ.1.2.1
  low y := (Spec.cvBytes y.1).toList
  slots := slots
  see := Spec.seen N

theorem root_root (F : Spec.Input → Vector Word 8) (m : Spec.Mode) (x : Bytes) (k : Nat) : (rootAt F m x k).flags &&& Spec.rootFlag ≠ 0 := by
  show ((G.subtree F m.key m.flag 0 x).flags ||| Spec.rootFlag) &&& Spec.rootFlag ≠ 0
  generalize (G.subtree F m.key m.flag 0 x).flags = b
  have h2 : (b ||| Spec.rootFlag) &&& 8 = 8 := by
    ext i hi
    simp only [BitVec.getElem_and, BitVec.getElem_or, Spec.rootFlag]
    cases b[i] <;> simp
  intro h
  exact absurd (h2.symm.trans h) (by decide)

theorem inner_no_root (F : Spec.Input → Vector Word 8) (m : Spec.Mode) (x : Bytes) : ∀ n ∈ G.inner F m x, ¬ n.flags &&& Spec.rootFlag ≠ 0 :=
  fun n hn h => h (below_flags F (modeFlag m) m.key x 0 n hn)

theorem root_loc (F F' : Spec.Input → Spec.Full) (m : Spec.Mode) (x : Bytes) (h : ∀ n ∈ G.inner (low F) m x, F n = F' n) :
    G.root (low F') m x = G.root (low F) m x ∧ G.inner (low F') m x = G.inner (low F) m x := by
  obtain ⟨h1, h2⟩ := root_asks F m x
  obtain ⟨h3, h4⟩ := root_asks F' m x
  obtain ⟨h5, h6⟩ := algo_same F F' (Spec.rootAsk m x) (by rw [h2]; exact h)
  rw [← h1, ← h2, ← h3, ← h4]
  exact ⟨h6, h5⟩

theorem lookup_mem {X Y : Type} [BEq X] [LawfulBEq X] {tbl : List (X × Y)} {a : X} {y : Y} (h : tbl.lookup a = some y) : (a, y) ∈ tbl := by
  induction tbl with
  | nil => cases h
  | cons p t ih =>
    rw [List.lookup_cons] at h
    by_cases e : (a == p.1) = true
    · rw [e] at h
      rw [eq_of_beq e, ← Option.some.inj h]; exact List.mem_cons_self
    · rw [Bool.eq_false_iff.2 e] at h
      exact List.mem_cons_of_mem _ (ih h)

theorem lookup_keys {X Y : Type} [BEq X] [LawfulBEq X] {tbl : List (X × Y)} {a : X} (h : a ∈ tbl.map Prod.fst) : ∃ y, tbl.lookup a = some y := by
  induction tbl with
  | nil => cases h
  | cons p t ih =>
    rw [List.lookup_cons]
    by_cases e : (a == p.1) = true
    · rw [e]; exact ⟨_, rfl⟩
    · rw [Bool.eq_false_iff.2 e]
      rcases List.mem_cons.1 h with h | h
      · rw [h] at e; exact absurd (beq_self_eq_true _) e
      · exact ih h

theorem answers_ok {N : Nat} {F : Spec.Input → Spec.Full} {tbl : List (Spec.Input × Spec.Full)} (hok : (sys N).Ok F tbl) {a : Spec.Input}
    (ha : a ∈ tbl.map Prod.fst) (hr : ¬ a.flags &&& Spec.rootFlag ≠ 0) : Spec.answers tbl a = F a := by
  obtain ⟨y, h⟩ := lookup_keys ha
  rw [Spec.answers, h]
  exact (hok _ (lookup_mem h) hr).symm

theorem recognise_sound {tbl : List (Spec.Input × Spec.Full)} {a : Spec.Input} {m : Spec.Mode} {x : Bytes} {k : Nat}
    (h : Spec.recognise tbl a = some (m, x, k)) :
    (∀ n ∈ G.inner (low (Spec.answers tbl)) m x, n ∈ tbl.map Prod.fst) ∧ rootAt (low (Spec.answers tbl)) m x k = a := by
  unfold Spec.recognise at h
  simp only [Option.bind_eq_bind, Option.bind_eq_some_iff] at h
  obtain ⟨⟨key, x'⟩, -, h⟩ := h
  dsimp only at h
  split at h
  · rename_i hc
    simp only [Option.some.injEq, Prod.mk.injEq] at h
    obtain ⟨h1, h2, h3⟩ := h
    rw [h1, h2, h3] at hc
    rw [(root_asks _ _ _).1, (root_asks _ _ _).2] at hc
    exact hc
  · cases h

theorem recognise_complete {N : Nat} {F : Spec.Input → Spec.Full} {tbl : List (Spec.Input × Spec.Full)} (hok : (sys N).Ok F tbl)
    (m : Spec.Mode) (x : Bytes) (k : Nat) (hx : x.length < 2 ^ 64) (hk : k < 2 ^ 58)
    (hin : ∀ n ∈ G.inner (low F) m x, n ∈ tbl.map Prod.fst)
    (hinj : ∀ a ∈ tbl.map Prod.fst, ∀ b ∈ tbl.map Prod.fst, ¬ a.flags &&& Spec.rootFlag ≠ 0 → ¬ b.flags &&& Spec.rootFlag ≠ 0 →
      low F a = low F b → a = b) :
    Spec.recognise tbl (rootAt (low F) m x k) = some (m, x, k) := by
  -- the record
  have hrec : ((tbl.filter fun p => p.1.flags &&& Spec.rootFlag = 0).map fun p => (p.1, p.2.1)) =
      record (low F) ((tbl.filter fun p => p.1.flags &&& Spec.rootFlag = 0).map Prod.fst) := by
    rw [record, List.map_map]
    apply List.map_congr_left
    intro p hp
    obtain ⟨h1, h2⟩ := List.mem_filter.1 hp
    have := hok p h1 (fun h => h (of_decide_eq_true h2))
    simp only [Function.comp_apply, low]
    rw [this]
  have hmem : ∀ n, n ∈ (tbl.filter fun p => p.1.flags &&& Spec.rootFlag = 0).map Prod.fst ↔ n ∈ tbl.map Prod.fst ∧ n.flags &&& Spec.rootFlag = 0 := by
    intro n
    simp only [List.mem_map, List.mem_filter, decide_eq_true_eq]
    constructor
    · rintro ⟨p, ⟨h1, h2⟩, rfl⟩; exact ⟨⟨p, h1, rfl⟩, h2⟩
    · rintro ⟨⟨p, h1, rfl⟩, h2⟩; exact ⟨p, ⟨h1, h2⟩, rfl⟩
  have hnc : NoColl (low F) ((tbl.filter fun p => p.1.flags &&& Spec.rootFlag = 0).map Prod.fst) := by
    intro a ha b hb e
    obtain ⟨a1, a2⟩ := (hmem a).1 ha
    obtain ⟨b1, b2⟩ := (hmem b).1 hb
    exact hinj a a1 b b1 (fun h => h a2) (fun h => h b2) e
  have hsub := subtree_record hnc (modeFlag m) m.key 53 0 x (fun n hn => (hmem n).2 ⟨hin n hn, below_flags _ (modeFlag m) m.key x 0 n hn⟩) (by omega)
  have hfl : (rootAt (low F) m x k).flags = (G.subtree (low F) m.key m.flag 0 x).flags ||| Spec.rootFlag := rfl
  obtain ⟨b1, b2, b3, b4, b5⟩ := root_bits (modeFlag m) (subtree_flags (F := low F) m.key m.flag 0 x)
  rw [← hfl] at b1 b2 b3 b4 b5
  rw [← subtree_congr _ 53 (rootAt (low F) m x k) (G.subtree (low F) m.key m.flag 0 x) rfl rfl rfl b2 b3, ← hrec] at hsub
  have hoff : (rootAt (low F) m x k).offset.toNat / 64 = k := by
    show (BitVec.ofNat 64 (64 * k)).toNat / 64 = k
    rw [BitVec.toNat_ofNat, Nat.mod_eq_of_lt (by omega)]
    omega
  have hans : ∀ n ∈ G.inner (low F) m x, F n = Spec.answers tbl n := fun n hn =>
    (answers_ok hok (hin n hn) (inner_no_root _ m x n hn)).symm
  obtain ⟨hl1, hl2⟩ := root_loc F (Spec.answers tbl) m x hans
  unfold Spec.recognise
  dsimp only
  rw [hsub]
  simp only [Option.bind_eq_bind, Option.bind_some]
  rw [modeOf_root m _ b4 b5, hoff, if_pos]
  rw [(root_asks _ _ _).1, (root_asks _ _ _).2, hl1, hl2]
  exact ⟨hin, rfl⟩

theorem rootAt_inj {F : Spec.Input → Vector Word 8} {m m' : Spec.Mode} {x x' : Bytes} {k k' : Nat} (hk : k < 2 ^ 58) (hk' : k' < 2 ^ 58)
    (h : rootAt F m x k = rootAt F m' x' k') : (m = m' ∧ x = x' ∧ k = k') ∨ Coll F (G.inner F m x) (G.inner F m' x') := by
  have h1 : G.root F m x = G.root F m' x' := by
    rw [← root_at_zero, ← root_at_zero]
    exact congrArg (fun a : Spec.Input => { a with offset := BitVec.ofNat 64 (64 * 0) }) h
  have h2 : k = k' := by
    have := congrArg (fun a : Spec.Input => a.offset.toNat) h
    simp only [rootAt, BitVec.toNat_ofNat] at this
    rw [Nat.mod_eq_of_lt (by omega), Nat.mod_eq_of_lt (by omega)] at this
    omega
  rcases root_inj m m' x x' h1 with ⟨e1, e2⟩ | hc
  · exact .inl ⟨e1, e2, h2⟩
  · exact .inr hc

theorem seen_some {N : Nat} {tbl : List (Spec.Input × Spec.Full)} {a : Spec.Input} {μ : Spec.Want N} (h : Spec.seen N tbl a = some μ) :
    Spec.recognise tbl a = some μ.1 := by
  rw [Spec.seen, Option.bind_eq_some_iff] at h
  obtain ⟨w, h1, h2⟩ := h
  split at h2
  · rw [← Option.some.inj h2, h1]
  · cases h2

theorem sys_good {N : Nat} (hN : N < 2 ^ 64) : (sys N).Good where
  rt_root F μ := root_root (low F) μ.1.1 μ.1.2.1 μ.1.2.2
  inner_root F μ := inner_no_root (low F) μ.1.1 μ.1.2.1
  loc F F' μ h := by
    obtain ⟨h1, h2⟩ := root_loc F F' μ.1.1 μ.1.2.1 h
    refine ⟨?_, h2⟩
    show rootAt _ _ _ _ = rootAt _ _ _ _
    rw [rootAt, h1, rootAt]
  sound F tbl a μ hok h := by
    obtain ⟨h1, h2⟩ := recognise_sound (seen_some h)
    obtain ⟨h3, h4⟩ := root_loc (Spec.answers tbl) F μ.1.1 μ.1.2.1 fun n hn => answers_ok hok (h1 n hn) (inner_no_root _ _ _ n hn)
    constructor
    · show rootAt _ _ _ _ = a
      rw [rootAt, h3]; exact h2
    · show ∀ n ∈ G.inner _ _ _, _
      rw [h4]; exact h1
  complete F tbl μ hok hin hinj := by
    have := recognise_complete hok μ.1.1 μ.1.2.1 μ.1.2.2 (by have := μ.2.1; omega) μ.2.2 hin fun a ha b hb ra rb e =>
      hinj a ha b hb ra rb (by
        show (Spec.cvBytes (low F a)).toList = (Spec.cvBytes (low F b)).toList
        rw [e])
    show Spec.seen N tbl (rootAt _ _ _ _) ≠ none
    rw [Spec.seen, this]
    simp only [Option.bind_some]
    rw [dif_pos μ.2]
    exact fun h => by cases h
  inj F μ μ' h hinj := by
    rcases rootAt_inj μ.2.2 μ'.2.2 h with ⟨h1, h2, h3⟩ | ⟨a, ha, b, hb, hne, e⟩
    · exact Subtype.ext (Prod.ext h1 (Prod.ext h2 h3))
    · refine absurd (hinj a ha b hb ?_) hne
      show (Spec.cvBytes (low F a)).toList = (Spec.cvBytes (low F b)).toList
      rw [e]
  descent F μ C Q hC htop hin := by
    refine subtree_descent (F := low F) (C := C) (Q := Q) hC (modeFlag μ.1.1) μ.1.1.key μ.1.2.1 0 ?_ hin
    intro n hn hs
    refine htop n hn ?_
    show (Spec.cvBytes (low F n)).toList ∈ slots (rootAt _ _ _ _)
    have hfl : (rootAt (low F) μ.1.1 μ.1.2.1 μ.1.2.2).flags = (G.subtree (low F) μ.1.1.key μ.1.1.flag 0 μ.1.2.1).flags ||| Spec.rootFlag := rfl
    obtain ⟨b1, b2, b3, b4, b5⟩ := root_bits (modeFlag μ.1.1) (subtree_flags (F := low F) μ.1.1.key μ.1.1.flag 0 μ.1.2.1)
    rw [← hfl] at b3
    rw [slots, b3]
    exact hs

end Baokeshed.Proofs.Gen
