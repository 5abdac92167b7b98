import Verif.SpecExtract
import Verif.Proofs.Collide

/-! # The message can be read back from the compressions -/

set_option linter.unusedVariables false

namespace Baokeshed.Proofs
open Baokeshed.Model

/-- the record of the calls `S` -/
def record (S : List Spec.Input) : Spec.Record := S.map fun a => (a, Spec.compress a)

attribute [local irreducible] Spec.compress Spec.cvBytes Spec.outBytes Spec.pad Spec.Record.find Spec.Record.subtree

/-- no two calls collide -/
def NoColl (S : List Spec.Input) : Prop := ∀ a ∈ S, ∀ b ∈ S, Spec.compress a = Spec.compress b → a = b

theorem find_record {S : List Spec.Input} (hS : NoColl S) {a : Spec.Input} (ha : a ∈ S) {bytes : Bytes}
    (hb : bytes = (Spec.cvBytes (Spec.compress a)).toList) : (record S).find bytes = some a := by
  subst hb
  unfold Spec.Record.find
  have hex : ∃ p, (record S).find? (fun p => decide ((Spec.cvBytes p.2).toList = (Spec.cvBytes (Spec.compress a)).toList)) = some p := by
    rw [← Option.isSome_iff_exists, List.find?_isSome]
    exact ⟨(a, Spec.compress a), List.mem_map.2 ⟨a, ha, rfl⟩, by simp⟩
  obtain ⟨p, hp⟩ := hex
  rw [hp]
  have h1 := List.find?_some hp
  have h2 := List.mem_of_find?_eq_some hp
  obtain ⟨b, hb, rfl⟩ := List.mem_map.1 h2
  have h3 := cvBytes_inj (Vector.toList_inj.1 (of_decide_eq_true h1))
  exact congrArg some (hS b hb a ha h3)

theorem take_pad (c : Bytes) (h : c.length ≤ 64) : (Spec.pad c).toList.take c.length = c := by
  apply List.ext_getElem
  · simp; omega
  · intro i h1 h2
    simp [Spec.pad, List.getD_eq_getElem?_getD, List.getElem?_eq_getElem h2]

theorem blockBytes_pad (cv : Vector Word 8) (c : Bytes) (n : Byte) (o : U64) (f : Byte) (h : c.length ≤ 64)
    (hn : n.toNat = c.length) : Spec.blockBytes ⟨cv, Spec.pad c, n, o, f⟩ = c := by
  unfold Spec.blockBytes
  dsimp only
  rw [hn, take_pad c h]

theorem start_bit {f : Byte} (hf : ModeFlag f) (s : Bool) (x : Byte) (hx : x = 0 ∨ x = Spec.chunkEnd) :
    (f ||| startFlag s ||| x) &&& Spec.chunkStart ≠ 0 ↔ s = true := by
  rcases hf with rfl | rfl | rfl <;> rcases hx with rfl | rfl <;> cases s <;> decide

/-- What is known about the chaining value that the next block of a chunk starts from: it is the key, or it leads back to the
key and the bytes before. -/
def Known (r : Spec.Record) (cv : Vector Word 8) (s : Bool) (key : Vector Word 8) (before : Bytes) (k : Nat) : Prop :=
  (s = true ∧ key = cv ∧ before = []) ∨
  (s = false ∧ ∃ b, r.find (Spec.cvBytes cv).toList = some b ∧ ∀ n, k ≤ n → r.chunk n b = some (key, before))

theorem chunk_step {r : Spec.Record} {cv key : Vector Word 8} {s : Bool} {before : Bytes} {k n : Nat} (hk : Known r cv s key before k)
    (hn : k + 1 ≤ n) {f : Byte} (hf : ModeFlag f) {x : Byte} (hx : x = 0 ∨ x = Spec.chunkEnd) (c : Bytes) (hc : c.length ≤ 64)
    (len : Byte) (hl : len.toNat = c.length) (off : U64) :
    r.chunk n ⟨cv, Spec.pad c, len, off, f ||| startFlag s ||| x⟩ = some (key, before ++ c) := by
  obtain ⟨n, rfl⟩ : ∃ n', n = n' + 1 := ⟨n - 1, by omega⟩
  rw [Spec.Record.chunk]
  rcases hk with ⟨rfl, rfl, rfl⟩ | ⟨rfl, b, hb, hc'⟩
  · rw [if_pos ((start_bit hf true x hx).2 rfl), blockBytes_pad _ _ _ _ _ hc hl]
    rfl
  · rw [if_neg (fun h => by cases (start_bit hf false x hx).1 h)]
    dsimp only
    rw [hb]
    dsimp only [Option.bind_eq_bind, Option.bind_some]
    rw [hc' n (by omega)]
    dsimp only [Option.bind_eq_bind, Option.bind_some]
    rw [blockBytes_pad _ _ _ _ _ hc hl]
    rfl

theorem chunk_record {S : List Spec.Input} (hS : NoColl S) {f : Byte} (hf : ModeFlag f) (off : Nat) (c : Bytes) :
    ∀ (cv key : Vector Word 8) (s : Bool) (before : Bytes) (k n : Nat), Known (record S) cv s key before k →
    (∀ a ∈ Spec.chunkBefore f off cv (f ||| startFlag s) c, a ∈ S) → k + nBlocks c ≤ n →
    (record S).chunk n (Spec.chunkFrom f off cv (f ||| startFlag s) c) = some (key, before ++ c) := by
  induction hn : c.length using Nat.strongRecOn generalizing c with
  | ind _ ih =>
  intro cv key s before k n hk hm hle
  rw [Spec.chunkFrom]
  rw [Spec.chunkBefore] at hm
  by_cases h : c.length ≤ 64
  · rw [dif_pos h]
    exact chunk_step hk (by unfold nBlocks at hle; omega) hf (Or.inr rfl) c h _ (by rw [BitVec.toNat_ofNat]; omega) _
  · rw [dif_neg h]
    rw [dif_neg h] at hm
    dsimp only at hm
    have hd : nBlocks (c.drop 64) + 1 = nBlocks c := by unfold nBlocks; simp only [List.length_drop]; omega
    have hin := hm _ List.mem_cons_self
    have hrest := fun a ha => hm a (List.mem_cons_of_mem _ ha)
    have e0 : f ||| startFlag false = f := BitVec.or_zero
    have hstep := fun n (hn : k + 1 ≤ n) => chunk_step (n := n) hk hn hf (Or.inl rfl) (c.take 64) (by simp; omega) 64
      (by rw [List.length_take, Nat.min_eq_left (by omega)]; rfl) (BitVec.ofNat 64 off)
    rw [show f ||| startFlag s ||| 0 = f ||| startFlag s from BitVec.or_zero] at hstep
    generalize hb : (⟨cv, Spec.pad (c.take 64), 64, BitVec.ofNat 64 off, f ||| startFlag s⟩ : Spec.Input) = b at *
    have := ih (c.drop 64).length (by simp; omega) (c.drop 64) rfl (Spec.compress b) key false (before ++ c.take 64) (k + 1) n
      (Or.inr ⟨rfl, b, find_record hS hin rfl, hstep⟩) (by rw [e0]; exact hrest) (by omega)
    rw [e0, List.append_assoc, List.take_append_drop] at this
    exact this

/-- the search looks at nothing but chaining value, block, block length and two flags -/
theorem chunk_congr (r : Spec.Record) (n : Nat) (a b : Spec.Input) (h1 : a.cv = b.cv) (h2 : a.block = b.block)
    (h3 : a.blockLen = b.blockLen) (h4 : a.flags &&& Spec.chunkStart = b.flags &&& Spec.chunkStart) : r.chunk n a = r.chunk n b := by
  cases n with
  | zero => rfl
  | succ n => rw [Spec.Record.chunk, Spec.Record.chunk, h1, h4, Spec.blockBytes, Spec.blockBytes, h2, h3]

theorem subtree_congr (r : Spec.Record) (n : Nat) (a b : Spec.Input) (h1 : a.cv = b.cv) (h2 : a.block = b.block)
    (h3 : a.blockLen = b.blockLen) (h4 : a.flags &&& Spec.chunkStart = b.flags &&& Spec.chunkStart)
    (h5 : a.flags &&& Spec.parentFlag = b.flags &&& Spec.parentFlag) : r.subtree n a = r.subtree n b := by
  cases n with
  | zero => rw [Spec.Record.subtree, Spec.Record.subtree, h5, chunk_congr r 32 a b h1 h2 h3 h4]
  | succ n => rw [Spec.Record.subtree, Spec.Record.subtree, h5, h1, h2, chunk_congr r 32 a b h1 h2 h3 h4]

theorem parent_bit {f : Byte} (hf : ModeFlag f) : (f ||| Spec.parentFlag) &&& Spec.parentFlag ≠ 0 := by
  rcases hf with rfl | rfl | rfl <;> decide

theorem no_parent_bit {f : Byte} (hf : ModeFlag f) (s : Bool) : ¬ (f ||| startFlag s ||| Spec.chunkEnd) &&& Spec.parentFlag ≠ 0 := by
  rcases hf with rfl | rfl | rfl <;> cases s <;> decide

theorem leftLen_le {n d : Nat} (h : 2048 < n) (hd : n ≤ 2048 * 2 ^ (d + 1)) :
    Spec.leftLen n ≤ 2048 * 2 ^ d ∧ n - Spec.leftLen n ≤ 2048 * 2 ^ d := by
  have h0 : (n - 1) / 2048 ≠ 0 := by omega
  have h1 : (n - 1) / 2048 < 2 ^ (d + 1) := by rw [Nat.div_lt_iff_lt_mul (by decide)]; omega
  have h2 : Nat.log2 ((n - 1) / 2048) ≤ d := by
    have := (Nat.log2_lt h0).2 h1
    omega
  have h3 : 2 ^ Nat.log2 ((n - 1) / 2048) ≤ 2 ^ d := Nat.pow_le_pow_right (by decide) h2
  have h4 : Spec.leftLen n = 2048 * 2 ^ Nat.log2 ((n - 1) / 2048) := rfl
  have h5 := Nat.lt_log2_self (n := (n - 1) / 2048)
  rw [Nat.pow_succ] at h5
  omega

theorem parent_record {S : List Spec.Input} (hS : NoColl S) {f : Byte} (hf : ModeFlag f) (key kl kr : Vector Word 8) (d : Nat)
    (a b : Spec.Input) (x y : Bytes) (mL : a ∈ S) (mR : b ∈ S) (hL : (record S).subtree d a = some (kl, x))
    (hR : (record S).subtree d b = some (kr, y)) :
    (record S).subtree (d + 1) (Spec.parent key f (Spec.compress a) (Spec.compress b)) = some (key, x ++ y) := by
  rw [Spec.Record.subtree]
  rw [if_pos (show (Spec.parent key f (Spec.compress a) (Spec.compress b)).flags &&& Spec.parentFlag ≠ 0 from parent_bit hf)]
  have hblk : (Spec.parent key f (Spec.compress a) (Spec.compress b)).block.toList =
      (Spec.cvBytes (Spec.compress a)).toList ++ (Spec.cvBytes (Spec.compress b)).toList := Vector.toList_append
  have ht : (Spec.parent key f (Spec.compress a) (Spec.compress b)).block.toList.take 32 = (Spec.cvBytes (Spec.compress a)).toList := by
    rw [hblk, List.take_left' (by simp)]
  have hd : (Spec.parent key f (Spec.compress a) (Spec.compress b)).block.toList.drop 32 = (Spec.cvBytes (Spec.compress b)).toList := by
    rw [hblk, List.drop_left' (by simp)]
  rw [find_record hS mL ht, find_record hS mR hd]
  dsimp only [Option.bind_eq_bind, Option.bind_some]
  rw [hL, hR]
  rfl

theorem subtree_record {S : List Spec.Input} (hS : NoColl S) {f : Byte} (hf : ModeFlag f) (key : Vector Word 8) (d : Nat) :
    ∀ (off : Nat) (input : Bytes), (∀ a ∈ Spec.below key f off input, a ∈ S) → input.length ≤ 2048 * 2 ^ d →
    (record S).subtree d (Spec.subtree key f off input) = some (key, input) := by
  have hleaf : ∀ (off : Nat) (input : Bytes), (∀ a ∈ Spec.below key f off input, a ∈ S) → input.length ≤ 2048 →
      (record S).chunk 32 (Spec.subtree key f off input) = some (key, input) ∧
      ¬ (Spec.subtree key f off input).flags &&& Spec.parentFlag ≠ 0 := by
    intro off input hm h
    rw [Spec.below, dif_pos h] at hm
    rw [Spec.subtree, dif_pos h, Spec.chunk]
    constructor
    · exact chunk_record hS hf off input key key true [] 0 32 (Or.inl ⟨rfl, rfl, rfl⟩) hm (by unfold nBlocks; omega)
    · obtain ⟨s, hs⟩ := chunkFrom_flags f off input key true
      rw [show f ||| Spec.chunkStart = f ||| startFlag true from rfl, hs]
      exact no_parent_bit hf s
  induction d with
  | zero =>
    intro off input hm hl
    obtain ⟨h1, h2⟩ := hleaf off input hm (by omega)
    rw [Spec.Record.subtree, if_neg h2, h1]
  | succ d ih =>
    intro off input hm hl
    by_cases h : input.length ≤ 2048
    · obtain ⟨h1, h2⟩ := hleaf off input hm h
      rw [Spec.Record.subtree, if_neg h2, h1]
    · obtain ⟨hl1, hl2⟩ := leftLen_le (by omega) hl
      rw [Spec.below, dif_neg h] at hm
      rw [Spec.subtree, dif_neg h]
      dsimp only at hm ⊢
      generalize Spec.leftLen input.length = l at *
      have hL := ih off (input.take l) (fun a ha => hm a (by simp [ha])) (by simp; omega)
      have hR := ih (off + l) (input.drop l) (fun a ha => hm a (by simp [ha])) (by simp; omega)
      have := parent_record hS hf key key key d _ _ _ _ (hm _ (by simp)) (hm _ (by simp)) hL hR
      rw [List.take_append_drop] at this
      exact this

theorem root_bits {f x : Byte} (hf : ModeFlag f)
    (hx : (∃ s, x = f ||| startFlag s ||| Spec.chunkEnd) ∨ x = f ||| Spec.parentFlag) :
    ¬ (x ||| Spec.rootFlag) &&& Spec.rootFlag = 0 ∧ (x ||| Spec.rootFlag) &&& Spec.chunkStart = x &&& Spec.chunkStart ∧
    (x ||| Spec.rootFlag) &&& Spec.parentFlag = x &&& Spec.parentFlag ∧
    (x ||| Spec.rootFlag) &&& Spec.keyedHashFlag = f &&& Spec.keyedHashFlag ∧
    (x ||| Spec.rootFlag) &&& Spec.deriveKeyFlag = f &&& Spec.deriveKeyFlag := by
  rcases hx with ⟨s, rfl⟩ | rfl <;> (try cases s) <;> rcases hf with rfl | rfl | rfl <;> decide

theorem cvBytes_key (k : Vector Byte 32) : Spec.cvBytes (Spec.Mode.keyedHash k).key = k := by
  rw [← bytes_from_state_words_eq, show (Spec.Mode.keyedHash k).key = words_from_key_bytes k from (key_words_eq k).symm,
    Props.C34_key_roundtrip]

theorem modeOf_root (m : Spec.Mode) (fl : Byte) (h1 : fl &&& Spec.keyedHashFlag = m.flag &&& Spec.keyedHashFlag)
    (h2 : fl &&& Spec.deriveKeyFlag = m.flag &&& Spec.deriveKeyFlag) : Spec.modeOf fl m.key = m := by
  unfold Spec.modeOf
  rw [h1, h2]
  cases m with
  | hash => rfl
  | keyedHash k =>
    rw [if_pos (show (Spec.Mode.keyedHash k).flag &&& Spec.keyedHashFlag ≠ 0 by dsimp only [Spec.Mode.flag]; decide), cvBytes_key]
  | deriveKey k =>
    rw [if_neg (show ¬ (Spec.Mode.deriveKey k).flag &&& Spec.keyedHashFlag ≠ 0 by dsimp only [Spec.Mode.flag]; decide),
      if_pos (show (Spec.Mode.deriveKey k).flag &&& Spec.deriveKeyFlag ≠ 0 by dsimp only [Spec.Mode.flag]; decide)]
    exact congrArg Spec.Mode.deriveKey (cvBytes_key k)

/-- the message behind a root compression, at whatever output offset -/
theorem message_record {S : List Spec.Input} (hS : NoColl S) (m : Spec.Mode) (input : Bytes) (hl : input.length < 2 ^ 64)
    (hin : ∀ a ∈ Spec.inner m input, a ∈ S) (a : Spec.Input) (ha : a ∈ S) (hr : a = { Spec.root m input with offset := a.offset })
    (out : Bytes) (ho : out = (Spec.cvBytes (Spec.compress a)).toList) :
    (record S).message out = some (m, input) := by
  unfold Spec.Record.message
  rw [find_record hS ha ho]
  dsimp only [Option.bind_eq_bind, Option.bind_some]
  have hfl : a.flags = (Spec.subtree m.key m.flag 0 input).flags ||| Spec.rootFlag := by rw [hr]; rfl
  obtain ⟨b1, b2, b3, b4, b5⟩ := root_bits (modeFlag m) (subtree_flags m.key m.flag 0 input)
  rw [← hfl] at b1 b2 b3 b4 b5
  rw [if_neg b1, subtree_congr (record S) 53 a (Spec.subtree m.key m.flag 0 input) (by rw [hr]; rfl) (by rw [hr]; rfl)
    (by rw [hr]; rfl) b2 b3, subtree_record hS (modeFlag m) m.key 53 0 input hin (by omega)]
  dsimp only [Option.bind_eq_bind, Option.bind_some]
  rw [modeOf_root m a.flags b4 b5]
  rfl

/-- a call without `ROOT` is no hash -/
theorem message_none {S : List Spec.Input} (hS : NoColl S) (a : Spec.Input) (ha : a ∈ S) (hr : a.flags &&& Spec.rootFlag = 0)
    (out : Bytes) (ho : out = (Spec.cvBytes (Spec.compress a)).toList) : (record S).message out = none := by
  unfold Spec.Record.message
  rw [find_record hS ha ho]
  dsimp only [Option.bind_eq_bind, Option.bind_some]
  rw [if_pos hr]

end Baokeshed.Proofs
