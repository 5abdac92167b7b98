import Verif.Model.StepsHash
import Verif.Props.StepsLib
import Verif.Props.OneShot
import Verif.Props.Hasher
import Verif.Props.Hash

/-!
# C94: what comparing and printing a hash executes

The documentation of `Hash` says that comparison takes constant time.  Model/StepsHash.lean records the steps of the comparison and of
`to_hex`.
-/

set_option linter.unusedVariables false

namespace Baokeshed.Props
open Baokeshed.Model Baokeshed.Proofs Baokeshed.Proofs.Obl

/-- the steps of a comparison of 32 bytes with 32 bytes -/
def compareSteps : List Steps.Step :=
  [⟨"a.len() == b.len()", [1]⟩] ++
  (List.range 32).flatMap (fun i => [⟨"a", [i]⟩, ⟨"b", [i]⟩, ⟨"^", []⟩, ⟨"|=", []⟩]) ++
  [⟨"== 0", []⟩]

/-- the steps of printing: the table is read at the two halves of each byte -/
def hexSteps (n : Nat) (b : Bytes) : List Steps.Step :=
  (b.zipIdx n).flatMap fun p => [⟨">> 4", []⟩, ⟨"table", [p.1.toNat / 16]⟩, ⟨"push", [2 * p.2]⟩,
    ⟨"& 0xf", []⟩, ⟨"table", [p.1.toNat % 16]⟩, ⟨"push", [2 * p.2 + 1]⟩]

/-! ## without the record -/

theorem ne_loop_res (a b : Bytes) (hab : a.length = b.length) (n i : Nat) (hn : i + n = a.length) (tmp : Byte) :
    (Steps.ne_loop a b n i tmp).res =
      .ok (((a.drop i).zip (b.drop i)).foldl (fun acc (xy : Byte × Byte) => acc ||| (xy.1 ^^^ xy.2)) tmp) := by
  induction n generalizing i tmp with
  | zero =>
    rw [List.drop_eq_nil_of_le (by omega)]
    rfl
  | succ n ih =>
    have hi : i < a.length := by omega
    have hi' : i < b.length := by omega
    rw [Steps.ne_loop, Steps.bind_res, Steps.byteAt, Steps.tryOp_res, dif_pos hi, Steps.ok_bind, Steps.bind_res, Steps.byteAt,
      Steps.tryOp_res, dif_pos hi', Steps.ok_bind, Steps.bind_res, Steps.lift_res, Steps.ok_bind, Steps.bind_res, Steps.lift_res,
      Steps.ok_bind, ih (i + 1) (by omega), List.drop_eq_getElem_cons hi, List.drop_eq_getElem_cons hi', List.zip_cons_cons,
      List.foldl_cons]
    rfl

theorem eq_res (h o : Vector Byte 32) : (Steps.Hash.eq h o).res = .ok (Hash.eq h o) := by
  have e : h.toList.length = o.toList.length := by rw [Vector.length_toList, Vector.length_toList]
  rw [Steps.Hash.eq, Steps.constant_time_eq, Steps.bind_res, Steps.test_res, Steps.ok_bind, if_pos e, Steps.bind_res,
    ne_loop_res _ _ e _ 0 (Nat.zero_add _), Steps.ok_bind, Steps.lift_res, Hash.eq, constant_time_eq, if_neg (fun h => h e)]
  rfl

theorem to_hex_loop_res (s : List Char) (b : Bytes) : (Steps.to_hex_loop s b).res = to_hex_loop s b := by
  induction b generalizing s with
  | nil => rfl
  | cons b bs ih =>
    simp only [Steps.to_hex_loop, to_hex_loop, Steps.bind_res, Steps.lift_res, Steps.ok_bind, Steps.tryOp_res, Steps.op_val, ih]

theorem updates_res (cfg : Config) (xs : List Bytes) (h : Hasher) : (Steps.checkedParts.updates cfg xs h).res = h.updates cfg xs := by
  induction xs generalizing h with
  | nil => rfl
  | cons x xs ih =>
    rw [Steps.checkedParts.updates, Steps.bind_res, Steps.update_res]
    simp only [ih]
    rfl

/-- C94.  The recording versions return what the functions return. -/
theorem C94_same_results (h o : Vector Byte 32) :
    (Steps.Hash.eq h o).res = .ok (Hash.eq h o) ∧ (Steps.to_hex h).res = to_hex h :=
  ⟨eq_res h o, to_hex_loop_res [] _⟩

/-! ## comparison -/

theorem ne_loop_log (a b : Bytes) (hab : a.length = b.length) (n i : Nat) (hn : i + n = a.length) (tmp : Byte) :
    (Steps.ne_loop a b n i tmp).log =
      (List.range' i n).flatMap (fun i => [⟨"a", [i]⟩, ⟨"b", [i]⟩, ⟨"^", []⟩, ⟨"|=", []⟩]) := by
  induction n generalizing i tmp with
  | zero => rfl
  | succ n ih =>
    have hi : i < a.length := by omega
    have hi' : i < b.length := by omega
    have ha : Steps.byteAt "a" a i = ⟨.ok a[i], [⟨"a", [i]⟩]⟩ := by rw [Steps.byteAt, dif_pos hi]; rfl
    have hb : Steps.byteAt "b" b i = ⟨.ok b[i], [⟨"b", [i]⟩]⟩ := by rw [Steps.byteAt, dif_pos hi']; rfl
    rw [Steps.ne_loop, ha, hb, List.range'_succ, List.flatMap_cons, ← ih (i + 1) (by omega) (tmp ||| (a[i] ^^^ b[i]))]
    rfl

/-- C94.  Comparison executes the same list of steps for all pairs of hashes: it reads all bytes, in order, and there is no condition
but that on the lengths. -/
theorem C94_compare (h o : Vector Byte 32) : (Steps.Hash.eq h o).log = compareSteps := by
  have e : h.toList.length = o.toList.length := by rw [Vector.length_toList, Vector.length_toList]
  have hl := ne_loop_log h.toList o.toList e _ 0 (Nat.zero_add _) 0
  have hr := ne_loop_res h.toList o.toList e _ 0 (Nat.zero_add _) 0
  rw [Steps.Hash.eq, Steps.constant_time_eq, if_pos e]
  generalize Steps.ne_loop h.toList o.toList h.toList.length 0 0 = x at hl hr
  obtain ⟨r, l⟩ := x
  dsimp only at hl hr
  subst hl hr
  rw [Vector.length_toList, Vector.length_toList, compareSteps, List.range_eq_range']
  rfl

theorem same_eq (h o h' o' : Vector Byte 32) : Steps.Same (fun _ _ => True) (Steps.Hash.eq h o) (Steps.Hash.eq h' o') := by
  refine ⟨(C94_compare h o).trans (C94_compare h' o').symm, ?_⟩
  rw [eq_res, eq_res]
  trivial

/-- C94.  To hash a message with a key and compare the result with 32 bytes executes the same steps whatever the key, the content of the
message and the 32 bytes are, also if they agree in part or entirely. -/
theorem C94_check (cfg : Config) (m m' : Spec.Mode) (hm : SameKind m m') (x y : Bytes) (h : x.length = y.length) (g g' : Vector Byte 32) :
    watched (Steps.checked cfg m x g) = watched (Steps.checked cfg m' y g') :=
  watched_eq (Steps.Same.bind (Steps.rec_oneShotXof cfg m m' hm.flag h) fun _ _ ho =>
    Steps.Same.bind (Steps.rec_to_hash ho) fun _ _ _ => same_eq _ _ _ _)

/-- pieces of equal lengths -/
inductive SameParts : List Bytes → List Bytes → Prop where
  | nil : SameParts [] []
  | cons {x y : Bytes} {xs ys : List Bytes} : x.length = y.length → SameParts xs ys → SameParts (x :: xs) (y :: ys)

theorem rec_updates (cfg : Config) {xs ys : List Bytes} (h : SameParts xs ys) : ∀ {g g' : Hasher}, SimH g g' →
    Steps.Same SimH (Steps.checkedParts.updates cfg xs g) (Steps.checkedParts.updates cfg ys g') := by
  induction h with
  | nil => intro g g' hs; exact Steps.Same.pure hs
  | cons h1 _ ih =>
    intro g g' hs
    exact Steps.Same.bind (Steps.rec_update cfg h1 hs) fun _ _ hs => ih hs

/-- C94.  The same for a hasher that gets the message in pieces. -/
theorem C94_check_parts (cfg : Config) (m m' : Spec.Mode) (hm : SameKind m m') (xs ys : List Bytes) (h : SameParts xs ys)
    (g g' : Vector Byte 32) : watched (Steps.checkedParts cfg m xs g) = watched (Steps.checkedParts cfg m' ys g') :=
  watched_eq (Steps.Same.bind (Steps.rec_newHasher cfg m m' hm.flag) fun _ _ hs =>
    Steps.Same.bind (rec_updates cfg h hs) fun _ _ hs =>
    Steps.Same.bind (Steps.rec_finalize_xof hs) fun _ _ ho =>
    Steps.Same.bind (Steps.rec_to_hash ho) fun _ _ _ => same_eq _ _ _ _)

/-- C94.  And both checks say whether the hash is the one expected. -/
theorem C94_check_result (cfg : Config) (hv : cfg.Valid) (m : Spec.Mode) (x : Bytes) (hf : cfg.Fits x.length) (xs : List Bytes)
    (hl : xs.flatten.length < 2 ^ 64) (g : Vector Byte 32) :
    (Steps.checked cfg m x g).res = .ok (decide (Spec.hash m x = g)) ∧
    (Steps.checkedParts cfg m xs g).res = .ok (decide (Spec.hash m xs.flatten = g)) := by
  have he : ∀ d : Vector Byte 32, Hash.eq d g = decide (d = g) := by
    intro d
    rw [Bool.eq_iff_iff, C19_eq, decide_eq_true_iff]
    exact ⟨fun h => Vector.ext h, fun h i hi => by rw [h]⟩
  constructor
  · have h1 := C01_one_shot_eq_spec cfg hv m x hf
    obtain ⟨o, e, -, ho⟩ := oneShotXof_eq cfg m x hv hf
    rw [oneShot_of_xof cfg m x o e] at h1
    rw [Steps.checked, Steps.bind_res, Steps.oneShotXof_res, e, Steps.ok_bind, Steps.bind_res, Steps.to_hash_res, h1, Steps.ok_bind, eq_res, he]
  · obtain ⟨h, e, hh⟩ := C02_finalize cfg m xs hl
    rw [Hasher.finalize] at hh
    rcases ho : h.finalize_xof with er | o
    · rw [ho] at hh
      cases hh
    · rw [ho] at hh
      have hh : Except.ok (o.to_hash) = (.ok (Spec.hash m xs.flatten) : R _) := hh
      rw [Steps.checkedParts, Steps.bind_res, show (Steps.newHasher cfg m).res = .ok (newHasher cfg m) by cases m <;> rfl, Steps.ok_bind,
        Steps.bind_res, updates_res, e, Steps.ok_bind, Steps.bind_res, Steps.finalize_xof_res, ho, Steps.ok_bind, Steps.bind_res,
        Steps.to_hash_res, hh, Steps.ok_bind, eq_res, he]

/-! ## printing -/

theorem nibbles (b : Byte) : (b >>> 4).toNat = b.toNat / 16 ∧ (b &&& 0xf).toNat = b.toNat % 16 := by
  constructor
  · rw [BitVec.toNat_ushiftRight, Nat.shiftRight_eq_div_pow]
  · rw [BitVec.toNat_and]
    exact Nat.and_two_pow_sub_one_eq_mod b.toNat 4

theorem to_hex_loop_log (s : List Char) (n : Nat) (hs : s.length = 2 * n) (b : Bytes) (hb : n + b.length ≤ 32) :
    (Steps.to_hex_loop s b).log = hexSteps n b := by
  induction b generalizing s n with
  | nil => rfl
  | cons b bs ih =>
    obtain ⟨e1, e2⟩ := nibbles b
    rw [List.length_cons] at hb
    have hb' := b.isLt
    have ht : ∀ i, i < 16 → ∃ c, tableAt i = .ok c := fun i hi => ⟨_, dif_pos (show i < hexTable.length from hi)⟩
    obtain ⟨c1, h1⟩ := ht (b.toNat / 16) (by omega)
    obtain ⟨c2, h2⟩ := ht (b.toNat % 16) (by omega)
    have p1 : pushChar (2 * 32) s c1 = .ok (s ++ [c1]) := if_pos (by omega)
    have p2 : pushChar (2 * 32) (s ++ [c1]) c2 = .ok (s ++ [c1] ++ [c2]) := if_pos (by rw [List.length_append, List.length_singleton]; omega)
    have hr := ih (s ++ [c1] ++ [c2]) (n + 1) (by simp only [List.length_append, List.length_singleton]; omega) (by omega)
    have hx : hexSteps n (b :: bs) = [⟨">> 4", []⟩, ⟨"table", [b.toNat / 16]⟩, ⟨"push", [2 * n]⟩,
      ⟨"& 0xf", []⟩, ⟨"table", [b.toNat % 16]⟩, ⟨"push", [2 * n + 1]⟩] ++ hexSteps (n + 1) bs := rfl
    have hl : (s ++ [c1]).length = 2 * n + 1 := by rw [List.length_append, List.length_singleton, hs]
    rw [hx, ← hr, Steps.to_hex_loop, e1, e2]
    show _ ++ (Steps.Try.log (Steps.tryOp "table" [b.toNat / 16] (tableAt (b.toNat / 16)) >>= _)) = _
    rw [h1]
    show _ ++ (_ ++ (Steps.Try.log (Steps.tryOp "push" [s.length] (pushChar (2 * 32) s c1) >>= _))) = _
    rw [p1, hs]
    show _ ++ (_ ++ (_ ++ (_ ++ (Steps.Try.log (Steps.tryOp "table" [b.toNat % 16] (tableAt (b.toNat % 16)) >>= _))))) = _
    rw [h2]
    show _ ++ (_ ++ (_ ++ (_ ++ (_ ++ (Steps.Try.log (Steps.tryOp "push" [(s ++ [c1]).length] (pushChar (2 * 32) (s ++ [c1]) c2) >>= _)))))) = _
    rw [p2, hl]
    rfl

theorem hexSteps_inj (n : Nat) (b b' : Bytes) (h : hexSteps n b = hexSteps n b') : b = b' := by
  have hx : ∀ n (b : Byte) bs, hexSteps n (b :: bs) = [⟨">> 4", []⟩, ⟨"table", [b.toNat / 16]⟩, ⟨"push", [2 * n]⟩,
      ⟨"& 0xf", []⟩, ⟨"table", [b.toNat % 16]⟩, ⟨"push", [2 * n + 1]⟩] ++ hexSteps (n + 1) bs := fun _ _ _ => rfl
  induction b generalizing n b' with
  | nil =>
    cases b' with
    | nil => rfl
    | cons b bs => rw [hx] at h; cases h
  | cons b bs ih =>
    cases b' with
    | nil => rw [hx] at h; cases h
    | cons b' bs' =>
      rw [hx, hx] at h
      simp only [List.cons_append, List.nil_append, List.cons.injEq, Steps.Step.mk.injEq, and_true, true_and] at h
      obtain ⟨h1, h2, h3⟩ := h
      rw [ih (n + 1) bs' h3, show b = b' from BitVec.eq_of_toNat_eq (by omega)]

/-- C94.  `to_hex` is different: it reads its table at the hexadecimal digits of the hash, and so the positions of the reads are the
hash.  Two hashes have the same steps only if they are equal. -/
theorem C94_to_hex (h h' : Vector Byte 32) :
    (Steps.to_hex h).log = hexSteps 0 h.toList ∧ ((Steps.to_hex h).log = (Steps.to_hex h').log ↔ h = h') := by
  have e : ∀ h : Vector Byte 32, (Steps.to_hex h).log = hexSteps 0 h.toList := fun h =>
    to_hex_loop_log [] 0 rfl _ (by rw [Vector.length_toList, Nat.zero_add]; exact Nat.le_refl 32)
  refine ⟨e h, fun hh => ?_, fun hh => by rw [hh]⟩
  rw [e, e] at hh
  exact Vector.toList_inj.1 (hexSteps_inj 0 _ _ hh)

/-! ## examples -/

/-- 130 steps for any comparison -/
example : compareSteps.length = 130 := by decide +kernel

/-- the steps of printing a hash whose first byte is 0xab -/
example : (Steps.to_hex ((Vector.replicate 32 0).set 0 0xab)).log.take 6 =
    [⟨">> 4", []⟩, ⟨"table", [10]⟩, ⟨"push", [0]⟩, ⟨"& 0xf", []⟩, ⟨"table", [11]⟩, ⟨"push", [1]⟩] := by decide +kernel

/-- the hypotheses of `C94_check`: different keys and messages, and a correct and a wrong hash -/
example (cfg : Config) (k k' g g' : Vector Byte 32) :
    watched (Steps.checked cfg (.keyedHash k) [1, 2, 3] g) = watched (Steps.checked cfg (.keyedHash k') [7, 7, 7] g') :=
  C94_check cfg _ _ (.keyedHash k k') [1, 2, 3] [7, 7, 7] (by decide) g g'

example (cfg : Config) (k k' g g' : Vector Byte 32) :
    watched (Steps.checkedParts cfg (.deriveKey k) [[1, 2], [3]] g) = watched (Steps.checkedParts cfg (.deriveKey k') [[0, 0], [0]] g') :=
  C94_check_parts cfg _ _ (.deriveKey k k') [[1, 2], [3]] [[0, 0], [0]] (.cons (by decide) (.cons (by decide) .nil)) g g'

end Baokeshed.Props
