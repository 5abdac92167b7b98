import Verif.Proofs.RelHasher
import Verif.Proofs.RelRef
import Verif.Proofs.C.Basic
import Verif.Proofs.C64.Basic
import Verif.Props.OneShot
import Verif.Props.Hasher
import Verif.Props.Reference

/-!
# C71: builds without overflow checks and without `debug_assert!`

`Rel.f` is the function `f` of the code as built with Cargo's release profile (Model/Release.lean): arithmetic wraps around
and the assertions are not there.
-/

set_option linter.unusedVariables false

namespace Baokeshed.Props
open Baokeshed.Model Baokeshed.Proofs

attribute [local irreducible] Spec.compress Spec.outBytes Spec.cvBytes Spec.pad

/-! ## The two builds agree where the checked one returns -/

theorem le_oneShotXof (cfg : Config) (m : Spec.Mode) (input : Bytes) : Le (oneShotXof cfg m input) (Rel.oneShotXof cfg m input) := by
  cases m <;> exact le_hash_internal ..

theorem le_oneShot (cfg : Config) (m : Spec.Mode) (input : Bytes) : Le (oneShot cfg m input) (Rel.oneShot cfg m input) := by
  have h := le_oneShotXof cfg m input
  cases m <;> exact Le.bind h fun _ _ => Le.refl _

theorem le_updates (cfg : Config) (ss : List Bytes) : ∀ h : Hasher, Le (h.updates cfg ss) (Rel.Hasher.updates cfg h ss) := by
  induction ss with
  | nil => exact fun _ => Le.refl _
  | cons s ss ih => exact fun h => Le.bind (le_update cfg h s) fun _ _ => ih _

theorem le_refUpdates (w : Nat) (ss : List Bytes) : ∀ h : Ref.Hasher, Le (refUpdates h ss) (Rel.Ref.Hasher.updates w h ss) := by
  induction ss with
  | nil => exact fun _ => Le.refl _
  | cons s ss ih => exact fun h => Le.bind (le_ref_update_loop w s.length h s) fun _ _ => ih _

/-- Construct, update, finalize, without checks. -/
def RelRefProgram (w : Nat) (m : Spec.Mode) (ss : List Bytes) (out : Bytes) : R Bytes := do
  let h ← Rel.Ref.Hasher.updates w (refNew m) ss
  return Rel.Ref.Hasher.finalize h out

theorem le_refProgram (w : Nat) (m : Spec.Mode) (ss : List Bytes) (out : Bytes) :
    Le (RefProgram m ss out) (RelRefProgram w m ss out) :=
  Le.bind (le_refUpdates w ss _) fun _ _ => le_ref_finalize ..

/-- C71.  Whatever a build with checks returns, the release build returns too. -/
theorem C71_refines (cfg : Config) :
    (∀ p cap xs key off d flags fs fe out r, Platform.hash_many p cap xs key off d flags fs fe out = .ok r →
      Rel.hash_many p cap xs key off d flags fs fe out = .ok r) ∧
    (∀ xs key off d flags fs fe out r, Portable64.hash_many xs key off d flags fs fe out = .ok r →
      Rel.Portable64.hash_many xs key off d flags fs fe out = .ok r) ∧
    (∀ m input o, oneShotXof cfg m input = .ok o → Rel.oneShotXof cfg m input = .ok o) ∧
    (∀ m input d, oneShot cfg m input = .ok d → Rel.oneShot cfg m input = .ok d) ∧
    (∀ (h : Hasher) input h', h.update cfg input = .ok h' → Rel.Hasher.update cfg h input = .ok h') ∧
    (∀ (h : Hasher) o, h.finalize_xof = .ok o → Rel.Hasher.finalize_xof h = .ok o) ∧
    (∀ (h : Hasher) d, h.finalize = .ok d → Rel.Hasher.finalize h = .ok d) ∧
    (∀ w m ss out r, RefProgram m ss out = .ok r → RelRefProgram w m ss out = .ok r) ∧
    (∀ (W : Type) (write_all : W → Bytes → R (Except IoError Unit × W)) reader w r,
      copy_wide cfg write_all reader w = .ok r → Rel.copy_wide cfg write_all reader w = .ok r) :=
  ⟨fun p cap xs key off d flags fs fe out => (le_hash_many p cap xs key off d flags fs fe out).imp,
   fun xs key off d flags fs fe out => (le_portable64_hash_many xs key off d flags fs fe out).imp,
   fun m input => (le_oneShotXof cfg m input).imp, fun m input => (le_oneShot cfg m input).imp,
   fun h input => (le_update cfg h input).imp, fun h => (le_finalize_xof h).imp, fun h => (le_finalize h).imp,
   fun w m ss out => (le_refProgram w m ss out).imp,
   fun W wa reader w => (le_copy_loop (fun w b => Le.refl (wa w b)) _ _ w reader).imp⟩

/-! ## One-shot functions -/

/-- C71.  The one-shot functions of the release build return the specified hash for every input that can exist in memory. -/
theorem C71_one_shot (cfg : Config) (hv : cfg.Valid) (m : Spec.Mode) (input : Bytes) (hf : cfg.Fits input.length) :
    Rel.oneShot cfg m input = .ok (Spec.hash m input) ∧
    ∃ o, Rel.oneShotXof cfg m input = .ok o ∧
      ∀ prof, ∀ n ≤ 2 ^ 58 - 1, ∃ o', o.readMany prof n = .ok (Spec.output m input (64 * n), o') := by
  refine ⟨(le_oneShot cfg m input).imp _ (C01_one_shot_eq_spec cfg hv m input hf), ?_⟩
  obtain ⟨o, e, -, ho⟩ := oneShotXof_eq cfg m input hv hf
  refine ⟨o, (le_oneShotXof cfg m input).imp _ e, fun prof n hn => ?_⟩
  obtain ⟨o', h, -⟩ := (OutAt.zero ho).readMany prof n (Or.inr (by omega))
  exact ⟨o', by rw [h, output_eq_slice]⟩

example : exAvx2.Valid ∧ exAvx2.Fits (rep 18433 7).length := by simp
example : exSmall.Valid ∧ exSmall.Fits (rep 5000 7).length := by simp

-- the release build is another program: where the build with checks stops, it goes on
example : left_len 64 2048 = .error .assert ∧ Rel.left_len 64 2048 = 2048 := by decide

/-! ## The hasher -/

theorem newHasher_okR (cfg : Config) (m : Spec.Mode) : HasherOkR m.key m.flag (Platform.detect cfg) [] (newHasher cfg m) :=
  HasherOkR.of _ _ (HasherAt.new cfg m).1 (by simp)

theorem rel_finalize {cfg : Config} {m : Spec.Mode} {bytes : Bytes} {h : Hasher}
    (hr : HasherOkR m.key m.flag (Platform.detect cfg) bytes h) :
    Rel.Hasher.finalize h = .ok (Spec.hash m bytes) ∧
    ∃ o, Rel.Hasher.finalize_xof h = .ok o ∧
      ∀ prof, ∀ n ≤ 2 ^ 58 - 1, ∃ o', o.readMany prof n = .ok (Spec.output m bytes (64 * n), o') := by
  obtain ⟨o, e, -, ho⟩ := rel_finalize_xof hr
  have ho : toInput o = Spec.root m bytes := ho
  constructor
  · rw [Rel.Hasher.finalize, e, bind_ok, pure_eq]
    refine congrArg Except.ok (Vector.toList_inj.1 ?_)
    rw [hash_toList, (OutAt.zero ho).to_hash]
  · refine ⟨o, e, fun prof n hn => ?_⟩
    obtain ⟨o', h, -⟩ := (OutAt.zero ho).readMany prof n (Or.inr (by omega))
    exact ⟨o', by rw [h, output_eq_slice]⟩

/-- C71.  Without overflow checks, updates of any lengths: either the hash is the specified one, or the stack of subtrees is
full and the hasher panics.  The first happens whenever there are fewer than 2^64 bytes, the second whenever there are more. -/
theorem C71_hasher (cfg : Config) (m : Spec.Mode) (ss : List Bytes) :
    (ss.flatten.length ≤ 2 ^ 64 ∧ ∃ h, Rel.Hasher.updates cfg (newHasher cfg m) ss = .ok h ∧
      Rel.Hasher.finalize h = .ok (Spec.hash m ss.flatten) ∧
      ∃ o, Rel.Hasher.finalize_xof h = .ok o ∧
        ∀ prof, ∀ n ≤ 2 ^ 58 - 1, ∃ o', o.readMany prof n = .ok (Spec.output m ss.flatten (64 * n), o')) ∨
    (2 ^ 64 ≤ ss.flatten.length ∧ Rel.Hasher.updates cfg (newHasher cfg m) ss = .error .capacity) := by
  rcases rel_updates cfg ss (newHasher_okR cfg m) with ⟨e, hl⟩ | ⟨h, e, hr⟩
  · exact Or.inr ⟨by simpa using hl, e⟩
  · rw [List.nil_append] at hr
    exact Or.inl ⟨hr.length, h, e, rel_finalize hr⟩

theorem rel_updates_snoc (cfg : Config) (ss : List Bytes) (y : Bytes) : ∀ h : Hasher,
    Rel.Hasher.updates cfg h (ss ++ [y]) = Rel.Hasher.updates cfg h ss >>= fun h => Rel.Hasher.update cfg h y := by
  induction ss with
  | nil =>
    intro h
    show (Rel.Hasher.update cfg h y >>= fun h => Rel.Hasher.updates cfg h []) = Rel.Hasher.update cfg h y
    cases Rel.Hasher.update cfg h y <;> rfl
  | cons s ss ih =>
    intro h
    show (Rel.Hasher.update cfg h s >>= fun h => Rel.Hasher.updates cfg h (ss ++ [y])) =
      (Rel.Hasher.update cfg h s >>= fun h => Rel.Hasher.updates cfg h ss) >>= _
    cases Rel.Hasher.update cfg h s with
    | error e => rfl
    | ok h' => exact ih h'

/-- C71.  With exactly 2^64 bytes it depends on the last update: it must not be the one that begins the last chunk. -/
theorem C71_hasher_limit (cfg : Config) (m : Spec.Mode) (ss : List Bytes) (y : Bytes) (hy : y ≠ [])
    (hl : ss.flatten.length + y.length = 2 ^ 64) :
    if 2 ^ 64 - 2048 < ss.flatten.length then
      ∃ h, Rel.Hasher.updates cfg (newHasher cfg m) (ss ++ [y]) = .ok h ∧
        Rel.Hasher.finalize h = .ok (Spec.hash m (ss.flatten ++ y))
    else Rel.Hasher.updates cfg (newHasher cfg m) (ss ++ [y]) = .error .capacity := by
  have hy := List.length_pos_iff.2 hy
  rcases rel_updates cfg ss (newHasher_okR cfg m) with ⟨-, h1⟩ | ⟨h, e, hr⟩
  · simp at h1; simp at hl; omega
  · rw [List.nil_append] at hr
    rw [rel_updates_snoc, e, bind_ok]
    rcases rel_update_long cfg (input := y) hr (by omega) with ⟨h1, -, h', e', hr'⟩ | ⟨h1, e'⟩
    · rw [if_pos h1]; exact ⟨h', e', (rel_finalize hr').1⟩
    · rw [if_neg (by omega)]; exact e'

/-- C71.  With or without checks, updates of any lengths: if the hasher returns at all, it returns the specified hash.  Beyond
2^64 bytes it does not. -/
theorem C71_never_wrong (cfg : Config) (m : Spec.Mode) (ss : List Bytes) (h : Hasher) (d : Vector Byte 32) :
    ((newHasher cfg m).updates cfg ss = .ok h → h.finalize = .ok d → d = Spec.hash m ss.flatten ∧ ss.flatten.length ≤ 2 ^ 64) ∧
    (Rel.Hasher.updates cfg (newHasher cfg m) ss = .ok h → Rel.Hasher.finalize h = .ok d →
      d = Spec.hash m ss.flatten ∧ ss.flatten.length ≤ 2 ^ 64) := by
  have key : Rel.Hasher.updates cfg (newHasher cfg m) ss = .ok h → Rel.Hasher.finalize h = .ok d →
      d = Spec.hash m ss.flatten ∧ ss.flatten.length ≤ 2 ^ 64 := by
    intro e1 e2
    rcases C71_hasher cfg m ss with ⟨hl, h', e, ef, -⟩ | ⟨-, e⟩
    · obtain rfl := Except.ok.inj (e1.symm.trans e)
      exact ⟨Except.ok.inj (e2.symm.trans ef), hl⟩
    · rw [e1] at e; cases e
  exact ⟨fun e1 e2 => key ((le_updates cfg ss _).imp _ e1) ((le_finalize h).imp _ e2), key⟩

-- three chunks and a bit, in pieces, with checks: the hypotheses are met
example (cfg : Config) : ∃ h d, (newHasher cfg .hash).updates cfg [rep 5000 7, [], rep 2000 1] = .ok h ∧ h.finalize = .ok d := by
  obtain ⟨h, e, e'⟩ := C02_finalize cfg .hash [rep 5000 7, [], rep 2000 1] (by simp)
  exact ⟨h, _, e, e'⟩

-- inputs of every length exist
example (a b : Nat) : ∃ x y : Bytes, x.length = a ∧ y.length = b :=
  ⟨List.replicate a 0, List.replicate b 0, List.length_replicate, List.length_replicate⟩

/-! ## The reference implementation -/

theorem relRefUpdates_long (w : Nat) (m : Spec.Mode) (ss : List Bytes) : ∀ (bytes : Bytes) (h : Ref.Hasher),
    RefOk m.key m.flag bytes h → bytes.length ≤ 2 ^ 64 → 2 ^ 64 < bytes.length + ss.flatten.length →
    Rel.Ref.Hasher.updates w h ss = .error .bounds := by
  induction ss with
  | nil => intro bytes h hh hb hs; simp at hs; omega
  | cons s ss ih =>
    intro bytes h hh hb hs
    rw [List.flatten_cons, List.length_append] at hs
    rw [Rel.Ref.Hasher.updates, Rel.Ref.Hasher.update]
    by_cases h1 : bytes.length + s.length ≤ 2 ^ 64
    · obtain ⟨h1, e1, ok1⟩ := RefOk.update_loop _ _ s.length hh s (Nat.le_refl _) h1
      rw [(le_ref_update_loop w s.length h s).imp _ e1, bind_ok]
      exact ih _ h1 ok1 (by rw [List.length_append]; omega) (by rw [List.length_append]; omega)
    · rw [rel_ref_update_long _ _ w s.length hh hb s (Nat.le_refl _) (by omega)]; rfl

/-- C71.  The reference implementation without checks fills the output with the specified stream for up to 2^64 bytes of
input, however they are cut; with more it panics, because the offset wraps around to 0 and the stack runs empty. -/
theorem C71_reference (w : Nat) (m : Spec.Mode) (ss : List Bytes) (out : Bytes) (ho : out.length ≤ 2 ^ 64 - 64) :
    RelRefProgram w m ss out =
      if ss.flatten.length ≤ 2 ^ 64 then .ok (Spec.output m ss.flatten out.length) else .error .bounds := by
  by_cases hl : ss.flatten.length ≤ 2 ^ 64
  · rw [if_pos hl]
    exact (le_refProgram w m ss out).imp _ (C13_reference m ss out hl ho)
  · rw [if_neg hl, RelRefProgram, relRefUpdates_long w m ss [] _ (refNew_ok m) (by simp) (by simpa using hl)]
    rfl

example : (rep 100 0).length ≤ 2 ^ 64 - 64 := by simp

/-! ## `hash_many` -/

theorem offs_eq (off d : U64) (i : Nat) : offs off d i = off + BitVec.ofNat 64 i * d := by
  apply BitVec.eq_of_toNat_eq
  simp only [offs, BitVec.toNat_ofNat, BitVec.toNat_add, BitVec.toNat_mul]
  rw [Nat.mod_mul_mod, Nat.add_mod_mod]

theorem lanesOut_eq_manyOut (key : Vector Word 8) (off d : U64) (flags fs fe : Byte) (cap : Nat) (hcap : cap % 64 = 0) (n : Nat) :
    ∀ (xs : List Bytes) (off : U64), n ≤ xs.length → (∀ x ∈ xs, x.length = cap) →
    lanesOut key off d flags fs fe 0 (xs.take n) = Spec.manyOut key off d flags fs fe (cap / 64) n xs := by
  induction n with
  | zero => intro xs off _ _; rfl
  | succ n ih =>
    intro xs off hn hx
    match xs with
    | [] => simp at hn
    | x :: xs =>
      have hxl : x.length = cap := hx x (List.mem_cons_self ..)
      have hc := Proofs.C.cvLoop_chain key flags fs fe off (cap / 64) x (by omega)
      rw [List.take_of_length_le (by omega)] at hc
      rw [List.take_succ_cons, lanesOut, offs_zero, hc, Nat.add_comm n 1, Proofs.C.manyOut_add, List.drop_succ_cons, List.drop_zero,
        show 0 + 1 = 1 + 0 from rfl, lanesOut_shift, ih xs _ (by simpa using hn) (fun y hy => hx y (List.mem_cons_of_mem _ hy)), offs_eq]
      simp [Spec.manyOut]

/-- C71.  Without checks `hash_many` never panics, on any platform: it hashes as many inputs as the output has room for, at
offsets that wrap around, and leaves the rest of the output as it was. -/
theorem C71_hash_many (p : Platform) (blocks : Nat) (xs : List Bytes) (key : Vector Word 8) (off d : U64)
    (flags fs fe : Byte) (out : Bytes) (hx : ∀ x ∈ xs, x.length = 64 * blocks) :
    Rel.hash_many p (64 * blocks) xs key off d flags fs fe out =
      .ok (Spec.manyOut key off d flags fs fe blocks (min xs.length (out.length / 32)) xs ++
        out.drop (32 * min xs.length (out.length / 32))) := by
  rw [rel_hash_many p (64 * blocks) (by omega) xs key off d flags fs fe out hx, manyBuf]
  have e : xs.take (out.length / 32) = xs.take (min xs.length (out.length / 32)) := by
    rw [List.take_eq_take_iff]; omega
  rw [e, lanesOut_eq_manyOut key off d flags fs fe (64 * blocks) (by omega) _ xs off (Nat.min_le_left ..) hx,
    Nat.mul_div_cancel_left _ (by decide)]

-- offsets that wrap around and too little room for the output
example : ∀ x ∈ [rep 2048 1, rep 2048 2, rep 2048 3], x.length = 64 * 32 := by simp
example : Rel.hash_many .avx2 (64 * 1) [rep 64 1, rep 64 2] IV (BitVec.ofNat 64 (2 ^ 64 - 64)) 64 0 0 0 (rep 40 9) =
    .ok (Spec.manyOut IV (BitVec.ofNat 64 (2 ^ 64 - 64)) 64 0 0 0 1 1 [rep 64 1, rep 64 2] ++ rep 8 9) :=
  C71_hash_many .avx2 1 _ _ _ _ _ _ _ _ (by simp)

theorem rel64_loop (key : Vector U64 4) (d : U64) (flags fs fe : Byte) (blocks : Nat) (xs : List Bytes) :
    ∀ (off : U64) (out : Bytes), (∀ x ∈ xs, x.length = 128 * blocks) →
    Rel.Portable64.hash_many_loop key d flags fs fe xs off out =
      .ok (Spec64.manyOut key off d flags fs fe blocks (min xs.length (out.length / 32)) xs ++
        out.drop (32 * min xs.length (out.length / 32))) := by
  induction xs with
  | nil => intro off out _; simp [Rel.Portable64.hash_many_loop, Spec64.manyOut]
  | cons x xs ih =>
    intro off out hx
    have hxl : x.length = 128 * blocks := hx x (List.mem_cons_self ..)
    rw [Rel.Portable64.hash_many_loop]
    by_cases ho : out.length < 32
    · rw [if_pos ho, Nat.div_eq_of_lt ho]
      simp [Spec64.manyOut]
    · have hc := W64.cvLoop_chain key flags fs fe off blocks x (by omega)
      rw [List.take_of_length_le (by omega)] at hc
      have e : min (x :: xs).length (out.length / 32) = 1 + min xs.length ((out.drop 32).length / 32) := by
        rw [List.length_cons, List.length_drop]; omega
      rw [if_neg ho, Rel.Portable64.hash1, W64.hash1_loop_eq, hc, bind_ok]
      simp only [Portable64.OUT_LEN]
      rw [pure_eq, bind_ok, ih _ _ (fun y hy => hx y (List.mem_cons_of_mem _ hy)), bind_ok, pure_eq, e, W64.manyOut_add,
        List.drop_succ_cons, List.drop_zero, List.drop_drop, Nat.mul_add, W64.bytes_from_state_words_eq]
      simp [Spec64.manyOut]

/-- C71.  The same for the 64-bit implementation in Rust. -/
theorem C71_hash_many_64 (blocks : Nat) (xs : List Bytes) (key : Vector U64 4) (off d : U64) (flags fs fe : Byte) (out : Bytes)
    (hx : ∀ x ∈ xs, x.length = 128 * blocks) :
    Rel.Portable64.hash_many xs key off d flags fs fe out =
      .ok (Spec64.manyOut key off d flags fs fe blocks (min xs.length (out.length / 32)) xs ++
        out.drop (32 * min xs.length (out.length / 32))) :=
  rel64_loop key d flags fs fe blocks xs off out hx

example : ∀ x ∈ [rep 4096 1, rep 4096 2, rep 4096 3], x.length = 128 * 32 := by simp

end Baokeshed.Props
