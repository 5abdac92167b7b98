import Verif.Props.Prefix

/-!
# C96: secrets that can be guessed, such as passwords

A secret is one of a known set of possible ones.  An attacker sees output that was computed with the secret in the input, and wants the
secret.  The compression function is a black box as in C81.
-/

set_option linter.unusedVariables false
set_option exponentiation.threshold 600

namespace Baokeshed.Props
open Baokeshed.Model Baokeshed.Proofs

attribute [local irreducible] Spec.compress Spec.outBytes Spec.cvBytes Spec.pad

/-- the request for block `j` of the hash output for nothing but the secret -/
def bareWant {N : Nat} (j : Fin (2 ^ 58)) : Spec.Want N := ⟨(.hash, [], j.val), Nat.zero_le _, j.isLt⟩

theorem bareWant_inj {N : Nat} {j j' : Fin (2 ^ 58)} (h : bareWant (N := N) j = bareWant j') : j = j' :=
  Fin.ext (congrArg (fun r : Spec.Want N => r.1.2.2) h)

theorem onlyCalls_eq {M α : Type} (G : Spec.Input ⊕ M → Spec.Full) (A : Spec.Asking α) :
    (onlyCalls A).result G = A.result (fun a => G (.inl a)) ∧ (onlyCalls A).asked G = (A.asked fun a => G (.inl a)).map .inl := by
  induction A with
  | done a => exact ⟨rfl, rfl⟩
  | ask a k ih =>
    obtain ⟨h1, h2⟩ := ih (G (.inl a))
    exact ⟨h1, congrArg (List.cons (Sum.inl a)) h2⟩

theorem madeBlock_eq {M : Type} (G : Spec.Input ⊕ M → Spec.Full) (m : Spec.Mode) (x : Bytes) (k : Nat) :
    (madeBlock m x k).result G = wordsWith (fun a => G (.inl a)) m x k ∧
    ∃ l : List Spec.Input, (madeBlock m x k).asked G = l.map .inl ∧ l.length = Spec.compressions x.length := by
  refine ⟨(onlyCalls_eq G _).1, _, (onlyCalls_eq G _).2, ?_⟩
  rw [Gen.asked_bind, List.length_append, (Gen.root_asks _ _ _).2]
  have h := C81_questions (fun a => G (.inl a)) m x
  rw [(Gen.hash_asks _ _ _).2, List.length_append] at h
  exact h

section
variable {K : Type} {N N' : Nat} {put : K → Bytes → Bytes}

theorem putting_length (s : K) (l : List (Spec.Input ⊕ Spec.Want N)) : (l.filterMap Sum.getRight?).length ≤ putting put s l := by
  rw [putting]
  generalize l.filterMap Sum.getRight? = t
  induction t with
  | nil => exact Nat.le_refl _
  | cons r t ih =>
    rw [List.map_cons, List.sum_cons, List.length_cons]
    have : 1 ≤ Spec.compressions (put s r.1.2.1).length := by rw [Spec.compressions]; omega
    omega

theorem inserted_bare (F : Comp) (s : K) (j : Fin (2 ^ 58)) :
    inserted (N := N) put F s (.inr (bareWant j)) = wordsWith F .hash (put s []) j.val := rfl

theorem exists_bare (l : List (Spec.Input ⊕ Spec.Want N)) (h : (l.filterMap Sum.getRight?).length < 2 ^ 58) :
    ∃ j : Fin (2 ^ 58), .inr (bareWant j) ∉ l := by
  classical
  have hc : ((l.filterMap Sum.getRight?).toFinset).card < (Finset.univ.image (bareWant (N := N))).card := by
    rw [Finset.card_image_of_injective _ (fun _ _ => bareWant_inj), Finset.card_univ, Fintype.card_fin]
    exact Nat.lt_of_le_of_lt (List.toFinset_card_le _) h
  obtain ⟨r, h1, h2⟩ := Finset.exists_mem_notMem_of_card_lt_card hc
  obtain ⟨j, -, rfl⟩ := Finset.mem_image.1 h1
  refine ⟨j, fun hm => h2 ?_⟩
  rw [List.mem_toFinset, List.mem_filterMap]
  exact ⟨_, hm, rfl⟩

open Classical in
noncomputable def bareBlock (l : List (Spec.Input ⊕ Spec.Want N)) : Fin (2 ^ 58) :=
  if h : ∃ j : Fin (2 ^ 58), .inr (bareWant j) ∉ l then h.choose else 0

/-- C96.  The holder of a secret, one of `|K|`, answers requests as in C84: for output in all modes and with all keys, with the secret put
into the input.  The attacker asks for `q` compressions, the holder performs `t`; one who has the secret needs `c` to hash it.  The attacker
names the secret with a probability of hardly more than `(q + c) / |K|`: there is no better way than to try one secret after the other. -/
theorem C96_secret [Finite K] [Nonempty K] (hN : N' < 2 ^ 64) (hput : ∀ s s' x x', put s x = put s' x' → s = s' ∧ x = x')
    (hlen : ∀ s x, x.length ≤ N → (put s x).length ≤ N') (A : Spec.Algo (Spec.Input ⊕ Spec.Want N) Spec.Full K) (q t c : Nat)
    (hq : ∀ G, calls (A.asked G) ≤ q) (ht : ∀ G s, putting put s (A.asked G) ≤ t) (h58 : t < 2 ^ 58)
    (hc : ∀ s, Spec.compressions (put s []).length ≤ c) :
    prob (fun w : Comp × K => A.result (inserted put w.1 w.2) = w.2) ≤
      1 / 2 ^ 512 + (((q + c : Nat) : ℚ) / (Nat.card K : ℚ) +
        ((3 * (q + c + (t + c)) ^ 2 + (q + c + (t + c)) + (3 * (q + c) ^ 2 + (q + c)) : Nat) : ℚ) / 2 ^ 257) := by
  classical
  -- compute a block that was not requested with the secret that is named, and compare
  let C : Spec.Algo (Spec.Input ⊕ Spec.Want N) Spec.Full (Fin (2 ^ 58) × Spec.Full) := logged A >>= fun p =>
    madeBlock .hash (put p.1 []) (bareBlock p.2).val >>= fun y => .done (bareBlock p.2, y)
  have hC : ∀ G, C.result G = (bareBlock (A.asked G), wordsWith (fun a => G (.inl a)) .hash (put (A.result G) []) (bareBlock (A.asked G)).val) ∧
      ∃ l : List Spec.Input, C.asked G = A.asked G ++ l.map .inl ∧ l.length ≤ c := by
    intro G
    obtain ⟨e1, e2⟩ := logged_eq G A
    obtain ⟨e3, l, e4, e5⟩ := madeBlock_eq G .hash (put (A.result G) []) (bareBlock (A.asked G)).val
    simp only [C]
    rw [Gen.result_bind, Gen.asked_bind, e1, e2]
    dsimp only
    rw [Gen.result_bind, Gen.asked_bind, e3, e4]
    exact ⟨rfl, l, congrArg _ (List.append_nil _), by rw [e5]; exact hc _⟩
  clear_value C
  let B : Spec.Algo (Spec.Input ⊕ Spec.Want N) Spec.Full Prop := logged C >>= fun p =>
    .ask (.inr (bareWant p.1.1)) fun z => .done (.inr (bareWant p.1.1) ∉ p.2 ∧ z = p.1.2)
  have hB : ∀ G, B.result G = (.inr (bareWant (C.result G).1) ∉ C.asked G ∧ G (.inr (bareWant (C.result G).1)) = (C.result G).2) ∧
      B.asked G = C.asked G ++ [.inr (bareWant (C.result G).1)] := by
    intro G
    obtain ⟨e1, e2⟩ := logged_eq G C
    simp only [B]
    rw [Gen.result_bind, Gen.asked_bind, e1, e2]
    exact ⟨rfl, rfl⟩
  have hl : ∀ l : List Spec.Input, (l.map (Sum.inl (β := Spec.Want N))).filterMap Sum.getLeft? = l ∧
      (l.map (Sum.inl (β := Spec.Want N))).filterMap Sum.getRight? = [] := by
    intro l
    induction l with
    | nil => exact ⟨rfl, rfl⟩
    | cons a l ih => exact ⟨congrArg (a :: ·) ih.1, ih.2⟩
  have h := inserted_le hN hput hlen B id (q + c) (t + c)
    (fun G => by
      obtain ⟨l, h1, h2⟩ := (hC G).2
      rw [(hB G).2, h1, calls, List.filterMap_append, List.filterMap_append, (hl l).1]
      simp only [List.filterMap_cons, Sum.getLeft?, List.filterMap_nil, List.append_nil]
      rw [List.length_append]
      exact Nat.add_le_add (hq G) h2)
    (fun G s => by
      obtain ⟨l, h1, h2⟩ := (hC G).2
      rw [(hB G).2, h1, putting, List.filterMap_append, List.filterMap_append, (hl l).2]
      simp only [List.filterMap_cons, Sum.getRight?, List.filterMap_nil, List.append_nil, List.map_append, List.sum_append, List.map_cons,
        List.map_nil, List.sum_cons, List.sum_nil, Nat.add_zero]
      exact Nat.add_le_add (ht G s) (hc s))
  simp only [id, fun G => (hB G).1] at h
  refine le_trans (le_trans (prob_mono fun w hw => ?_) h) (add_le_add_left ?_ _)
  · obtain ⟨F, s⟩ := w
    dsimp only at hw ⊢
    obtain ⟨h1, l, h2, -⟩ := hC (inserted put F s)
    rw [h1, h2]
    dsimp only
    have hex := exists_bare (A.asked (inserted put F s)) (Nat.lt_of_le_of_lt (putting_length s _) (Nat.lt_of_le_of_lt (ht _ s) h58))
    refine ⟨?_, ?_⟩
    · rw [List.mem_append]
      rintro (hm | hm)
      · rw [bareBlock, dif_pos hex] at hm
        exact hex.choose_spec hm
      · obtain ⟨a, -, e⟩ := List.mem_map.1 hm
        cases e
    · have hF : (fun a => inserted (N := N) put F s (.inl a)) = F := rfl
      rw [hw, hF, inserted_bare]
  · have hg := count_guess (fun y : Spec.Full => y) (fun y z => z) (fun _ _ => rfl) (fun _ => rfl) (fun _ _ _ => rfl)
      (C >>= fun p => .done ((.inr (bareWant p.1) : Spec.Input ⊕ Spec.Want N), p.2))
    simp only [Gen.result_bind, Gen.asked_bind, Spec.Algo.result, Spec.Algo.asked, List.append_nil] at hg
    have hle : Nat.card { G : Spec.Input ⊕ Spec.Want N → Spec.Full // .inr (bareWant (C.result G).1) ∉ C.asked G } ≤
        Nat.card (Spec.Input ⊕ Spec.Want N → Spec.Full) := Nat.card_le_card_of_injective _ Subtype.val_injective
    rw [← hg, card_full, ← Nat.pow_add] at hle
    have p2 : (0 : ℚ) < (Nat.card (Spec.Input ⊕ Spec.Want N → Spec.Full) : ℚ) := prob_pos
    have hx := prob_congr (Equiv.sumArrowEquivProdArrow Spec.Input (Spec.Want N) Spec.Full).symm fun G =>
      .inr (bareWant (C.result G).1) ∉ C.asked G ∧ G (.inr (bareWant (C.result G).1)) = (C.result G).2
    refine le_trans (le_of_eq hx) ?_
    rw [prob, div_le_div_iff₀ p2 (by positivity), one_mul]
    exact_mod_cast hle

end

/-! ## passwords -/

/-- the compression function, and blocks of output for an input that the attacker does not know -/
def unknown (F : Comp) (p : Bytes) : Spec.Input ⊕ (Spec.Mode × Fin (2 ^ 58)) → Spec.Full
  | .inl a => F a
  | .inr (m, k) => wordsWith F m p k.val

/-- the request in the sense of C84, with nothing added to the secret -/
def bareRequest (r : Spec.Mode × Fin (2 ^ 58)) : Spec.Want 0 := ⟨(r.1, [], r.2.val), Nat.le_refl 0, r.2.isLt⟩

theorem zeros_inj : ∀ (a b : Nat) (x y : Bytes), List.replicate a (0 : Byte) ++ 1 :: x = List.replicate b 0 ++ 1 :: y → a = b ∧ x = y
  | 0, 0, x, y, h => ⟨rfl, (List.cons.inj h).2⟩
  | 0, b + 1, x, y, h => absurd (List.cons.inj h).1 (by decide)
  | a + 1, 0, x, y, h => absurd (List.cons.inj h).1 (by decide)
  | a + 1, b + 1, x, y, h => by
    obtain ⟨h1, h2⟩ := zeros_inj a b x y (List.cons.inj h).2
    exact ⟨by omega, h2⟩

theorem compressions_mono {a b : Nat} (h : a ≤ b) : Spec.compressions a ≤ Spec.compressions b := by
  rw [Spec.compressions, Spec.compressions]
  omega

theorem lefts_sum_map {M M' : Type} (f : M → M') (l : List (Spec.Input ⊕ M)) :
    (l.map (Sum.map id f)).filterMap Sum.getLeft? = l.filterMap Sum.getLeft? ∧
    (l.map (Sum.map id f)).filterMap Sum.getRight? = (l.filterMap Sum.getRight?).map f := by
  induction l with
  | nil => exact ⟨rfl, rfl⟩
  | cons a l ih =>
    rcases a with a | a
    · exact ⟨congrArg (a :: ·) ih.1, ih.2⟩
    · exact ⟨ih.1, congrArg (f a :: ·) ih.2⟩

/-- C96.  A password is drawn from a list `D` of possible ones, each with at most `L < 2^64` bytes, which the attacker knows.  Somebody who
has it returns up to `r` blocks of output for it, in modes and with keys (that is, salts) of the attacker's choice; the attacker asks for `q`
compressions.  With `c` compressions for a password of `L` bytes, the attacker names the password with a probability of hardly more than
`(q + c) / |D|`. -/
theorem C96_password (D : Finset Bytes) (hD : D.Nonempty) (L : Nat) (hL : L < 2 ^ 64) (hl : ∀ p ∈ D, p.length ≤ L)
    (A : Spec.Algo (Spec.Input ⊕ (Spec.Mode × Fin (2 ^ 58))) Spec.Full Bytes) (q r : Nat)
    (hq : ∀ G, ((A.asked G).filterMap Sum.getLeft?).length ≤ q) (hr : ∀ G, ((A.asked G).filterMap Sum.getRight?).length ≤ r)
    (h58 : r * Spec.compressions L < 2 ^ 58) :
    prob (fun w : Comp × D => A.result (unknown w.1 w.2.1) = w.2.1) ≤
      1 / 2 ^ 512 + ((q + Spec.compressions L : Nat) : ℚ) / (D.card : ℚ) +
        ((6 * (q + (r + 2) * Spec.compressions L) ^ 2 + 2 * (q + (r + 2) * Spec.compressions L) : Nat) : ℚ) / 2 ^ 257 := by
  classical
  obtain ⟨p0, hp0⟩ := hD
  have : Nonempty D := ⟨⟨p0, hp0⟩⟩
  let e := Fintype.equivFin D
  let put : D → Bytes → Bytes := fun s x => if x = [] then s.1 else List.replicate (L + 1 + (e s).val) 0 ++ 1 :: x
  have hput : ∀ s s' x x', put s x = put s' x' → s = s' ∧ x = x' := by
    intro s s' x x' h
    by_cases hx : x = [] <;> by_cases hx' : x' = []
    · simp only [put, if_pos hx, if_pos hx'] at h
      exact ⟨Subtype.ext h, hx.trans hx'.symm⟩
    · simp only [put, if_pos hx, if_neg hx'] at h
      have h1 := congrArg List.length h
      rw [List.length_append, List.length_replicate] at h1
      have := hl s.1 s.2
      omega
    · simp only [put, if_neg hx, if_pos hx'] at h
      have h1 := congrArg List.length h
      rw [List.length_append, List.length_replicate] at h1
      have := hl s'.1 s'.2
      omega
    · simp only [put, if_neg hx, if_neg hx'] at h
      obtain ⟨h1, h2⟩ := zeros_inj _ _ _ _ h
      exact ⟨e.injective (Fin.ext (by omega)), h2⟩
  have hbare : ∀ s, put s [] = s.1 := fun s => if_pos rfl
  have hnil : ∀ x : Bytes, x.length ≤ 0 → x = [] := fun x hx => List.length_eq_zero_iff.1 (Nat.le_zero.1 hx)
  let B : Spec.Algo (Spec.Input ⊕ Spec.Want 0) Spec.Full D := Indiff.rename (Sum.map id bareRequest) A >>= fun p =>
    .done (if h : p ∈ D then ⟨p, h⟩ else ⟨p0, hp0⟩)
  have hB : ∀ G, B.asked G = (A.asked fun x => G (Sum.map id bareRequest x)).map (Sum.map id bareRequest) ∧
      B.result G = if h : A.result (fun x => G (Sum.map id bareRequest x)) ∈ D then ⟨_, h⟩ else ⟨p0, hp0⟩ := by
    intro G
    simp only [B]
    rw [Gen.asked_bind, Gen.result_bind, Indiff.rename_asked, Indiff.rename_result]
    exact ⟨List.append_nil _, rfl⟩
  have h := C96_secret (N := 0) (N' := L) (put := put) hL hput (fun s x hx => by rw [hnil x hx, hbare]; exact hl s.1 s.2) B q
    (r * Spec.compressions L) (Spec.compressions L)
    (fun G => by
      rw [(hB G).1, calls, (lefts_sum_map _ _).1]
      exact hq _)
    (fun G s => by
      rw [(hB G).1, putting, (lefts_sum_map _ _).2, List.map_map]
      refine Nat.le_trans (List.sum_le_card_nsmul _ (Spec.compressions L) fun n hn => ?_) ?_
      · obtain ⟨w, -, rfl⟩ := List.mem_map.1 hn
        show Spec.compressions (put s []).length ≤ _
        rw [hbare]
        exact compressions_mono (hl s.1 s.2)
      · rw [List.length_map, smul_eq_mul]
        exact Nat.mul_le_mul_right _ (hr _))
    h58 (fun s => by rw [hbare]; exact compressions_mono (hl s.1 s.2))
  have hu : ∀ (F : Comp) (s : D), (fun x => inserted put F s (Sum.map id bareRequest x)) = unknown F s.1 := by
    intro F s
    funext x
    rcases x with x | x
    · rfl
    · show wordsWith F x.1 (put s []) x.2.val = wordsWith F x.1 s.1 x.2.val
      rw [hbare]
  refine le_trans (le_trans (prob_mono fun w hw => ?_) h) ?_
  · rw [(hB _).2, hu, hw]
    exact dif_pos w.2.2
  · rw [Nat.card_eq_fintype_card, Fintype.card_coe, ← add_assoc]
    refine add_le_add_right (div_le_div_of_nonneg_right (Nat.cast_le.2 ?_) (by positivity)) _
    have e1 : q + Spec.compressions L + (r * Spec.compressions L + Spec.compressions L) = q + (r + 2) * Spec.compressions L := by ring
    rw [e1]
    have h1 : q + Spec.compressions L ≤ q + (r + 2) * Spec.compressions L := by
      refine Nat.add_le_add_left (Nat.le_mul_of_pos_left _ (by omega)) _
    have h2 : (q + Spec.compressions L) ^ 2 ≤ (q + (r + 2) * Spec.compressions L) ^ 2 := Nat.pow_le_pow_left h1 2
    omega

/-- C96.  With the compression function itself, a block of output that is returned is what the library reads after `k` other reads. -/
theorem C96_library (cfg : Config) (hv : cfg.Valid) (m : Spec.Mode) (p : Bytes) (hf : cfg.Fits p.length) (prof : Profile)
    (k : Fin (2 ^ 58)) (hk : k.val < 2 ^ 58 - 1) :
    ∃ o bs o' b o'', oneShotXof cfg m p = .ok o ∧ o.readMany prof k.val = .ok (bs, o') ∧ o'.read prof = .ok (b, o'') ∧
      b.toList = (Spec.cvBytes (unknown realComp p (.inr (m, k))).1 ++ Spec.cvBytes (unknown realComp p (.inr (m, k))).2).toList := by
  obtain ⟨o, e, -, ho⟩ := oneShotXof_eq cfg m p hv hf
  obtain ⟨o', h, h', -⟩ := (OutAt.zero ho).readMany prof k.val (Or.inr (by omega))
  rw [Nat.zero_add] at h'
  refine ⟨o, _, o', _, _, e, h, h'.read prof (Or.inr hk), ?_⟩
  rw [← C81_stream, (C82_answer realComp m p k.val).1]
  rfl

/-- C96.  The first half of block 0 is the hash, whichever way the library is called. -/
theorem C96_library_hash (m : Spec.Mode) (w : How) (hw : w.Ok) :
    ∃ h, (w.digest m).res = .ok h ∧ h = (Spec.cvBytes (unknown realComp w.bytes (.inr (m, 0))).1).toList := by
  refine ⟨_, (C81_code m w hw).1, ?_⟩
  rw [(C82_answer realComp m w.bytes 0).2]
  rfl

/-! ## examples -/

/-- 2^40 passwords of up to 64 bytes, 1000 blocks for them, 2^30 compressions: one chance in about 1000 -/
example (D : Finset Bytes) (hD : D.card = 2 ^ 40) (hl : ∀ p ∈ D, p.length ≤ 64)
    (A : Spec.Algo (Spec.Input ⊕ (Spec.Mode × Fin (2 ^ 58))) Spec.Full Bytes)
    (hq : ∀ G, ((A.asked G).filterMap Sum.getLeft?).length ≤ 2 ^ 30) (hr : ∀ G, ((A.asked G).filterMap Sum.getRight?).length ≤ 1000) :
    prob (fun w : Comp × D => A.result (unknown w.1 w.2.1) = w.2.1) ≤ 1001 / 2 ^ 10 / 1000 := by
  refine le_trans (C96_password D (Finset.card_pos.1 (by rw [hD]; exact Nat.two_pow_pos 40)) 64 (by decide) hl A _ _ hq hr (by decide)) ?_
  rw [hD, show Spec.compressions 64 = 1 from by decide]
  norm_num

/-- an attacker who requests the hash for the password with a salt, and tries one password -/
def exTry (salt : Vector Byte 32) (a : Spec.Input) (p p' : Bytes) : Spec.Algo (Spec.Input ⊕ (Spec.Mode × Fin (2 ^ 58))) Spec.Full Bytes :=
  .ask (.inr (.keyedHash salt, 0)) fun y => .ask (.inl a) fun z => .done (if y = z then p else p')

/-- The event is not empty: with equal answers this attacker names `p`, the right password. -/
example (salt : Vector Byte 32) (a : Spec.Input) (p p' : Bytes) (y : Spec.Full) :
    (exTry salt a p p').result (unknown (fun _ => y) p) = p := by
  show (if wordsWith (fun _ => y) (.keyedHash salt) p 0 = y then p else p') = p
  rw [wordsWith, Gen.result_bind]
  exact if_pos rfl

example (D : Finset Bytes) (hD : D.card = 2 ^ 20) (hl : ∀ p ∈ D, p.length ≤ 64) (salt : Vector Byte 32) (a : Spec.Input) (p p' : Bytes) :
    prob (fun w : Comp × D => (exTry salt a p p').result (unknown w.1 w.2.1) = w.2.1) ≤ 3 / 2 ^ 20 := by
  refine le_trans (C96_password D (Finset.card_pos.1 (by rw [hD]; exact Nat.two_pow_pos 20)) 64 (by decide) hl (exTry salt a p p') 1 1
    (fun G => Nat.le_refl 1) (fun G => Nat.le_refl 1) (by decide)) ?_
  rw [hD, show Spec.compressions 64 = 1 from by decide]
  norm_num

/-- C96_secret for 32 secret bytes before the input, with 2^40 compressions on either side -/
example {N : Nat} (hN : N + 32 < 2 ^ 64) (A : Spec.Algo (Spec.Input ⊕ Spec.Want N) Spec.Full (Vector Byte 32))
    (hq : ∀ G, calls (A.asked G) ≤ 2 ^ 40) (ht : ∀ G s, putting before s (A.asked G) ≤ 2 ^ 40) :
    prob (fun w : Comp × Vector Byte 32 => A.result (inserted before w.1 w.2) = w.2) ≤ 1 / 2 ^ 172 := by
  refine le_trans (C96_secret hN before_inj (fun s x h => by rw [before_length]; omega) A _ _ 1 hq ht
    (Nat.pow_lt_pow_right (by decide) (by decide)) fun s => by rw [before_length]; decide) ?_
  rw [card_key]
  norm_num

end Baokeshed.Props
