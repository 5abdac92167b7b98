import Verif.Model.Decl
import Verif.Model.C.Hasher
import Mathlib.Data.Finset.Card
import Mathlib.Order.Interval.Finset.Nat
import Mathlib.Data.Finset.Union

/-!
# C87: what Rust and C declare about each other
-/

namespace Baokeshed.Props
open Baokeshed.Model Baokeshed.Model.Decl

/-! ## structs -/

/-- members at some offsets in a value of type `t` -/
structure Placed (ps : List (Nat × Lay)) (t : Lay) : Prop where
  aligned : ∀ p ∈ ps, p.2.align ∣ p.1
  inside : ∀ p ∈ ps, p.1 + p.2.size ≤ t.size
  apart : ps.Pairwise fun p q => p.1 + p.2.size ≤ q.1 ∨ q.1 + q.2.size ≤ p.1
  strict : ∀ p ∈ ps, p.2.align ∣ t.align
  whole : t.align ∣ t.size

/-- members in the order of their offsets -/
def InOrder (ps : List (Nat × Lay)) : Prop := ps.Pairwise fun p q => p.1 + p.2.size ≤ q.1

/-- alignments are powers of two -/
def Pow2 (ts : List Lay) : Prop := ∀ t ∈ ts, ∃ n, t.align = 2 ^ n

theorem roundUp_dvd (n a : Nat) : a ∣ roundUp n a := ⟨_, Nat.mul_comm _ _⟩

theorem le_roundUp (n : Nat) {a : Nat} (h : 0 < a) : n ≤ roundUp n a := by
  have := Nat.div_add_mod (n + (a - 1)) a
  have := Nat.mod_lt (n + (a - 1)) h
  rw [roundUp, Nat.mul_comm]
  omega

/-- it is the least multiple -/
theorem roundUp_le {n a m : Nat} (h : 0 < a) (hm : a ∣ m) (hn : n ≤ m) : roundUp n a ≤ m := by
  obtain ⟨k, rfl⟩ := hm
  rw [roundUp, Nat.mul_comm]
  refine Nat.mul_le_mul_left _ ?_
  rw [← Nat.lt_succ_iff, Nat.div_lt_iff_lt_mul h, Nat.succ_mul, Nat.mul_comm k]
  omega

theorem place_length (s : Nat) (ts : List Lay) : (place s ts).length = ts.length := by
  induction ts generalizing s with
  | nil => rfl
  | cons t ts ih => rw [place, List.length_cons, List.length_cons, ih]

theorem place_spec (s : Nat) (ts : List Lay) (h : Pow2 ts) :
    s ≤ endOf s ts ∧ (∀ p ∈ (place s ts).zip ts, p.2.align ∣ p.1 ∧ s ≤ p.1 ∧ p.1 + p.2.size ≤ endOf s ts) ∧
      InOrder ((place s ts).zip ts) := by
  induction ts generalizing s with
  | nil => exact ⟨Nat.le_refl _, fun p hp => by simp [place] at hp, List.Pairwise.nil⟩
  | cons t ts ih =>
    obtain ⟨n, hn⟩ := h t (List.mem_cons_self ..)
    obtain ⟨h1, h2, h3⟩ := ih (roundUp s t.align + t.size) (fun u hu => h u (List.mem_cons_of_mem _ hu))
    have hp : 0 < t.align := by rw [hn]; exact Nat.pow_pos (by decide)
    have hle := le_roundUp s hp
    rw [place, List.zip_cons_cons, endOf]
    refine ⟨by omega, ?_, List.pairwise_cons.2 ⟨fun q hq => (h2 q hq).2.1, h3⟩⟩
    intro p hm
    rcases List.mem_cons.1 hm with rfl | hm
    · exact ⟨roundUp_dvd _ _, hle, h1⟩
    · obtain ⟨a, b, c⟩ := h2 p hm
      exact ⟨a, by omega, c⟩

theorem strictest_spec (ts : List Lay) (h : Pow2 ts) : (∃ n, strictest ts = 2 ^ n) ∧ ∀ t ∈ ts, t.align ∣ strictest ts := by
  induction ts with
  | nil => exact ⟨⟨0, rfl⟩, fun t ht => by cases ht⟩
  | cons t ts ih =>
    obtain ⟨⟨n, hn⟩, hd⟩ := ih fun u hu => h u (List.mem_cons_of_mem _ hu)
    obtain ⟨m, hm⟩ := h t (List.mem_cons_self ..)
    have he : strictest (t :: ts) = max t.align (strictest ts) := rfl
    have hx : t.align ∣ strictest ts ∧ max t.align (strictest ts) = strictest ts ∨
        strictest ts ∣ t.align ∧ max t.align (strictest ts) = t.align := by
      rcases Nat.le_total m n with hmn | hmn
      · left
        have hle : t.align ≤ strictest ts := by rw [hm, hn]; exact Nat.pow_le_pow_right (by decide) hmn
        exact ⟨by rw [hm, hn]; exact Nat.pow_dvd_pow 2 hmn, Nat.max_eq_right hle⟩
      · right
        have hle : strictest ts ≤ t.align := by rw [hm, hn]; exact Nat.pow_le_pow_right (by decide) hmn
        exact ⟨by rw [hm, hn]; exact Nat.pow_dvd_pow 2 hmn, Nat.max_eq_left hle⟩
    rw [he]
    rcases hx with ⟨hx, e⟩ | ⟨hx, e⟩ <;> rw [e]
    · refine ⟨⟨n, hn⟩, fun u hu => ?_⟩
      rcases List.mem_cons.1 hu with rfl | hu
      · exact hx
      · exact hd u hu
    · refine ⟨⟨m, hm⟩, fun u hu => ?_⟩
      rcases List.mem_cons.1 hu with rfl | hu
      · exact Nat.dvd_refl _
      · exact Nat.dvd_trans (hd u hu) hx

theorem endOf_le (s : Nat) (ps : List (Nat × Lay)) (h : Pow2 (ps.map Prod.snd)) (ha : ∀ p ∈ ps, p.2.align ∣ p.1) (ho : InOrder ps)
    (hs : ∀ p ∈ ps, s ≤ p.1) (e : Nat) (hse : s ≤ e) (he : ∀ p ∈ ps, p.1 + p.2.size ≤ e) : endOf s (ps.map Prod.snd) ≤ e := by
  induction ps generalizing s with
  | nil => exact hse
  | cons p ps ih =>
    obtain ⟨n, hn⟩ := h p.2 (List.mem_cons_self ..)
    have hp : 0 < p.2.align := by rw [hn]; exact Nat.pow_pos (by decide)
    have h1 := roundUp_le hp (ha p (List.mem_cons_self ..)) (hs p (List.mem_cons_self ..))
    have h2 := he p (List.mem_cons_self ..)
    have ho := List.pairwise_cons.1 ho
    rw [List.map_cons, endOf]
    refine ih _ (fun t ht => h t (List.mem_cons_of_mem _ ht)) (fun q hq => ha q (List.mem_cons_of_mem _ hq)) ho.2 ?_ (by omega)
      (fun q hq => he q (List.mem_cons_of_mem _ hq))
    intro q hq
    have := ho.1 q hq
    omega

/-- C87.  The rules for structs place the members in their order, aligned, and one after the other, inside the struct, whose size is a
multiple of its alignment; and no other layout in this order is shorter. -/
theorem C87_struct (ts : List Lay) (h : Pow2 ts) :
    Placed ((place 0 ts).zip ts) (struct ts) ∧ InOrder ((place 0 ts).zip ts) ∧
      ∀ (ps : List (Nat × Lay)) (t : Lay), ps.map Prod.snd = ts → InOrder ps → Placed ps t → 0 < t.align → (struct ts).size ≤ t.size := by
  obtain ⟨h1, h2, h3⟩ := place_spec 0 ts h
  obtain ⟨⟨n, hn⟩, hd⟩ := strictest_spec ts h
  have hp : 0 < strictest ts := by rw [hn]; exact Nat.pow_pos (by decide)
  have hr := le_roundUp (endOf 0 ts) hp
  refine ⟨⟨fun p hp => (h2 p hp).1, fun p hp => ?_, ?_, fun p hp => hd _ (List.of_mem_zip hp).2, roundUp_dvd _ _⟩, h3, ?_⟩
  · exact Nat.le_trans (h2 p hp).2.2 hr
  · exact h3.imp fun h => Or.inl h
  · rintro ps t rfl ho hP ht
    refine roundUp_le hp ?_ (endOf_le 0 ps h hP.aligned ho (fun _ _ => Nat.zero_le _) _ (Nat.zero_le _) hP.inside)
    refine Nat.dvd_trans ?_ hP.whole
    -- the strictest alignment is one of the alignments
    have : ∀ ts : List Lay, strictest ts = 1 ∨ ∃ t ∈ ts, strictest ts = t.align := by
      intro ts
      induction ts with
      | nil => exact Or.inl rfl
      | cons t ts ih =>
        have he : strictest (t :: ts) = max t.align (strictest ts) := rfl
        rw [he]
        rcases Nat.le_total t.align (strictest ts) with hle | hle
        · rw [Nat.max_eq_right hle]
          rcases ih with e | ⟨u, hu, e⟩
          · exact Or.inl e
          · exact Or.inr ⟨u, List.mem_cons_of_mem _ hu, e⟩
        · rw [Nat.max_eq_left hle]
          exact Or.inr ⟨t, List.mem_cons_self .., rfl⟩
    rcases this (ps.map Prod.snd) with e | ⟨u, hu, e⟩
    · rw [e]; exact Nat.one_dvd _
    · rw [e]
      obtain ⟨p, hp, rfl⟩ := List.mem_map.1 hu
      exact hP.strict p hp

/-- the alignments that there are -/
theorem abi_cases {a : Abi} (h : a.Ok) {P : Abi → Prop}
    (H : ∀ x ∈ [1, 2], ∀ y ∈ [1, 2, 4], ∀ z ∈ [1, 2, 4, 8], P ⟨x, y, z⟩) : P a := by
  obtain ⟨x, y, z⟩ := a
  obtain ⟨h1, h2, h3⟩ := h
  refine H x ?_ y ?_ z ?_
  · simpa using h1
  · simpa using h2
  · simpa using h3

/-- C87.  On every platform, the members of `ChunkState` and `Hasher` in src/c.rs are where those of `chunk_state` and `hasher` in
c/baokeshed.c are, with the same sizes, but for the last. -/
theorem C87_members (a : Abi) (h : a.Ok) :
    place 0 (rustChunkState a) = place 0 (cChunkState a) ∧ rustChunkState a = cChunkState a ∧
      place 0 (rustHasher a) = place 0 (cHasher a) ∧ (rustHasher a).take 2 = (cHasher a).take 2 ∧
      (struct (rustHasher a)).align = (struct (cHasher a)).align := by
  refine abi_cases h (P := fun a => place 0 (rustChunkState a) = place 0 (cChunkState a) ∧ rustChunkState a = cChunkState a ∧
      place 0 (rustHasher a) = place 0 (cHasher a) ∧ (rustHasher a).take 2 = (cHasher a).take 2 ∧
      (struct (rustHasher a)).align = (struct (cHasher a)).align) ?_
  decide

/-- C87.  The offsets themselves.  The only padding is at the ends of the structs. -/
theorem C87_offsets (a : Abi) (h : a.Ok) :
    place 0 (cChunkState a) = [0, 32, 64, 72, 74, 138, 139] ∧
      ((struct (cChunkState a)).size = if a.align64 = 8 then 144 else 140) ∧
      place 0 (cHasher a) = [0, (struct (cChunkState a)).size, (struct (cChunkState a)).size + 1] := by
  refine abi_cases h (P := fun a => place 0 (cChunkState a) = [0, 32, 64, 72, 74, 138, 139] ∧
      ((struct (cChunkState a)).size = if a.align64 = 8 then 144 else 140) ∧
      place 0 (cHasher a) = [0, (struct (cChunkState a)).size, (struct (cChunkState a)).size + 1]) ?_
  decide

/-- C87.  The last member: the value of Rust ends, with its padding, at least 25 bytes before the array of C; the structs differ by 32
bytes, on every platform. -/
theorem C87_short (a : Abi) (h : a.Ok) :
    (struct (cHasher a)).size = (struct (rustHasher a)).size + 32 ∧
      (∀ o ∈ (place 0 (cHasher a))[2]?, (struct (rustHasher a)).size + 25 ≤ o + C.MAX_DEPTH * C.OUT_LEN ∧
        o + C.Ffi.SUBTREE_HASHES_LEN ≤ (struct (rustHasher a)).size) := by
  refine abi_cases h (P := fun a => (struct (cHasher a)).size = (struct (rustHasher a)).size + 32 ∧
      (∀ o ∈ (place 0 (cHasher a))[2]?, (struct (rustHasher a)).size + 25 ≤ o + C.MAX_DEPTH * C.OUT_LEN ∧
        o + C.Ffi.SUBTREE_HASHES_LEN ≤ (struct (rustHasher a)).size)) ?_
  decide

/-- the bytes of the members of a struct, in memory -/
def members (ts : List Lay) (mem : Bytes) : List Bytes := ((place 0 ts).zip ts).map fun p => (mem.drop p.1).take p.2.size

/-- C87.  Rust copies values of these types without their padding (`Copy`; the functions `new` return them).  The C code finds every
member as it left it, and of `subtree_hashes` the 1664 bytes that Rust knows of. -/
theorem C87_moved (a : Abi) (h : a.Ok) (mem mem' : Bytes)
    (hc : members (rustChunkState a) mem = members (rustChunkState a) mem')
    (hh : (members (rustHasher a) mem).drop 1 = (members (rustHasher a) mem').drop 1) :
    members (cChunkState a) mem = members (cChunkState a) mem' ∧
      (members (cHasher a) mem)[1]? = (members (cHasher a) mem')[1]? ∧
      ((members (cHasher a) mem)[2]?).map (·.take C.Ffi.SUBTREE_HASHES_LEN) =
        ((members (cHasher a) mem')[2]?).map (·.take C.Ffi.SUBTREE_HASHES_LEN) := by
  obtain ⟨h1, h2, h3, h4, -⟩ := C87_members a h
  obtain ⟨-, -, h5⟩ := C87_offsets a h
  have e := h3.trans h5
  refine ⟨by rw [members, ← h2]; exact hc, ?_⟩
  have em : ∀ m, members (rustHasher a) m = [(m.drop 0).take (struct (rustChunkState a)).size, (m.drop (struct (cChunkState a)).size).take 1,
      (m.drop ((struct (cChunkState a)).size + 1)).take 1664] := fun m => by rw [members, e]; rfl
  have ec : ∀ m, members (cHasher a) m = [(m.drop 0).take (struct (cChunkState a)).size, (m.drop (struct (cChunkState a)).size).take 1,
      (m.drop ((struct (cChunkState a)).size + 1)).take 1696] := fun m => by rw [members, h5]; rfl
  rw [em, em] at hh
  rw [ec, ec]
  simp only [List.drop_succ_cons, List.drop_zero, List.cons.injEq, and_true] at hh
  obtain ⟨ha, hb⟩ := hh
  refine ⟨congrArg some ha, congrArg some ?_⟩
  have : C.Ffi.SUBTREE_HASHES_LEN = 1664 := rfl
  dsimp only
  rw [List.take_take, List.take_take, this]
  exact hb

/-- C87.  `hasher_init` writes all members but `subtree_hashes`, which keeps what the memory contained: the value that `Hasher::new` takes
for initialised (src/c.rs:36) is so without those 1664 bytes and the padding. -/
theorem C87_uninit (mem : Vector Byte C.Ffi.SUBTREE_HASHES_LEN) (key : Vector Byte 32) (flags : Byte) (s : C.hasher)
    (h : C.Ffi.new mem key flags = .ok s) :
    s.subtree_hashes = mem.toList ∧
      ∀ mem', ∃ s', C.Ffi.new mem' key flags = .ok s' ∧ s'.chunk = s.chunk ∧ s'.subtree_hashes_len = s.subtree_hashes_len := by
  unfold C.Ffi.new C.hasher_init at h ⊢
  generalize C.load_key_words key.toList = kw at h ⊢
  cases kw with
  | error e => cases h
  | ok kw =>
    cases h
    exact ⟨rfl, fun mem' => ⟨_, rfl, rfl, rfl⟩⟩

/-! ## the reference implementation -/

theorem sum_le (ps : List (Nat × Lay)) (t : Lay) (h : Placed ps t) : (ps.map fun p => p.2.size).sum ≤ t.size := by
  classical
  have key : ∀ ps : List (Nat × Lay), (ps.Pairwise fun p q => p.1 + p.2.size ≤ q.1 ∨ q.1 + q.2.size ≤ p.1) →
      (ps.toFinset.biUnion fun p => Finset.Ico p.1 (p.1 + p.2.size)).card = (ps.map fun p => p.2.size).sum := by
    intro ps
    induction ps with
    | nil => intro _; rfl
    | cons p ps ih =>
      intro hp
      obtain ⟨h1, h2⟩ := List.pairwise_cons.1 hp
      rw [List.toFinset_cons, Finset.biUnion_insert, Finset.card_union_of_disjoint, ih h2, List.map_cons, List.sum_cons, Nat.card_Ico,
        Nat.add_sub_cancel_left]
      rw [Finset.disjoint_biUnion_right]
      intro q hq
      have := h1 q (List.mem_toFinset.1 hq)
      rw [Finset.disjoint_left]
      intro x hx hx'
      rw [Finset.mem_Ico] at hx hx'
      omega
  rw [← key ps h.apart, ← Nat.sub_zero t.size, ← Nat.card_Ico]
  refine Finset.card_le_card fun x hx => ?_
  obtain ⟨p, hp, hx⟩ := Finset.mem_biUnion.1 hx
  have := h.inside p (List.mem_toFinset.1 hp)
  rw [Finset.mem_Ico] at hx ⊢
  omega

/-- C87.  However a compiler arranges the members of the two structs of the reference implementation, a `Hasher` takes no less than 1848
bytes where `u64` is aligned to 8 bytes. -/
theorem C87_reference_least (a : Abi) (h64 : a.align64 = 8) (ps qs : List (Nat × Lay)) (chunk hasher : Lay)
    (hp : (ps.map Prod.snd).Perm (refChunkState a)) (hc : Placed ps chunk) (hq : (qs.map Prod.snd).Perm (refHasher a chunk))
    (hh : Placed qs hasher) : refSize ≤ hasher.size := by
  have s1 := sum_le ps chunk hc
  have s2 := sum_le qs hasher hh
  have e1 : (ps.map fun p => p.2.size) = (ps.map Prod.snd).map Lay.size := by rw [List.map_map]; rfl
  have e2 : (qs.map fun p => p.2.size) = (qs.map Prod.snd).map Lay.size := by rw [List.map_map]; rfl
  rw [e1, (hp.map Lay.size).sum_nat] at s1
  rw [e2, (hq.map Lay.size).sum_nat] at s2
  have t1 : ((refChunkState a).map Lay.size).sum = 110 := rfl
  have t2 : ((refHasher a chunk).map Lay.size).sum = chunk.size + 1729 := by
    simp only [refHasher, array, u32, u8, List.map_cons, List.map_nil, List.sum_cons, List.sum_nil, Nat.reduceMul, Nat.reduceAdd]
  rw [t1] at s1
  rw [t2] at s2
  have d1 : 8 ∣ chunk.align := by
    have : u64 a ∈ ps.map Prod.snd := hp.symm.subset (by simp [refChunkState])
    obtain ⟨p, hm, e⟩ := List.mem_map.1 this
    have := hc.strict p hm
    rw [e] at this
    exact h64 ▸ this
  have d2 : chunk.align ∣ hasher.align := by
    have : chunk ∈ qs.map Prod.snd := hq.symm.subset (by simp [refHasher])
    obtain ⟨p, hm, e⟩ := List.mem_map.1 this
    have := hh.strict p hm
    rwa [e] at this
  have m1 := Nat.dvd_trans d1 hc.whole
  have m2 := Nat.dvd_trans (Nat.dvd_trans d1 d2) hh.whole
  rw [refSize]
  omega

/-- the order by decreasing alignment -/
def sortedChunkState (a : Abi) : List Lay := [u64 a, array (u32 a) 8, u32 a, array u8 64, u8, u8]
def sortedHasher (a : Abi) (chunk : Lay) : List Lay := [chunk, array (u32 a) 8, array (array (u32 a) 8) 53, u8]

theorem pow2_of_ok {a : Abi} (h : a.Ok) : Pow2 (sortedChunkState a) ∧ Pow2 (sortedHasher a (struct (sortedChunkState a))) := by
  have h0 : ∀ b : Abi, b.Ok → (∃ n, b.align32 = 2 ^ n) ∧ (∃ n, b.align64 = 2 ^ n) := by
    rintro b ⟨-, h2, h3⟩
    refine ⟨?_, ?_⟩
    · rcases h2 with e | e | e <;> rw [e]
      exacts [⟨0, rfl⟩, ⟨1, rfl⟩, ⟨2, rfl⟩]
    · rcases h3 with e | e | e | e <;> rw [e]
      exacts [⟨0, rfl⟩, ⟨1, rfl⟩, ⟨2, rfl⟩, ⟨3, rfl⟩]
  obtain ⟨h32, h64⟩ := h0 a h
  have h8 : ∃ n, (1 : Nat) = 2 ^ n := ⟨0, rfl⟩
  have hs : Pow2 (sortedChunkState a) := by
    intro t ht
    simp only [sortedChunkState, List.mem_cons, List.not_mem_nil, or_false] at ht
    rcases ht with rfl | rfl | rfl | rfl | rfl | rfl
    exacts [h64, h32, h32, h8, h8, h8]
  refine ⟨hs, ?_⟩
  intro t ht
  simp only [sortedHasher, List.mem_cons, List.not_mem_nil, or_false] at ht
  rcases ht with rfl | rfl | rfl | rfl
  exacts [(strictest_spec _ hs).1, h32, h32, h8]

/-- C87.  Members by decreasing alignment give that size: 1848 bytes is what `test_reference_impl_size` expects, where `u64` is aligned to
8 bytes.  With an alignment of 4 bytes, as on 32-bit x86, the same order gives 1844 bytes: there the test expects more than needed. -/
theorem C87_reference_size (a : Abi) (h : a.Ok) :
    (sortedChunkState a).Perm (refChunkState a) ∧
      Placed ((place 0 (sortedChunkState a)).zip (sortedChunkState a)) (struct (sortedChunkState a)) ∧
      (sortedHasher a (struct (sortedChunkState a))).Perm (refHasher a (struct (sortedChunkState a))) ∧
      Placed ((place 0 (sortedHasher a (struct (sortedChunkState a)))).zip (sortedHasher a (struct (sortedChunkState a))))
        (struct (sortedHasher a (struct (sortedChunkState a)))) ∧
      (a.align64 = 8 → (struct (sortedHasher a (struct (sortedChunkState a)))).size = refSize) ∧
      (a.align64 = 4 → (struct (sortedHasher a (struct (sortedChunkState a)))).size = 1844) := by
  obtain ⟨p1, p2⟩ := pow2_of_ok h
  refine ⟨?_, (C87_struct _ p1).1, List.Perm.refl _, (C87_struct _ p2).1, ?_⟩
  · refine abi_cases h (P := fun a => (sortedChunkState a).Perm (refChunkState a)) ?_
    decide
  · refine abi_cases h (P := fun a => (a.align64 = 8 → (struct (sortedHasher a (struct (sortedChunkState a)))).size = refSize) ∧
      (a.align64 = 4 → (struct (sortedHasher a (struct (sortedChunkState a)))).size = 1844)) ?_
    decide

/-! ## functions -/

/-- all files of C -/
def cFiles : List Build.CFile := [.main, .portable, .sse41, .avx2, .avx512, .neon, .portable64, .sse41_64, .avx2_64, .avx512_64, .neon64]

theorem mem_cFiles (f : Build.CFile) : f ∈ cFiles := by cases f <;> decide

/-- C87.  Every function that the crate declares is defined in C, and every definition of that name takes arguments of the same types:
integers of the same size, pointers to the same type and equally const. -/
theorem C87_functions (d : String × List RTy) (hd : d ∈ rustDecls ++ rustDecls64) :
    (∃ f, ∃ e ∈ cDefs f, e.1 = d.1) ∧ ∀ f, ∀ e ∈ cDefs f, e.1 = d.1 → e.2.map CTy.arg = d.2.map RTy.arg := by
  have h : ∀ d ∈ rustDecls ++ rustDecls64, (∃ f ∈ cFiles, ∃ e ∈ cDefs f, e.1 = d.1) ∧
      ∀ f ∈ cFiles, ∀ e ∈ cDefs f, e.1 = d.1 → e.2.map CTy.arg = d.2.map RTy.arg := by decide
  obtain ⟨⟨f, -, hf⟩, h2⟩ := h d hd
  exact ⟨⟨f, hf⟩, fun f => h2 f (mem_cFiles f)⟩

/-- C87.  The same for the prototypes by which the files of C call each other. -/
theorem C87_prototypes (d : String × List CTy) (hd : d ∈ cProtos ++ cProtos64) :
    (∃ f, ∃ e ∈ cDefs f, e.1 = d.1) ∧ ∀ f, ∀ e ∈ cDefs f, e.1 = d.1 → e.2.map CTy.arg = d.2.map CTy.arg := by
  have h : ∀ d ∈ cProtos ++ cProtos64, (∃ f ∈ cFiles, ∃ e ∈ cDefs f, e.1 = d.1) ∧
      ∀ f ∈ cFiles, ∀ e ∈ cDefs f, e.1 = d.1 → e.2.map CTy.arg = d.2.map CTy.arg := by decide
  obtain ⟨⟨f, -, hf⟩, h2⟩ := h d hd
  exact ⟨⟨f, hf⟩, fun f => h2 f (mem_cFiles f)⟩

/-- C87.  These are the functions of C50 and C51. -/
theorem C87_names : (∀ f, (cDefs f).map Prod.fst = f.defs) ∧
    ∀ n, n ∈ (rustDecls ++ rustDecls64).map Prod.fst ↔ n ∈ Build.rustRefs true ⟨true, true, true, true⟩ := by
  refine ⟨fun f => by cases f <;> rfl, fun n => ?_⟩
  have h1 : ∀ n ∈ (rustDecls ++ rustDecls64).map Prod.fst, n ∈ Build.rustRefs true ⟨true, true, true, true⟩ := by decide
  have h2 : ∀ n ∈ Build.rustRefs true ⟨true, true, true, true⟩, n ∈ (rustDecls ++ rustDecls64).map Prod.fst := by decide
  exact ⟨h1 n, h2 n⟩

/-! ## examples -/

/-- x86-64 -/
example : (⟨2, 4, 8⟩ : Abi).Ok ∧ struct (rustHasher ⟨2, 4, 8⟩) = ⟨1816, 8⟩ ∧ struct (cHasher ⟨2, 4, 8⟩) = ⟨1848, 8⟩ :=
  ⟨⟨Or.inr rfl, Or.inr (Or.inr rfl), Or.inr (Or.inr (Or.inr rfl))⟩, by decide, by decide⟩

/-- 32-bit x86 -/
example : (⟨2, 4, 4⟩ : Abi).Ok ∧ struct (rustHasher ⟨2, 4, 4⟩) = ⟨1808, 4⟩ ∧ struct (cHasher ⟨2, 4, 4⟩) = ⟨1840, 4⟩ :=
  ⟨⟨Or.inr rfl, Or.inr (Or.inr rfl), Or.inr (Or.inr (Or.inl rfl))⟩, by decide, by decide⟩

/-- in the order of the text, `ChunkState` of the reference implementation has a hole before `flags` -/
example : place 0 (refChunkState ⟨2, 4, 8⟩) = [0, 32, 40, 104, 105, 108] ∧ struct (refChunkState ⟨2, 4, 8⟩) = ⟨112, 8⟩ := by decide

/-- memory with different padding -/
example (x y : Byte) (r : Bytes) : members (rustChunkState ⟨2, 4, 8⟩) (List.replicate 140 0 ++ x :: r) =
    members (rustChunkState ⟨2, 4, 8⟩) (List.replicate 140 0 ++ y :: r) := rfl

end Baokeshed.Props
