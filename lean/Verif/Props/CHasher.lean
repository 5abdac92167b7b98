import Verif.Proofs.C.Hasher
import Verif.Props.Hasher

/-!
# C29, C30, C38: the C hasher and its Rust wrapper

`C.Config` is a build: which SIMD back ends are compiled in, whether there is a hardware population
count, whether `assert` is enabled, the width of `size_t`, the contents of uninitialised memory, and the
byte order of the host.
-/

set_option linter.unusedVariables false

namespace Baokeshed.Props
open Baokeshed.Model Baokeshed.Proofs

/-- The specified hash for an arbitrary key and arbitrary flags: the first 32 bytes of output of the root
of the tree. -/
def keyedTree (key : Vector Byte 32) (flags : Byte) (input : Bytes) : Vector Byte 32 :=
  let n := Spec.subtree (Spec.Mode.keyedHash key).key flags 0 input
  Spec.cvBytes (Spec.compress { n with flags := n.flags ||| Spec.rootFlag })

/-- The key bytes with which a caller of the C code selects a mode.  (The C code
has no constructor for the default mode: its caller passes the bytes of the initialization vector.) -/
def modeKey : Spec.Mode → Vector Byte 32
  | .hash => Spec.cvBytes (Vector.ofFn Spec.iv)
  | .keyedHash k | .deriveKey k => k

/-- A sequence of calls of `hasher_update`.  Each passes a pointer to a piece of input, followed in memory
by something else, and the length of the piece. -/
def feed (cfg : C.Config) : C.hasher → List (Bytes × Bytes) → R C.hasher
  | h, [] => .ok h
  | h, (piece, beyond) :: ss => do
    let h ← C.hasher_update cfg h (piece ++ beyond) piece.length
    feed cfg h ss

/-- everything passed to the hasher -/
def fed (ss : List (Bytes × Bytes)) : Bytes := (ss.map Prod.fst).flatten

theorem fed_nil : fed [] = [] := rfl
theorem fed_cons (s : Bytes × Bytes) (ss : List (Bytes × Bytes)) : fed (s :: ss) = s.1 ++ fed ss := rfl

theorem keyWords (k : Vector Byte 32) : words_from_key_bytes k = (Spec.Mode.keyedHash k).key := key_words_eq k

theorem keyWords_iv : (Spec.Mode.keyedHash (modeKey .hash)).key = Vector.ofFn Spec.iv := by decide

attribute [local irreducible] Spec.compress Spec.cvBytes Spec.outBytes

theorem keyedTree_mode (m : Spec.Mode) (input : Bytes) : keyedTree (modeKey m) m.flag input = Spec.hash m input := by
  have hk : (Spec.Mode.keyedHash (modeKey m)).key = m.key := by
    cases m with
    | hash => exact keyWords_iv
    | keyedHash k => rfl
    | deriveKey k => rfl
  refine Vector.toList_inj.1 ?_
  have e := slice_block m input 0 32 (by decide)
  have hr : { Spec.root m input with offset := BitVec.ofNat 64 (64 * 0) } = Spec.root m input := by
    rw [show BitVec.ofNat 64 (64 * 0) = (Spec.root m input).offset from (root_offset m input).symm]
  rw [hash_toList, e, Spec.streamBlock, outBytes_take, hr, keyedTree, hk]
  rfl

/-- the room of the C struct suffices for every input -/
theorem room_c {M : Nat} (hM : 1696 ≤ M) {t n : Nat} (ht : t < 2 ^ 64) (h : 2048 * (n + 1) ≤ t) :
    32 * (popcount n + 1) ≤ M := by
  have := popcount_53 (n := n) (by omega)
  omega

theorem room_ffi {M : Nat} (hM : 1664 ≤ M) {t n : Nat} (ht : t < 2 ^ 63) (h : 2048 * (n + 1) ≤ t) :
    32 * (popcount n + 1) ≤ M := by
  have := C.popcount_lt (n := n) (k := 52) (by omega)
  omega

/-- The NEON code is not compiled in, or the host is little-endian.  (On other hosts it is wrong: C53.) -/
def NeonLittle (cfg : C.Config) : Prop := cfg.neon = true → cfg.order = .little

/-- What may be passed to a hasher whose `subtree_hashes` has `M` bytes. -/
structure FeedOk (cfg : C.Config) (M : Nat) (before : Nat) (ss : List (Bytes × Bytes)) : Prop where
  lt : before + (fed ss).length < 2 ^ 64
  room : 1696 ≤ M ∨ 1664 ≤ M ∧ before + (fed ss).length < 2 ^ 63
  asserts : cfg.asserts = true → before + (fed ss).length < 2 ^ 63 + 2048 ∨ ∀ s ∈ ss, s.1.length < 2048
  order : NeonLittle cfg ∨ ∀ s ∈ ss, s.1.length < 2048

theorem feed_ok (cfg : C.Config) (h16 : 16 ≤ cfg.bits) {key : Vector Word 8} {flags : Byte} {M : Nat} {p : Platform}
    (ss : List (Bytes × Bytes)) : ∀ (bytes : Bytes) (h : C.hasher), C.COk key flags M p bytes h →
    FeedOk cfg M bytes.length ss → ∃ h', feed cfg h ss = .ok h' ∧ C.COk key flags M p (bytes ++ fed ss) h' := by
  induction ss with
  | nil => intro bytes h hok _; exact ⟨h, rfl, by rw [fed_nil, List.append_nil]; exact hok⟩
  | cons s ss ih =>
    obtain ⟨piece, beyond⟩ := s
    intro bytes h hok hf
    have hl := hf.lt
    have hr := hf.room
    have ha := hf.asserts
    have hn := hf.order
    simp only [fed_cons, List.length_append] at hl hr ha
    obtain ⟨h1, e1, hok1⟩ := C.update_sim key flags h16 bytes piece beyond h hok (by omega)
      (fun n hn => by
        rcases hr with hr | ⟨hr, hr'⟩
        · exact room_c hr (by omega) hn
        · exact room_ffi (t := bytes.length + piece.length) hr (by omega) hn)
      (fun hA => by
        rcases ha hA with h | h
        · left
          intro n hn
          have := C.popcount_lt (n := n - 1) (k := 52) (by omega)
          omega
        · exact Or.inr (h _ List.mem_cons_self))
      (hn.imp_right fun h => h _ List.mem_cons_self)
    obtain ⟨h2, e2, hok2⟩ := ih (bytes ++ piece) h1 hok1 ⟨by rw [List.length_append]; omega, by
      rw [List.length_append]; omega, fun hA => by
        rw [List.length_append]
        rcases ha hA with h | h
        · left; omega
        · exact Or.inr fun s hs => h s (List.mem_cons_of_mem _ hs), hn.imp_right fun h s hs => h s (List.mem_cons_of_mem _ hs)⟩
    exact ⟨h2, by rw [feed, e1, bind_ok, e2], by rw [fed_cons, ← List.append_assoc]; exact hok2⟩

theorem arrayRef_toList {α} {n : Nat} (v : Vector α n) : arrayRef v.toList 0 n = .ok v := by
  obtain ⟨w, e, hw⟩ := arrayRef_take v.toList n (by simp)
  rw [e]
  refine congrArg Except.ok (Vector.toList_inj.1 ?_)
  rw [hw, List.take_of_length_le (by simp)]

/-- a build with every SIMD back end and assertions, 64 bits -/
def exC : C.Config := ⟨true, true, true, true, true, true, 64, fun i => BitVec.ofNat 8 i, .little⟩
/-- a portable build without assertions, 32 bits, big-endian -/
def exC32 : C.Config := ⟨false, false, false, false, false, false, 32, fun _ => 0xff, .bigA64⟩

/-- C29.  The C hasher, with `mem` the uninitialised memory of `subtree_hashes` in the C struct, returns the
specified hash of everything it was given.  It stays within its objects; `out` beyond 32 bytes is left
alone. -/
theorem C29_c_hasher (cfg : C.Config) (h16 : 16 ≤ cfg.bits) (mem : Bytes) (hmem : mem.length = C.OUT_LEN * C.MAX_DEPTH)
    (key : Vector Byte 32) (beyond : Bytes) (flags : Byte) (ss : List (Bytes × Bytes)) (hlt : (fed ss).length < 2 ^ 64)
    (ha : cfg.asserts = true → (fed ss).length < 2 ^ 63 + 2048 ∨ ∀ s ∈ ss, s.1.length < 2048)
    (hn : NeonLittle cfg ∨ ∀ s ∈ ss, s.1.length < 2048)
    (out : Bytes) (ho : 32 ≤ out.length) :
    ∃ h₀ h, C.hasher_init mem (key.toList ++ beyond) flags = .ok h₀ ∧ feed cfg h₀ ss = .ok h ∧
      C.hasher_finalize cfg h out = .ok ((keyedTree key flags (fed ss)).toList ++ out.drop 32) := by
  obtain ⟨h0, e0, hok0⟩ := C.init_ok mem key beyond flags
  obtain ⟨h1, e1, hok1⟩ := feed_ok cfg h16 ss [] h0 hok0 ⟨by simpa using hlt, Or.inl (by rw [hmem]; decide), by simpa using ha, hn⟩
  refine ⟨h0, h1, e0, e1, ?_⟩
  rw [C.finalize_sim _ _ h16 _ h1 hok1 (by simpa using hlt) out ho, List.nil_append, keyWords]
  rfl

-- three pieces, with and without something behind them; the second build takes nearly 2^64 bytes
example : 16 ≤ exC.bits ∧ (rep 1696 9).length = C.OUT_LEN * C.MAX_DEPTH ∧
    (fed [(rep 5000 1, [7]), ([], []), (rep 2048 2, [])]).length < 2 ^ 63 + 2048 ∧
    NeonLittle exC ∧ NeonLittle exC32 ∧ 16 ≤ exC32.bits ∧ (fed [(rep (2 ^ 64 - 10) 1, [7]), (rep 2 2, [])]).length < 2 ^ 64 ∧ exC32.asserts = false := by
  simp [NeonLittle, exC, exC32, fed, C.OUT_LEN, C.MAX_DEPTH]

/-- C29.  In the three modes of the library this is the specified hash. -/
theorem C29_modes (cfg : C.Config) (h16 : 16 ≤ cfg.bits) (mem : Bytes) (hmem : mem.length = C.OUT_LEN * C.MAX_DEPTH)
    (m : Spec.Mode) (ss : List (Bytes × Bytes)) (hlt : (fed ss).length < 2 ^ 64)
    (ha : cfg.asserts = true → (fed ss).length < 2 ^ 63 + 2048 ∨ ∀ s ∈ ss, s.1.length < 2048)
    (hn : NeonLittle cfg ∨ ∀ s ∈ ss, s.1.length < 2048)
    (out : Vector Byte 32) :
    ∃ h₀ h, C.hasher_init mem (modeKey m).toList m.flag = .ok h₀ ∧ feed cfg h₀ ss = .ok h ∧
      C.hasher_finalize cfg h out.toList = .ok (Spec.hash m (fed ss)).toList := by
  obtain ⟨h0, h1, e0, e1, e2⟩ := C29_c_hasher cfg h16 mem hmem (modeKey m) [] m.flag ss hlt ha hn out.toList (by simp)
  rw [List.append_nil] at e0
  refine ⟨h0, h1, e0, e1, ?_⟩
  rw [e2, keyedTree_mode, List.drop_of_length_le (by simp), List.append_nil]

/-- C29.  The wrapper in src/c.rs, on inputs below 2^63 bytes: it returns what the Rust hasher returns for
the same input, however either is split. -/
theorem C29_wrapper_eq_rust (cfg : C.Config) (h16 : 16 ≤ cfg.bits) (rcfg : Config) (mem : Vector Byte 1664)
    (m : Spec.Mode) (ss : List (Bytes × Bytes)) (ss' : List Bytes) (hlt : (fed ss).length < 2 ^ 63)
    (he : ss'.flatten = fed ss) (hn : NeonLittle cfg ∨ ∀ s ∈ ss, s.1.length < 2048) :
    ∃ h₀ h r, C.Ffi.new mem (modeKey m) m.flag = .ok h₀ ∧ feed cfg h₀ ss = .ok h ∧
      (newHasher rcfg m).updates rcfg ss' = .ok r ∧
      ∃ d, C.Ffi.finalize cfg h = .ok d ∧ r.finalize = .ok d ∧ d = Spec.hash m (fed ss) := by
  obtain ⟨h0, e0, hok0⟩ := C.init_ok mem.toList (modeKey m) [] m.flag
  obtain ⟨h1, e1, hok1⟩ := feed_ok cfg h16 ss [] h0 hok0 ⟨by simp; omega, Or.inr ⟨by simp, by simpa using hlt⟩, fun _ => by
    left; rw [List.length_nil]; omega, hn⟩
  obtain ⟨r, er, hr⟩ := C02_finalize rcfg m ss' (by rw [he]; omega)
  rw [List.append_nil] at e0
  refine ⟨h0, h1, r, e0, e1, er, _, ?_, hr, by rw [he]⟩
  have e2 := C.finalize_sim _ _ h16 _ h1 hok1 (by simp; omega) (List.replicate C.OUT_LEN 0) (by simp)
  rw [C.Ffi.finalize, e2, bind_ok, List.nil_append, keyWords, he]
  rw [← keyedTree_mode m (fed ss)]
  have hl : ((keyedTree (modeKey m) m.flag (fed ss)).toList ++ (List.replicate C.OUT_LEN (0 : Byte)).drop 32) =
      (keyedTree (modeKey m) m.flag (fed ss)).toList := by
    rw [List.drop_of_length_le (by simp), List.append_nil]
  refine (congrArg (fun l => arrayRef l 0 C.OUT_LEN) hl).trans ?_
  exact arrayRef_toList _

/-- C30.  With assertions enabled, an update that takes a hasher from less than 2^63 bytes to 2^63 + 2048 bytes
or more aborts.  (Without assertions it succeeds, by C29; and the Rust hasher accepts it, by C02.) -/
theorem C30_aborts (cfg : C.Config) (h16 : 16 ≤ cfg.bits) (hn : NeonLittle cfg) (ha : cfg.asserts = true) (mem : Bytes)
    (hmem : mem.length = C.OUT_LEN * C.MAX_DEPTH) (key : Vector Byte 32) (beyond : Bytes) (flags : Byte)
    (ss : List (Bytes × Bytes)) (h₀ h : C.hasher) (e₀ : C.hasher_init mem (key.toList ++ beyond) flags = .ok h₀)
    (e : feed cfg h₀ ss = .ok h) (hbefore : (fed ss).length < 2 ^ 63) (piece after : Bytes)
    (hafter : 2 ^ 63 + 2048 ≤ (fed ss).length + piece.length) (hlt : (fed ss).length + piece.length < 2 ^ 64) :
    C.hasher_update cfg h (piece ++ after) piece.length = .error .assert := by
  obtain ⟨h0, e0, hok0⟩ := C.init_ok mem key beyond flags
  cases e₀.symm.trans e0
  obtain ⟨h1, e1, hok1⟩ := feed_ok cfg h16 ss [] h₀ hok0 ⟨by rw [List.length_nil]; omega, Or.inl (by rw [hmem]; decide),
    fun _ => by left; rw [List.length_nil]; omega, Or.inl hn⟩
  cases e.symm.trans e1
  refine C.update_fail _ _ hn h16 (C.failAt_assert _ _ ha) _ piece after h hok1 (by simpa using hlt) (by decide) ?_ (by
    rw [List.nil_append]; omega) (Or.inl (by rw [List.nil_append]; omega))
  intro n hn
  have h1 := C.popcount_lt (n := n - 1) (k := 52) (by omega)
  have h2 := (popcount_le (n := n) (k := 52) hn).1
  exact ⟨fun _ => by omega, by rw [hmem]; simp only [C.OUT_LEN, C.MAX_DEPTH]; omega⟩

-- all at once, and after 2047 bytes
example : ∃ h₀, C.hasher_init (rep 1696 9) (Vector.replicate 32 5).toList 16 = .ok h₀ ∧ feed exC h₀ [] = .ok h₀ ∧
    2 ^ 63 + 2048 ≤ (fed []).length + (rep (2 ^ 63 + 2048) 1).length := by
  obtain ⟨h, e, -⟩ := C.init_ok (rep 1696 9) (Vector.replicate 32 5) [] 16
  rw [List.append_nil] at e
  exact ⟨h, e, rfl, by simp [fed]⟩

example : ∃ h₀ h, C.hasher_init (rep 1696 9) ((Vector.replicate 32 5).toList ++ []) 16 = .ok h₀ ∧
    feed exC h₀ [(rep 2047 1, [])] = .ok h ∧
    (fed [(rep 2047 1, [])]).length + (rep (2 ^ 63 + 1) 1).length = 2 ^ 63 + 2048 := by
  obtain ⟨h0, h, e0, e1, -⟩ := C29_c_hasher exC (by simp [exC]) (rep 1696 9) (by simp [C.OUT_LEN, C.MAX_DEPTH])
    (Vector.replicate 32 5) [] 16 [(rep 2047 1, [])] (by simp [fed]) (by simp [fed]) (Or.inl fun _ => rfl) (rep 32 0) (by simp)
  exact ⟨h0, h, e0, e1, by simp [fed]⟩

/-- C30.  Nothing else aborts: an update whose assertion fails belongs to an input of at least 2^63 + 2048 bytes,
and the update itself passes 2048 bytes or more. -/
theorem C30_only_then (cfg : C.Config) (h16 : 16 ≤ cfg.bits) (hn : NeonLittle cfg) (mem : Bytes)
    (hmem : mem.length = C.OUT_LEN * C.MAX_DEPTH) (key : Vector Byte 32) (beyond : Bytes) (flags : Byte)
    (ss : List (Bytes × Bytes)) (h₀ : C.hasher) (e₀ : C.hasher_init mem (key.toList ++ beyond) flags = .ok h₀)
    (hlt : (fed ss).length < 2 ^ 64) (err : Panic) (e : feed cfg h₀ ss = .error err) :
    cfg.asserts = true ∧ 2 ^ 63 + 2048 ≤ (fed ss).length ∧ ∃ s ∈ ss, 2048 ≤ s.1.length := by
  obtain ⟨h0, e0, hok0⟩ := C.init_ok mem key beyond flags
  cases e₀.symm.trans e0
  by_cases hc : cfg.asserts = true → (fed ss).length < 2 ^ 63 + 2048 ∨ ∀ s ∈ ss, s.1.length < 2048
  · obtain ⟨h1, e1, -⟩ := feed_ok cfg h16 ss [] h₀ hok0 ⟨by simpa using hlt, Or.inl (by rw [hmem]; decide), by simpa using hc, Or.inl hn⟩
    rw [e1] at e
    cases e
  · simp only [Classical.not_imp, not_or, Classical.not_forall, Nat.not_lt] at hc
    obtain ⟨h1, h2, s, hs, h3⟩ := hc
    exact ⟨h1, h2, s, hs, h3⟩

/-- C38.  The struct declared in src/c.rs has room for 52 entries only.  An update that takes its hasher from
less than 2^63 bytes to more than 2^63 bytes writes beyond its end.  (`mem` may include the 7 bytes of
padding at the end of the struct, for a total of 1671 bytes.) -/
theorem C38_overrun (cfg : C.Config) (h16 : 16 ≤ cfg.bits) (hn : NeonLittle cfg) (mem : Bytes)
    (h1664 : 1664 ≤ mem.length) (hmem : mem.length < 1696) (key : Vector Byte 32) (beyond : Bytes) (flags : Byte)
    (ss : List (Bytes × Bytes)) (h₀ h : C.hasher) (e₀ : C.hasher_init mem (key.toList ++ beyond) flags = .ok h₀)
    (e : feed cfg h₀ ss = .ok h) (hbefore : (fed ss).length < 2 ^ 63) (piece after : Bytes)
    (hafter : 2 ^ 63 < (fed ss).length + piece.length) (hlt : (fed ss).length + piece.length < 2 ^ 64) :
    C.hasher_update cfg h (piece ++ after) piece.length = .error .ub := by
  obtain ⟨h0, e0, hok0⟩ := C.init_ok mem key beyond flags
  cases e₀.symm.trans e0
  obtain ⟨h1, e1, hok1⟩ := feed_ok cfg h16 ss [] h₀ hok0 ⟨by rw [List.length_nil]; omega,
    Or.inr ⟨by omega, by rw [List.length_nil]; omega⟩, fun _ => by left; rw [List.length_nil]; omega, Or.inl hn⟩
  cases e.symm.trans e1
  refine C.update_fail _ _ hn h16 (C.failAt_ub _ _ h16 (by omega)) _ piece after h hok1 (by simpa using hlt) (by decide) ?_ (by
    rw [List.nil_append]; omega) (Or.inr ⟨by rw [C.popcount_ones 52]; omega, rfl, by rw [List.nil_append]; omega, by rw [List.nil_append]; omega⟩)
  intro n hn
  have h1 := C.popcount_lt (n := n - 1) (k := 52) (by omega)
  have h2 := C.popcount_lt (n := n) (k := 52) (by omega)
  exact ⟨fun _ => by omega, by omega⟩

/-- C38, for the functions of the wrapper.  Below 2^63 bytes it is safe, by C29. -/
theorem C38_wrapper_overrun (cfg : C.Config) (h16 : 16 ≤ cfg.bits) (hn : NeonLittle cfg) (mem : Vector Byte 1664) (key : Vector Byte 32)
    (flags : Byte) (input : Bytes) (h63 : 2 ^ 63 < input.length) (hlt : input.length < 2 ^ 64) :
    ∃ h, C.Ffi.new mem key flags = .ok h ∧ C.Ffi.update cfg h input = .error .ub := by
  obtain ⟨h, e, -⟩ := C.init_ok mem.toList key [] flags
  refine ⟨h, by rw [List.append_nil] at e; exact e, ?_⟩
  have := C38_overrun cfg h16 hn mem.toList (by simp) (by simp) key [] flags [] h h e rfl (by simp [fed]) input []
    (by simpa [fed] using h63) (by simpa [fed] using hlt)
  rwa [List.append_nil] at this

example : 2 ^ 63 < (rep (2 ^ 63 + 1) 1).length ∧ (rep (2 ^ 63 + 1) 1).length < 2 ^ 64 := by simp

end Baokeshed.Props
