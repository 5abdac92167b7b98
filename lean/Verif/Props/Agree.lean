import Verif.Model.PythonCompare
import Verif.Props.Cli
import Verif.Props.Python
import Verif.Props.CHasher
import Verif.Props.Xof
import Verif.Props.OneShot
import Verif.Props.RustTest

/-!
# C61: all implementations agree

The theorems compare the implementations with each other; the specification occurs in none of the statements, apart from
the names of the modes.
-/

set_option linter.unusedVariables false

namespace Baokeshed.Props
open Baokeshed.Model Baokeshed.Proofs

attribute [local irreducible] Spec.compress Spec.outBytes Spec.cvBytes Spec.pad

theorem digits_eq : ∀ x : Byte, [("0123456789abcdef".toList).getD (x.toNat >>> 4) ' ', ("0123456789abcdef".toList).getD (x.toNat &&& 15) ' '] =
    [Nat.digitChar (x.toNat / 16), Nat.digitChar (x.toNat % 16)] := by decide +kernel

theorem py_to_hex_eq (b : Bytes) : Py.to_hex b = Spec.hex b := by
  rw [Py.to_hex, Spec.hex]
  exact congrArg (b.flatMap ·) (funext digits_eq)

theorem arg_digits : ∀ x : Byte, asText (Py.arg [Nat.digitChar (x.toNat / 16), Nat.digitChar (x.toNat % 16)]) =
      [Nat.digitChar (x.toNat / 16), Nat.digitChar (x.toNat % 16)] ∧
    Spec.digitValue (Nat.digitChar (x.toNat / 16)) = some (x.toNat / 16) ∧
    Spec.digitValue (Nat.digitChar (x.toNat % 16)) = some (x.toNat % 16) := by decide +kernel

theorem hex_cons (x : Byte) (b : Bytes) :
    Spec.hex (x :: b) = [Nat.digitChar (x.toNat / 16), Nat.digitChar (x.toNat % 16)] ++ Spec.hex b := rfl

theorem asText_arg (b : Bytes) : asText (Py.arg (Spec.hex b)) = Spec.hex b := by
  induction b with
  | nil => rfl
  | cons x b ih =>
    rw [hex_cons, Py.arg, List.map_append, asText, List.map_append]
    exact congr (congrArg _ (arg_digits x).1) ih

theorem unhex_hex (b : Bytes) : Spec.unhex (Spec.hex b) = some b := by
  induction b with
  | nil => rfl
  | cons x b ih =>
    rw [hex_cons]
    show Spec.unhex (_ :: _ :: Spec.hex b) = _
    rw [Spec.unhex, (arg_digits x).2.1, (arg_digits x).2.2, ih]
    dsimp only
    rw [Nat.div_add_mod, BitVec.ofNat_toNat, BitVec.setWidth_eq]

/-- the argument that the test passes as the key -/
theorem unhex_arg (b : Bytes) : Spec.unhex (asText (Py.arg (Py.to_hex b))) = some b := by
  rw [py_to_hex_eq, asText_arg, unhex_hex]

theorem hex_no_newline (b : Bytes) : ∀ c ∈ Spec.hex b, c ≠ '\n' := by
  have h : ∀ x : Byte, ∀ c ∈ [Nat.digitChar (x.toNat / 16), Nat.digitChar (x.toNat % 16)], c ≠ '\n' := by decide +kernel
  intro c hc
  rw [Spec.hex, List.mem_flatMap] at hc
  obtain ⟨x, -, hx⟩ := hc
  exact h x c hx

/-- what duct returns for the output of the program -/
theorem read_hex (b : Bytes) : Py.read (.ok ⟨Spec.hex b ++ ['\n'], 0⟩) = .ok (Spec.hex b) := by
  rw [Py.read, bind_ok]
  show Except.ok _ = _
  have h : ∀ l : List Char, (∀ c ∈ l, c ≠ '\n') → l.dropWhile (· == '\n') = l := by
    intro l hl
    cases l with
    | nil => rfl
    | cons c l => rw [List.dropWhile_cons_of_neg]; simpa using hl c (List.mem_cons_self ..)
  rw [List.reverse_append, List.reverse_singleton, List.singleton_append, List.dropWhile_cons_of_pos (by rfl),
    h _ (fun c hc => hex_no_newline b c (List.mem_reverse.1 hc)), List.reverse_reverse]

/-- C61.  For every input that standard input delivers in any pieces, every key and every length the program of
baokeshed_bin prints the hexadecimal form of what baokeshed.py returns, in all three modes. -/
theorem C61_python_eq_program (cfg : Config) (hv : cfg.Valid) (prof : Profile) (env : Cli.Env) (pipe : Bytes → List ReadEvent)
    (key : Vector Byte 32) (len : Nat) (hlen : len < 2 ^ 63) (input : Bytes) (hl : input.length < 2 ^ 64)
    (segs : List Bytes) (rest : List ReadEvent) (hp : Reads (COPY_BUF_LEN cfg) (pipe input) segs (.ok ()) rest)
    (hs : segs.flatten = input) :
    Py.compare_case cfg prof env pipe key.toList len input = .ok () := by
  subst hs
  have hlen' : (BitVec.ofNat 64 len).toNat = len := by
    rw [BitVec.toNat_ofNat, Nat.mod_eq_of_lt (by omega)]
  have main : ∀ k d m, Asks ⟨[], k, d, some (BitVec.ofNat 64 len)⟩ m →
      Py.read (Cli.main cfg prof env ⟨[], k, d, some (BitVec.ofNat 64 len)⟩ (pipe segs.flatten)) =
        .ok (Spec.hex (Spec.output m segs.flatten len)) := by
    intro k d m ha
    have h := C25_stdin cfg hv prof env _ m (pipe segs.flatten) rest segs (.ok ()) ha rfl
      (by show (BitVec.ofNat 64 len).toNat < _; omega) hp hl
    rw [h]
    show Py.read (.ok ⟨Spec.hex (Spec.output m segs.flatten (BitVec.ofNat 64 len).toNat) ++ ['\n'], 0⟩) = _
    rw [hlen', read_hex]
  have eq : ∀ a : List Char, Py.assertEq a a = .ok () := fun a => if_pos rfl
  have e1 := C14_python .hash segs.flatten len
  have e2 := C14_python (.keyedHash key) segs.flatten len
  have e3 := C14_python (.deriveKey key) segs.flatten len
  simp only [pyHash] at e1 e2 e3
  rw [Py.compare_case]
  rw [main none none .hash .hash, bind_ok, e1, bind_ok, py_to_hex_eq, eq, bind_ok,
    main _ none (.keyedHash key) (.keyed (unhex_arg _)), bind_ok, e2, bind_ok, py_to_hex_eq, eq, bind_ok,
    main none _ (.deriveKey key) (.derive (unhex_arg _)), bind_ok, e3, bind_ok, py_to_hex_eq, eq]

theorem to_bytes_ok (len n : Nat) (h : n < 256 ^ len) : ∃ b, Py.to_bytes len n = .ok b ∧ b.length = len := by
  induction len generalizing n with
  | zero => exact ⟨[], by rw [Py.to_bytes, if_pos (by omega)], rfl⟩
  | succ len ih =>
    obtain ⟨b, e, hb⟩ := ih (n / 256) (by rw [Nat.pow_succ] at h; omega)
    exact ⟨_, by rw [Py.to_bytes, e, bind_ok]; rfl, by simp [hb]⟩

theorem make_loop_ok (length : Nat) : ∀ (n counter : Nat) (buf : Bytes), length ≤ buf.length + n → buf.length ≤ length →
    4 * counter + length ≤ buf.length + 4 * 2 ^ 32 → ∃ b, Py.make_test_input_loop length n counter buf = .ok b ∧ b.length = length := by
  intro n
  induction n with
  | zero => intro counter buf h h' _; exact ⟨buf, rfl, by omega⟩
  | succ n ih =>
    intro counter buf h h' hc
    rw [Py.make_test_input_loop]
    split
    next hlt =>
      obtain ⟨b, e, hb⟩ := to_bytes_ok 4 counter (by omega)
      have hs : (Py.slice b 0 (min 4 (length - buf.length))).length = min 4 (length - buf.length) := by
        rw [Py.slice, List.drop_zero, List.length_take]; omega
      obtain ⟨r, e', hr⟩ := ih (counter + 1) (buf ++ Py.slice b 0 (min 4 (length - buf.length)))
        (by rw [List.length_append, hs]; omega) (by rw [List.length_append, hs]; omega)
        (by rw [List.length_append, hs]; omega)
      exact ⟨r, by rw [e, bind_ok]; exact e', hr⟩
    next => exact ⟨buf, rfl, by omega⟩

theorem make_ok (length : Nat) (h : length ≤ 4 * (2 ^ 32 - 1)) : ∃ b, Py.make_test_input length = .ok b ∧ b.length = length :=
  make_loop_ok length length 1 [] (by simp) (by simp) (by simp; omega)

theorem make_loop_pattern (length : Nat) (hl : length ≤ 4 * (2 ^ 32 - 2)) : ∀ (n counter : Nat) (buf : Bytes), buf = pattern buf.length →
    length ≤ buf.length + n → buf.length ≤ length → (buf.length < length → buf.length + 4 = 4 * counter) →
    Py.make_test_input_loop length n counter buf = .ok (pattern length) := by
  intro n
  induction n with
  | zero =>
    intro counter buf hb h h' _
    have e : buf.length = length := by omega
    rw [e] at hb
    rw [Py.make_test_input_loop, hb]
  | succ n ih =>
    intro counter buf hb h h' hc
    rw [Py.make_test_input_loop]
    split
    next hlt =>
      have h4 := hc hlt
      obtain ⟨c, rfl⟩ : ∃ c, counter = c + 1 := ⟨counter - 1, by omega⟩
      have ho : buf.length = 4 * c := by omega
      have e := to_bytes_word (BitVec.ofNat 32 (c + 1))
      rw [BitVec.toNat_ofNat, Nat.mod_eq_of_lt (by omega)] at e
      rw [e, bind_ok]
      dsimp only
      obtain ⟨t, ht⟩ : ∃ t, t = min 4 (length - buf.length) := ⟨_, rfl⟩
      rw [← ht, Py.slice, List.drop_zero]
      have hl' : ((leBytes (BitVec.ofNat 32 (c + 1))).take t).length = t := by
        rw [List.length_take, show (leBytes (BitVec.ofNat 32 (c + 1))).length = 4 from rfl]; omega
      refine ih _ _ ?_ ?_ ?_ ?_ <;> rw [List.length_append, hl']
      · rw [ho, pattern_step c t (by omega) (by omega), ← ho, ← hb]
      · omega
      · omega
      · omega
    next =>
      have e : buf.length = length := by omega
      rw [e] at hb
      rw [hb]

/-- C61.  The inputs of the Python test are those of the Rust tests: the numbers 1, 2, 3, … with four bytes each, as in C64_paint. -/
theorem C61_test_input (buf : Bytes) (h : buf.length ≤ 4 * (2 ^ 32 - 2)) :
    Py.make_test_input buf.length = RT.paint_test_input buf ∧ Py.make_test_input buf.length = .ok (pattern buf.length) := by
  have e := make_loop_pattern buf.length h buf.length 1 [] rfl (by simp) (by simp) (by simp)
  exact ⟨e.trans (C64_paint buf h).symm, e⟩

/-- C61.  `test_compare_to_rust` passes whatever the cases, as far as `make_test_input` can count. -/
theorem C61_test_passes (cfg : Config) (hv : cfg.Valid) (prof : Profile) (env : Cli.Env) (pipe : Bytes → List ReadEvent)
    (hp : ∀ b, ∃ segs rest, Reads (COPY_BUF_LEN cfg) (pipe b) segs (.ok ()) rest ∧ segs.flatten = b)
    (cases : List Nat) (hc : ∀ c ∈ cases, c ≤ 4 * (2 ^ 32 - 1)) :
    Py.test_compare_to_rust cfg prof env pipe cases = .ok () := by
  obtain ⟨k, ek, hk⟩ := make_ok 32 (by omega)
  rw [Py.test_compare_to_rust, ek, bind_ok]
  induction cases with
  | nil => rfl
  | cons c cs ih =>
    obtain ⟨b, eb, hb⟩ := make_ok c (hc c (List.mem_cons_self ..))
    obtain ⟨segs, rest, hr, hs⟩ := hp b
    have := hc c (List.mem_cons_self ..)
    have h1 := C61_python_eq_program cfg hv prof env pipe ⟨k.toArray, by simpa using hk⟩ 303 (by omega) b (by omega) segs rest hr hs
    rw [show (Vector.mk k.toArray _ : Vector Byte 32).toList = k from rfl] at h1
    rw [Py.compare_cases, eb, bind_ok, h1, bind_ok]
    exact ih (fun c h => hc c (List.mem_cons_of_mem _ h))

/-- the key of the test: the bytes 1 0 0 0 2 0 0 0 … 8 0 0 0 -/
example : Py.make_test_input 32 = .ok ([1, 2, 3, 4, 5, 6, 7, 8].flatMap fun x => [x, 0, 0, 0]) :=
  (C61_test_input (List.replicate 32 0) (by rw [List.length_replicate]; decide)).2

/-- the cases of the test -/
example : ∀ c ∈ [0, 1, 63, 64, 65, 2047, 2048, 2049, 4095, 4096, 4097, 3 * 2048, 4 * 2048, 5 * 2048], c ≤ 4 * (2 ^ 32 - 1) := by
  decide

/-- a pipe that delivers one byte at a time -/
example (cfg : Config) : ∀ b : Bytes, ∃ segs rest,
    Reads (COPY_BUF_LEN cfg) (b.map fun x => .ok 1 [x]) segs (.ok ()) rest ∧ segs.flatten = b := by
  intro b
  induction b with
  | nil => exact ⟨[], [], .done, rfl⟩
  | cons x b ih =>
    obtain ⟨segs, rest, h, hs⟩ := ih
    refine ⟨[x] :: segs, rest, .data [x] (by simp) ?_ h, by rw [List.flatten_cons, hs]; rfl⟩
    have : 8192 ≤ COPY_BUF_LEN cfg := by
      unfold COPY_BUF_LEN
      unfold WIDE_BUF_LEN MAX_SIMD_DEGREE
      cases cfg.x86 <;> decide
    exact Nat.le_trans (by simp : [x].length ≤ 8192) this

theorem output_take (m : Spec.Mode) (x : Bytes) {n k : Nat} (h : n ≤ k) :
    (Spec.output m x k).take n = Spec.output m x n := by
  rw [Spec.output, Spec.output, ← List.map_take, List.take_range, Nat.min_eq_left h]

/-- C61.  One-shot functions, incremental hasher, reference implementation, Python, command line program and C hasher,
each with the input divided in its own way, give the same `n` bytes (the C hasher always 32). -/
theorem C61_agree (cfg : Config) (hv : cfg.Valid) (prof : Profile) (m : Spec.Mode) (input : Bytes) (hf : cfg.Fits input.length)
    (n : Nat) (hn : n < 2 ^ 63) :
    ∃ y : Bytes, y.length = n ∧ pyHash m input n = .ok y ∧
      (∀ ss out, ss.flatten = input → out.length = n → RefProgram m ss out = .ok y) ∧
      (∃ o, oneShotXof cfg m input = .ok o ∧ ∀ k, n ≤ 64 * k → k ≤ 2 ^ 58 - 1 →
        ∃ b o', o.readMany prof k = .ok (b, o') ∧ b.take n = y) ∧
      (∀ ss, ss.flatten = input → ∃ h o, (newHasher cfg m).updates cfg ss = .ok h ∧ h.finalize_xof = .ok o ∧
        ∀ k, n ≤ 64 * k → k ≤ 2 ^ 58 - 1 → ∃ b o', o.readMany prof k = .ok (b, o') ∧ b.take n = y) ∧
      (∀ env args stdin segs rest, Asks args m → args.inputs = [] → (args.length.getD 32).toNat = n →
        Reads (COPY_BUF_LEN cfg) stdin segs (.ok ()) rest → segs.flatten = input →
        Cli.main cfg prof env args stdin = .ok ⟨Py.to_hex y ++ ['\n'], 0⟩) ∧
      (n = 32 → (∃ d, oneShot cfg m input = .ok d ∧ d.toList = y) ∧
        (∀ ss, ss.flatten = input → ∃ h d, (newHasher cfg m).updates cfg ss = .ok h ∧ h.finalize = .ok d ∧ d.toList = y) ∧
        ∀ (cc : C.Config) mem ss out, 16 ≤ cc.bits → mem.length = C.OUT_LEN * C.MAX_DEPTH → fed ss = input → NeonLittle cc →
          out.length = 32 → ∃ h h', C.hasher_init mem (modeKey m).toList m.flag = .ok h ∧ feed cc h ss = .ok h' ∧
            C.hasher_finalize cc h' out = .ok y) := by
  have h63 : input.length < 2 ^ 63 := by
    have h1 : 2 ^ (cfg.usizeBits - 1) ≤ 2 ^ 63 := Nat.pow_le_pow_right (by decide) (by have := hv.2; omega)
    exact Nat.lt_of_lt_of_le hf h1
  refine ⟨Spec.output m input n, ?_, C14_python m input n, ?_, ?_, ?_, ?_, ?_⟩
  · obtain ⟨r, e, hr⟩ := C14_length m input n
    rw [C14_python] at e
    rw [Except.ok.inj e, hr]
  · intro ss out hs ho
    rw [C13_reference m ss out (by rw [hs]; omega) (by omega), hs, ho]
  · obtain ⟨o, e, h⟩ := C04_reads cfg hv m input hf prof
    refine ⟨o, e, fun k hk hk' => ?_⟩
    obtain ⟨o', e'⟩ := h k hk'
    exact ⟨_, o', e', output_take m input hk⟩
  · intro ss hs
    obtain ⟨h, o, e, e', hh⟩ := C02_finalize_xof cfg m ss (by rw [hs]; omega) prof
    refine ⟨h, o, e, e', fun k hk hk' => ?_⟩
    obtain ⟨o', e'⟩ := hh k hk'
    exact ⟨_, o', e', by rw [hs]; exact output_take m input hk⟩
  · intro env args stdin segs rest ha h0 hl hr hs
    rw [C25_stdin cfg hv prof env args m stdin rest segs (.ok ()) ha h0 (by omega) hr (by rw [hs]; omega)]
    dsimp only
    rw [hs, hl, py_to_hex_eq]
  · rintro rfl
    refine ⟨⟨_, C01_one_shot_eq_spec cfg hv m input hf, by rw [hash_toList, output_eq_slice]⟩, ?_, ?_⟩
    · intro ss hs
      obtain ⟨h, e, e'⟩ := C02_finalize cfg m ss (by rw [hs]; omega)
      exact ⟨h, _, e, e', by rw [hs, hash_toList, output_eq_slice]⟩
    · intro cc mem ss out h16 hmem hs hn ho
      obtain ⟨h, h', e, e', e''⟩ := C29_c_hasher cc h16 mem hmem (modeKey m) [] m.flag ss (by rw [hs]; omega) (fun _ => Or.inl (by rw [hs]; omega)) (Or.inl hn) out (by omega)
      rw [List.append_nil] at e
      refine ⟨h, h', e, e', ?_⟩
      rw [e'', keyedTree_mode, hs, List.drop_of_length_le (by omega), List.append_nil, hash_toList, output_eq_slice]

-- 5003 bytes, and 100 bytes of output
example : exAvx2.Valid ∧ exAvx2.Fits (rep 5003 1).length ∧ 100 < 2 ^ 63 ∧ NeonLittle exC ∧
    [rep 5000 1, rep 3 1].flatten = rep 5003 1 := by
  refine ⟨exAvx2_valid, by simp [Config.Fits, exAvx2], by decide, fun _ => rfl, ?_⟩
  rw [List.flatten_cons, List.flatten_cons, List.flatten_nil, List.append_nil]
  exact List.replicate_append_replicate

end Baokeshed.Props
