import Verif.Model.UnitTest
import Verif.Props.RustTest
import Verif.Props.Copy
import Verif.Props.Cli

/-!
# C67: the tests of copy.rs and of the program pass for every input

The theorems about the program allow any bytes on standard input, delivered in any pieces and with interruptions, any
files, and any key; the tests are the cases `foo`, `bar`, `baz` and `context`.
-/

set_option linter.unusedVariables false
set_option linter.unusedSimpArgs false

namespace Baokeshed.Props
open Baokeshed.Model Baokeshed.Proofs

attribute [local irreducible] Spec.compress Spec.outBytes Spec.cvBytes Spec.pad

/-! ## copy.rs -/

theorem sliceReads_ok (n : Nat) (hn : 0 < n) (src : Bytes) :
    ∃ segs, Reads n (UT.sliceReads n src) segs (.ok ()) [] ∧ segs.flatten = src := by
  induction hl : src.length using Nat.strongRecOn generalizing src with
  | ind l ih =>
  rw [UT.sliceReads]
  split
  next h =>
    obtain ⟨segs, hr, e⟩ := ih (src.drop n).length (by rw [List.length_drop]; omega) (src.drop n) rfl
    refine ⟨src.take n :: segs, .data _ ?_ (by rw [List.length_take]; omega) hr, ?_⟩
    · intro h0
      have := congrArg List.length h0
      rw [List.length_take, List.length_nil] at this
      omega
    · rw [List.flatten_cons, e, List.take_append_drop]
  next h =>
    have : src = [] := List.eq_nil_of_length_eq_zero (by omega)
    subst this
    exact ⟨[], .done, rfl⟩

theorem copy_buf_pos (cfg : Config) : 0 < COPY_BUF_LEN cfg := by
  simp only [COPY_BUF_LEN, WIDE_BUF_LEN, MAX_SIMD_DEGREE, CHUNK_LEN, STD_DEFAULT_BUF_LEN]
  split
  · next h => simp [h]
  · decide

/-- C67.  `copy::tests::test_copy_wide` for every source -/
theorem C67_copy_wide (cfg : Config) (src : Bytes) (hl : src.length < 2 ^ 64) : UT.copy_wide_on cfg src = .ok () := by
  obtain ⟨segs, hr, e⟩ := sliceReads_ok (COPY_BUF_LEN cfg) (copy_buf_pos cfg) src
  rw [UT.copy_wide_on, show UT.vecWriter = collect from rfl, C20_collect cfg [] _ _ _ _ hr (by rwa [e]), bind_ok, e]
  exact assertEq_self _

/-- C67.  `copy::tests::test_copy_wide` -/
theorem C67_test_copy_wide (cfg : Config) : UT.test_copy_wide cfg = .ok () := by
  rw [UT.test_copy_wide, C64_paint _ (by rw [List.length_replicate]; decide), bind_ok]
  exact C67_copy_wide cfg _ (by rw [length_pattern, List.length_replicate]; decide)

/-- C67.  `copy::tests::test_copy_buffer_sizes` on every machine, if the buffer of `BufReader` has the size that copy.rs
writes down; and only then -/
theorem C67_copy_buffer_sizes (cfg : Config) (n : Nat) (hn : n ≤ 16384) :
    UT.test_copy_buffer_sizes cfg n = .ok () ↔ n = 8192 := by
  have hl : ((List.replicate (2 * STD_DEFAULT_BUF_LEN) (0 : Byte)).take n).length = n := by
    rw [List.length_take, List.length_replicate]
    simp only [STD_DEFAULT_BUF_LEN]
    omega
  unfold UT.test_copy_buffer_sizes
  dsimp only
  rw [hl, List.length_replicate]
  constructor
  · intro h
    by_cases hn : n = STD_DEFAULT_BUF_LEN
    · exact hn
    · rw [RT.assertEq, if_neg hn] at h
      cases h
  · rintro rfl
    rw [RT.assertEq, if_pos (by decide), bind_ok, assertR, if_pos (by decide), bind_ok, assertR, if_pos (by
      simp only [COPY_BUF_LEN, WIDE_BUF_LEN, MAX_SIMD_DEGREE, CHUNK_LEN, STD_DEFAULT_BUF_LEN]
      split
      · next h => simp [h]
      · decide), bind_ok, assertR, if_pos (by
      simp only [COPY_BUF_LEN, WIDE_BUF_LEN, MAX_SIMD_DEGREE, CHUNK_LEN, STD_DEFAULT_BUF_LEN]
      split
      · next h => simp [h]
      · next h => simp [h]), bind_ok, RT.assertEq, if_pos (by
      simp only [COPY_BUF_LEN, WIDE_BUF_LEN, MAX_SIMD_DEGREE, CHUNK_LEN, STD_DEFAULT_BUF_LEN]
      split
      · next h => simp [h]
      · next h => simp [h])]

/-! ## the program -/

theorem hexEncode_eq (bs : Bytes) : UT.hexEncode bs = .ok (hexOf bs) := by
  induction bs with
  | nil => rfl
  | cons b bs ih =>
    rw [UT.hexEncode, tableAt_eq _ (shift_lt b), bind_ok, tableAt_eq _ (mask_lt b), bind_ok, ih, bind_ok, hexOf_cons]
    rfl

theorem table_arg : ∀ i : Fin 16,
    Char.ofNat (BitVec.ofNat 8 (hexTable[i.val]'i.isLt).toNat).toNat = hexTable[i.val]'i.isLt := by decide

theorem asText_utArg (bs : Bytes) : asText (UT.asArg (hexOf bs)) = hexOf bs := by
  induction bs with
  | nil => rfl
  | cons b bs ih =>
    rw [hexOf_cons]
    refine congr (congrArg List.cons (table_arg ⟨_, Nat.mod_lt _ (by decide)⟩)) ?_
    exact congr (congrArg List.cons (table_arg ⟨_, Nat.mod_lt _ (by decide)⟩)) ih

theorem trim_line (s : List Char) (c : Char) (h : (c == '\n' || c == '\r') = false) :
    (((s ++ [c]) ++ ['\n']).reverse.dropWhile fun c => c == '\n' || c == '\r').reverse = s ++ [c] := by
  rw [List.reverse_append, List.reverse_singleton, List.singleton_append, List.dropWhile_cons_of_pos (by rfl), List.reverse_append,
    List.reverse_singleton, List.singleton_append, List.dropWhile_cons_of_neg (by rw [h]; decide), List.reverse_cons,
    List.reverse_reverse]

theorem table_line : ∀ i : Fin 16,
    ((hexTable[i.val]'i.isLt) == '\n' || (hexTable[i.val]'i.isLt) == '\r') = false := by decide

theorem trim_hex (bs : Bytes) (h : bs ≠ []) :
    ((hexOf bs ++ ['\n']).reverse.dropWhile fun c => c == '\n' || c == '\r').reverse = hexOf bs := by
  obtain ⟨as, b, rfl⟩ : ∃ as b, bs = as ++ [b] := ⟨_, _, (List.dropLast_concat_getLast h).symm⟩
  have e : ∃ s i, hexOf (as ++ [b]) = s ++ [hexTable[(i : Fin 16).val]'i.isLt] := by
    refine ⟨hexOf as ++ [hexTable[(b >>> 4).toNat % 16]'(Nat.mod_lt _ (by decide))],
      ⟨(b &&& 0xf).toNat % 16, Nat.mod_lt _ (by decide)⟩, ?_⟩
    rw [hexOf_append, List.append_assoc]
    rfl
  obtain ⟨s, i, e⟩ := e
  rw [e]
  exact trim_line s _ (table_line i)

/-- what the program prints for standard input, read by the test -/
theorem run_stdin (cfg : Config) (hv : cfg.Valid) (prof : Profile) (env : Cli.Env) (args : Cli.Args) (m : Spec.Mode)
    (stdin rest : List ReadEvent) (segs : List Bytes) (hm : Asks args m) (h0 : args.inputs = [])
    (hl : (args.length.getD 32).toNat < 2 ^ 63) (hp : 0 < (args.length.getD 32).toNat)
    (hs : Reads (COPY_BUF_LEN cfg) stdin segs (.ok ()) rest) (hlen : segs.flatten.length < 2 ^ 64) :
    UT.runAndRead cfg prof env args stdin = .ok (hexOf (slice m segs.flatten 0 (args.length.getD 32).toNat)) := by
  rw [UT.runAndRead, C25_stdin cfg hv prof env args m stdin rest segs (.ok ()) hm h0 hl hs hlen, bind_ok]
  dsimp only
  rw [assertR, if_pos rfl, bind_ok, ← hexOf_eq, output_eq_slice, trim_hex _ (by
    intro h
    have := congrArg List.length h
    rw [slice, List.length_map, List.length_range, List.length_nil] at this
    omega)]
  rfl

/-- C67.  `test_hash_one` for every input, in any pieces -/
theorem C67_cli_hash_one (cfg : Config) (hv : cfg.Valid) (prof : Profile) (env : Cli.Env) (stdin rest : List ReadEvent)
    (segs : List Bytes) (hs : Reads (COPY_BUF_LEN cfg) stdin segs (.ok ()) rest) (hf : cfg.Fits segs.flatten.length) :
    UT.cli_hash_one_on cfg prof env segs.flatten stdin = .ok () := by
  rw [UT.cli_hash_one_on, show hash cfg segs.flatten = _ from (api_eq cfg hv .hash _ hf).1, bind_ok, to_hex_eq, bind_ok,
    run_stdin cfg hv prof env _ .hash stdin rest segs .hash rfl (by decide) (by decide) hs (fits64 hv hf), bind_ok, hash_toList]
  exact assertEq_self _

/-- C67.  `test_hash_key` for every key and input -/
theorem C67_cli_hash_key (cfg : Config) (hv : cfg.Valid) (prof : Profile) (env : Cli.Env) (key : Vector Byte 32)
    (stdin rest : List ReadEvent) (segs : List Bytes) (hs : Reads (COPY_BUF_LEN cfg) stdin segs (.ok ()) rest)
    (hf : cfg.Fits segs.flatten.length) : UT.cli_hash_key_on cfg prof env key segs.flatten stdin = .ok () := by
  rw [UT.cli_hash_key_on, show keyed_hash cfg key segs.flatten = _ from (api_eq cfg hv (.keyedHash key) _ hf).1, bind_ok, to_hex_eq,
    bind_ok, hexEncode_eq, bind_ok, run_stdin cfg hv prof env ⟨[], some (UT.asArg (hexOf key.toList)), none, none⟩ (.keyedHash key) stdin rest segs
      (.keyed (by rw [asText_utArg, unhex_hexOf])) rfl (show (32 : U64).toNat < 2 ^ 63 by decide)
      (show 0 < (32 : U64).toNat by decide) hs (fits64 hv hf), bind_ok, hash_toList]
  exact assertEq_self _

/-- C67.  `test_derive_key` for every key and input -/
theorem C67_cli_derive_key (cfg : Config) (hv : cfg.Valid) (prof : Profile) (env : Cli.Env) (key : Vector Byte 32)
    (stdin rest : List ReadEvent) (segs : List Bytes) (hs : Reads (COPY_BUF_LEN cfg) stdin segs (.ok ()) rest)
    (hf : cfg.Fits segs.flatten.length) : UT.cli_derive_key_on cfg prof env key segs.flatten stdin = .ok () := by
  obtain ⟨-, ⟨o, e, eo, -⟩, -⟩ := api_eq cfg hv (.deriveKey key) _ hf
  rw [UT.cli_derive_key_on, show derive_key_xof cfg key segs.flatten = _ from e, bind_ok, eo, to_hex_eq,
    bind_ok, hexEncode_eq, bind_ok, run_stdin cfg hv prof env ⟨[], none, some (UT.asArg (hexOf key.toList)), none⟩ (.deriveKey key) stdin rest segs
      (.derive (by rw [asText_utArg, unhex_hexOf])) rfl (show (32 : U64).toNat < 2 ^ 63 by decide)
      (show 0 < (32 : U64).toNat by decide) hs (fits64 hv hf), bind_ok, hash_toList]
  exact assertEq_self _

/-- C67.  `test_hash_length` for every input -/
theorem C67_cli_hash_length (cfg : Config) (hv : cfg.Valid) (prof : Profile) (env : Cli.Env) (stdin rest : List ReadEvent)
    (segs : List Bytes) (hs : Reads (COPY_BUF_LEN cfg) stdin segs (.ok ()) rest) (hf : cfg.Fits segs.flatten.length) :
    UT.cli_hash_length_on cfg prof env segs.flatten stdin = .ok () := by
  obtain ⟨-, -, h, o, e1, -, e2, -, ho⟩ := api_eq cfg hv .hash _ hf
  have e3 := ho.read prof (.inr (by decide))
  have e4 := ho.next.read prof (.inr (by decide))
  rw [UT.cli_hash_length_on, show (Hasher.new cfg).update cfg segs.flatten = _ from e1, bind_ok, e2, bind_ok, e3, bind_ok]
  dsimp only
  rw [hexEncode_eq, bind_ok, e4, bind_ok]
  dsimp only
  rw [sliceTo, if_pos (by rw [Vector.length_toList]; decide), bind_ok, hexEncode_eq, bind_ok,
    run_stdin cfg hv prof env _ .hash stdin rest segs .hash rfl (by decide) (by decide) hs (fits64 hv hf), bind_ok]
  have e : slice .hash segs.flatten 0 ((Option.getD (some (100 : U64)) 32).toNat) =
      (Spec.streamBlock .hash segs.flatten 0).toList ++ (Spec.streamBlock .hash segs.flatten (0 + 1)).toList.take 36 := by
    rw [show (Option.getD (some (100 : U64)) 32).toNat = 64 + 36 from rfl, slice_append, show 0 = 64 * 0 from rfl,
      slice_block _ _ _ _ (by decide), List.take_of_length_le (by rw [Vector.length_toList]; decide),
      show 64 * 0 + 64 = 64 * (0 + 1) from rfl, slice_block _ _ _ _ (by decide)]
  rw [e, hexOf_append]
  exact assertEq_self _

/-- C67.  `test_hash_many` for every two files and every input -/
theorem C67_cli_hash_many (cfg : Config) (hv : cfg.Valid) (prof : Profile) (env : Cli.Env) (file1 file2 : List Char)
    (f1 f2 : Cli.File) (foo bar : Bytes) (stdin rest : List ReadEvent) (segs : List Bytes)
    (h1 : file1 ≠ ['-']) (h2 : file2 ≠ ['-']) (o1 : env.openFile file1 = .ok f1) (o2 : env.openFile file2 = .ok f2)
    (g1 : Gives cfg f1 (.ok foo)) (g2 : Gives cfg f2 (.ok bar)) (hs : Reads (COPY_BUF_LEN cfg) stdin segs (.ok ()) rest)
    (hf1 : cfg.Fits foo.length) (hf2 : cfg.Fits bar.length) (hf : cfg.Fits segs.flatten.length) :
    UT.cli_hash_many_on cfg prof env file1 file2 foo bar segs.flatten stdin = .ok () := by
  have hall : ServesAll cfg env [file1, file2, "-".toList] stdin [.ok foo, .ok bar, .ok segs.flatten] :=
    .cons (.file h1 o1 g1) (.cons (.file h2 o2 g2) (.cons (.stdin (e := .ok ()) (.inr rfl) hs (fits64 hv hf)) .nil))
  have hx : ∀ b, Spec.hex (Spec.output .hash b 32) = hexOf (slice .hash b 0 32) := fun b => by rw [← hexOf_eq, output_eq_slice]
  have e := C25_main cfg hv prof env ⟨[file1, file2, "-".toList], none, none, none⟩ .hash stdin _ .hash (by simp)
    (show (32 : U64).toNat < 2 ^ 63 by decide) hall
  rw [UT.cli_hash_many_on, UT.runAndRead, e, bind_ok]
  dsimp only
  rw [assertR, if_pos (by rfl), bind_ok]
  have et : (List.zipWith (lineFor .hash (Option.getD (none : Option U64) 32).toNat
      (decide (1 < [file1, file2, "-".toList].length))) [file1, file2, "-".toList]
        [.ok foo, .ok bar, .ok segs.flatten]).flatten =
      ((hexOf (slice .hash foo 0 32) ++ "  ".toList ++ file1 ++ "\n".toList ++ hexOf (slice .hash bar 0 32) ++ "  ".toList ++ file2 ++
        "\n".toList ++ hexOf (slice .hash segs.flatten 0 32) ++ "  ".toList) ++ ['-']) ++ ['\n'] := by
    rw [show (Option.getD (none : Option U64) 32).toNat = 32 from rfl]
    simp only [List.zipWith_cons_cons, List.zipWith_nil_left, lineFor_ok, hx, List.flatten_cons, List.flatten_nil]
    simp
  rw [et, trim_line _ _ (by decide)]
  simp only [pure_eq]
  rw [bind_ok, show hash cfg foo = _ from (api_eq cfg hv .hash _ hf1).1, bind_ok, show hash cfg bar = _ from (api_eq cfg hv .hash _ hf2).1,
    bind_ok, show hash cfg segs.flatten = _ from (api_eq cfg hv .hash _ hf).1, bind_ok, to_hex_eq, bind_ok, to_hex_eq, bind_ok, to_hex_eq,
    bind_ok, hash_toList, hash_toList, hash_toList]
  rw [RT.assertEq, if_pos (by simp)]

/-- C67.  The five tests of the program, however the few bytes arrive, and whatever the paths of the two files -/
theorem C67_cli_tests (cfg : Config) (hv : cfg.Valid) (h8 : 8 ≤ cfg.usizeBits) (prof : Profile) (env : Cli.Env)
    (file1 file2 : List Char) (f1 f2 : Cli.File) (h1 : file1 ≠ ['-']) (h2 : file2 ≠ ['-'])
    (o1 : env.openFile file1 = .ok f1) (o2 : env.openFile file2 = .ok f2)
    (g1 : Gives cfg f1 (.ok (UT.lit "foo"))) (g2 : Gives cfg f2 (.ok (UT.lit "bar")))
    (foo baz context rest rest' rest'' : List ReadEvent) (s s' s'' : List Bytes)
    (hs : Reads (COPY_BUF_LEN cfg) foo s (.ok ()) rest) (e : s.flatten = UT.lit "foo")
    (hs' : Reads (COPY_BUF_LEN cfg) baz s' (.ok ()) rest') (e' : s'.flatten = UT.lit "baz")
    (hs'' : Reads (COPY_BUF_LEN cfg) context s'' (.ok ()) rest'') (e'' : s''.flatten = UT.lit "context") :
    UT.cli_test_hash_one cfg prof env foo = .ok () ∧
    UT.cli_test_hash_many cfg prof env file1 file2 baz = .ok () ∧
    UT.cli_test_hash_length cfg prof env foo = .ok () ∧
    UT.cli_test_hash_key cfg prof env foo = .ok () ∧
    UT.cli_test_derive_key cfg prof env context = .ok () := by
  have hf : ∀ b : Bytes, b.length ≤ 7 → cfg.Fits b.length := fun b hb =>
    Nat.lt_of_lt_of_le (show b.length < 2 ^ 7 by omega) (Nat.pow_le_pow_right (by decide) (by omega))
  have l : (UT.lit "foo").length ≤ 7 ∧ (UT.lit "bar").length ≤ 7 ∧ (UT.lit "baz").length ≤ 7 ∧
    (UT.lit "context").length ≤ 7 := by decide
  have a := C67_cli_hash_one cfg hv prof env foo rest s hs (by rw [e]; exact hf _ l.1)
  have b := C67_cli_hash_many cfg hv prof env file1 file2 f1 f2 _ _ baz rest' s' h1 h2 o1 o2 g1 g2 hs' (hf _ l.1) (hf _ l.2.1)
    (by rw [e']; exact hf _ l.2.2.1)
  have c := C67_cli_hash_length cfg hv prof env foo rest s hs (by rw [e]; exact hf _ l.1)
  have d := C67_cli_hash_key cfg hv prof env (Vector.replicate 32 42) foo rest s hs (by rw [e]; exact hf _ l.1)
  have f := C67_cli_derive_key cfg hv prof env (Vector.replicate 32 99) context rest'' s'' hs'' (by rw [e'']; exact hf _ l.2.2.2)
  rw [e] at a c d
  rw [e'] at b
  rw [e''] at f
  exact ⟨a, b, c, d, f⟩

-- `foo` in two pieces with an interruption, `file1` with the bytes `foo`
example : Reads (COPY_BUF_LEN exAvx2) [.ok 1 [102], .err .interrupted, .ok 2 [111, 111]] [[102], [111, 111]] (.ok ()) [] :=
  .data [102] (by decide) (by decide) (.retry (.data [111, 111] (by decide) (by decide) .done))
example : [[102], [111, 111]].flatten = UT.lit "foo" := by decide
example : Gives exAvx2 (exFile (UT.lit "foo")) (.ok (UT.lit "foo")) :=
  .contents ⟨true, 3⟩ [UT.lit "foo"] [] rfl (.data _ (by decide) (by decide) .done) (by decide) (fun _ => ⟨rfl, rfl⟩)
example : exAvx2.Valid ∧ 8 ≤ exAvx2.usizeBits ∧ "/tmp/file1".toList ≠ ['-'] := by
  refine ⟨by simp, by decide, by decide⟩

end Baokeshed.Props
