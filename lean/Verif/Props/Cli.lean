import Verif.Proofs.Cli

/-!
# C23 - C27: the command line program

`Gives` and `Serves` describe, without reference to the program, what opening and reading an
argument yields: the bytes of the input, or an I/O error.
-/

set_option linter.unusedVariables false

namespace Baokeshed.Props
open Baokeshed.Model Baokeshed.Model.Cli Baokeshed.Proofs

attribute [local irreducible] Spec.compress Spec.outBytes Spec.cvBytes Spec.pad

/-! ## Printing: C23, C24 -/

/-- `o` is the output of the specified hash, nothing read yet: every read gives the next block of the
stream. -/
def IsOutput (o : Output) (m : Spec.Mode) (input : Bytes) : Prop :=
  ∀ prof n, n ≤ 2 ^ 58 - 1 → ∃ o', o.readMany prof n = .ok (Spec.output m input (64 * n), o')

theorem print_hex_at {o : Output} {m : Spec.Mode} {input : Bytes} (ho : OutAt o m input 0) (prof : Profile) (len : U64)
    (hl : len.toNat < 2 ^ 63) : ∃ o', print_hex prof o len = .ok (Spec.hex (Spec.output m input len.toNat), o') := by
  have h2 : (2 * len).toNat = 2 * len.toNat := by
    rw [BitVec.toNat_mul, show (2 : U64).toNat = 2 from rfl, Nat.mod_eq_of_lt (by omega)]
  obtain ⟨o', e⟩ := print_hex_loop_eq prof len.toNat ho (Or.inr (by omega)) []
  refine ⟨o', ?_⟩
  rw [List.nil_append, hexOf_eq, Nat.mul_zero, ← output_eq_slice, ← h2] at e
  rw [← e]
  cases prof with
  | debug => rw [print_hex, mulU64, if_pos (by rw [show (2 : U64).toNat = 2 from rfl]; omega), bind_ok]
  | release => rfl

/-- C23.  For every input of every one-shot function: the text printed for a length below 2^63 is the
lower-case hexadecimal text of that many bytes of the specified stream. -/
theorem C23_print_hex (cfg : Config) (hv : cfg.Valid) (m : Spec.Mode) (input : Bytes) (hf : cfg.Fits input.length)
    (prof : Profile) (len : U64) (hl : len.toNat < 2 ^ 63) :
    ∃ o s o', oneShotXof cfg m input = .ok o ∧ print_hex prof o len = .ok (s, o') ∧
      Spec.IsHexOf s (Spec.output m input len.toNat) := by
  obtain ⟨o, e, -, ho⟩ := oneShotXof_eq cfg m input hv hf
  obtain ⟨o', e'⟩ := print_hex_at (OutAt.zero ho) prof len hl
  exact ⟨o, _, o', e, e', by rw [← hexOf_eq]; exact hexOf_isHexOf _⟩

example : exAvx2.Valid ∧ exAvx2.Fits (rep 5000 1).length ∧ (100 : U64).toNat < 2 ^ 63 := by simp

/-- C24.  For a length of 2^63 or more, a build without overflow checks prints only
`2 * length - 2^64` digits, those of the first `length - 2^63` bytes. -/
theorem C24_release (cfg : Config) (hv : cfg.Valid) (m : Spec.Mode) (input : Bytes) (hf : cfg.Fits input.length)
    (len : U64) (hl : 2 ^ 63 ≤ len.toNat) :
    ∃ o s o', oneShotXof cfg m input = .ok o ∧ print_hex .release o len = .ok (s, o') ∧
      Spec.IsHexOf s (Spec.output m input (len.toNat - 2 ^ 63)) ∧ s.length + 2 ^ 64 = 2 * len.toNat := by
  obtain ⟨o, e, -, ho⟩ := oneShotXof_eq cfg m input hv hf
  have hlt := len.isLt
  have h2 : (2 * len).toNat = 2 * (len.toNat - 2 ^ 63) := by
    rw [BitVec.toNat_mul, show (2 : U64).toNat = 2 from rfl]; omega
  obtain ⟨o', e'⟩ := print_hex_loop_eq .release (len.toNat - 2 ^ 63) (OutAt.zero ho) (Or.inl rfl) []
  rw [List.nil_append, Nat.mul_zero, ← output_eq_slice, ← h2] at e'
  refine ⟨o, _, o', e, e', hexOf_isHexOf _, ?_⟩
  rw [length_hexOf, Spec.output, List.length_map, List.length_range]
  omega

/-- C24.  With overflow checks the program panics instead, before printing anything. -/
theorem C24_debug (o : Output) (len : U64) (hl : 2 ^ 63 ≤ len.toNat) : print_hex .debug o len = .error .overflow := by
  rw [print_hex, mulU64, if_neg (by rw [show (2 : U64).toNat = 2 from rfl]; omega)]
  rfl

example : 2 ^ 63 ≤ (0x8000000000000001 : U64).toNat := by decide

/-! ## Keys: C26 -/

/-- C26.  A `--key` (or, alone, a `--derive-key`) argument is accepted exactly when it denotes 32 bytes
in hexadecimal, and then these bytes are the key. -/
theorem C26_key (args : Args) (s : Bytes) (hs : args.key.or args.deriveKey = some s) (k : Vector Byte 32) :
    parseKey args = .ok (some k) ↔ Spec.unhex (asText s) = some k.toList := by
  rw [parseKey, hs]
  dsimp only
  rw [hexDecode_eq]
  cases h : Spec.unhex (asText s) with
  | none => constructor <;> (intro h; cases h)
  | some bs =>
    dsimp only
    split
    next hl =>
      constructor
      · intro h; cases h
      · intro h; exact absurd (by rw [Option.some.inj h, Vector.length_toList]) hl
    next hl =>
      constructor
      · intro h; have := Option.some.inj (Except.ok.inj h); rw [← this]; rfl
      · intro h
        refine congrArg (fun x => Except.ok (some x)) ?_
        apply Vector.toList_inj.1
        rw [← Option.some.inj h]; rfl

/-- C26.  In terms of the characters: 64 of them, all hexadecimal digits of either case. -/
theorem C26_digits (args : Args) (s : Bytes) (hs : args.key.or args.deriveKey = some s) :
    (∃ k, parseKey args = .ok k) ↔ s.length = 64 ∧ ∀ c ∈ asText s, (Spec.digitValue c).isSome := by
  have hlen : (asText s).length = s.length := List.length_map ..
  constructor
  · rintro ⟨k, hk⟩
    cases k with
    | none =>
      exfalso
      rw [parseKey, hs] at hk
      dsimp only at hk
      split at hk
      · cases hk
      · split at hk <;> cases hk
    | some k =>
      have h := (C26_key args s hs k).1 hk
      have hl := unhex_length _ _ h
      rw [Vector.length_toList] at hl
      exact ⟨by omega, (unhex_isSome _ (by omega)).1 (by rw [h]; rfl)⟩
  · rintro ⟨hl, hd⟩
    obtain ⟨bs, hb⟩ := Option.isSome_iff_exists.1 ((unhex_isSome _ (by omega)).2 hd)
    have := unhex_length _ _ hb
    have hbl : bs.length = 32 := by omega
    exact ⟨some ⟨bs.toArray, by simpa using hbl⟩, (C26_key args s hs _).2 hb⟩

/-- C26.  With a key argument that is not accepted the program prints nothing on standard output and
exits with status 1, whatever the inputs. -/
theorem C26_reject (cfg : Config) (prof : Profile) (env : Env) (args : Args) (stdin : List ReadEvent) (s : Bytes)
    (hs : args.key.or args.deriveKey = some s)
    (hbad : ¬ (s.length = 64 ∧ ∀ c ∈ asText s, (Spec.digitValue c).isSome)) :
    Cli.main cfg prof env args stdin = .ok ⟨[], 1⟩ := by
  rw [Cli.main]
  dsimp only
  cases h : parseKey args with
  | error e => rfl
  | ok k => exact absurd ((C26_digits args s hs).1 ⟨k, h⟩) hbad

-- a key of 64 digits of mixed case; one with a bad digit
example : (rep 63 0x41 ++ [0x61]).length = 64 ∧ ∀ c ∈ asText (rep 63 0x41 ++ [0x61]), (Spec.digitValue c).isSome := by
  decide +kernel
example : ¬ ∀ c ∈ asText (rep 63 0x41 ++ [0x67]), (Spec.digitValue c).isSome := by decide +kernel

/-- The mode that the arguments ask for (not both of `--key` and `--derive-key`). -/
inductive Asks : Args → Spec.Mode → Prop where
  | hash {inputs length} : Asks ⟨inputs, none, none, length⟩ .hash
  | keyed {inputs length s k} : Spec.unhex (asText s) = some (Vector.toList k) →
      Asks ⟨inputs, some s, none, length⟩ (.keyedHash k)
  | derive {inputs length s k} : Spec.unhex (asText s) = some (Vector.toList k) →
      Asks ⟨inputs, none, some s, length⟩ (.deriveKey k)

/-! ## Inputs: C27 -/

/-- What reading the open file `f` gives.  A regular file has its length in its metadata and its
bytes in its map; other files need not. -/
inductive Gives (cfg : Config) (f : Cli.File) : Except IoError Bytes → Prop where
  /-- the contents -/
  | contents (md : Metadata) (segs : List Bytes) (rest : List ReadEvent) :
      f.metadata = .ok md → Reads (COPY_BUF_LEN cfg) f.reads segs (.ok ()) rest → segs.flatten.length < 2 ^ 64 →
      (md.isFile = true → md.len.toNat = segs.flatten.length ∧ f.map md.len.toNat = .ok segs.flatten) →
      Gives cfg f (.ok segs.flatten)
  /-- no metadata -/
  | noMetadata (e : IoError) : f.metadata = .error e → Gives cfg f (.error e)
  /-- a regular file of a length that fits a memory map, which cannot be mapped: there is no fallback
  to reading it -/
  | noMap (md : Metadata) (e : IoError) : f.metadata = .ok md → md.isFile = true →
      0 < md.len.toNat → cfg.Fits md.len.toNat → f.map md.len.toNat = .error e → Gives cfg f (.error e)
  /-- something else, with a read error (for instance a directory) -/
  | noRead (md : Metadata) (segs : List Bytes) (e : IoError) (rest : List ReadEvent) :
      f.metadata = .ok md → (md.isFile = true → md.len.toNat = 0 ∨ ¬ cfg.Fits md.len.toNat) →
      Reads (COPY_BUF_LEN cfg) f.reads segs (.error e) rest → segs.flatten.length < 2 ^ 64 → Gives cfg f (.error e)

/-- What an argument gives (`none`: no argument, standard input) and what is left of standard input. -/
inductive Serves (cfg : Config) (env : Env) :
    Option (List Char) → List ReadEvent → Except IoError Bytes → List ReadEvent → Prop where
  | noFile {path stdin e} : path ≠ ['-'] → env.openFile path = .error e → Serves cfg env (some path) stdin (.error e) stdin
  | file {path stdin f r} : path ≠ ['-'] → env.openFile path = .ok f → Gives cfg f r → Serves cfg env (some path) stdin r stdin
  | stdin {path stdin segs e rest} : path = none ∨ path = some ['-'] → Reads (COPY_BUF_LEN cfg) stdin segs e rest →
      segs.flatten.length < 2 ^ 64 → Serves cfg env path stdin (e.map fun _ => segs.flatten) rest

/-- the mode chosen in `hash_one` -/
def modeOf : Option (Vector Byte 32) → Bool → Spec.Mode
  | none, _ => .hash
  | some k, true => .deriveKey k
  | some k, false => .keyedHash k

theorem mapped_eq (cfg : Config) (key : Option (Vector Byte 32)) (d : Bool) (b : Bytes) :
    mapped cfg key d b = oneShotXof cfg (modeOf key d) b := by
  cases key <;> cases d <;> rfl

theorem streamed_eq (cfg : Config) (key : Option (Vector Byte 32)) (d : Bool) :
    streamed cfg key d = newHasher cfg (modeOf key d) := by
  cases key <;> cases d <;> rfl

/-- the result of `hash_one` that corresponds to what an argument gives -/
def Matches (m : Spec.Mode) : Except IoError Bytes → Except Cli.Error Output → Prop
  | .ok c, r => ∃ o, r = .ok o ∧ toInput o = Spec.root m c
  | .error e, r => r = .error (.io e)

theorem stream_matches (cfg : Config) (m : Spec.Mode) {es : List ReadEvent} {segs : List Bytes}
    {e : Except IoError Unit} {rest : List ReadEvent} (hr : Reads (COPY_BUF_LEN cfg) es segs e rest)
    (hl : segs.flatten.length < 2 ^ 64) :
    ∃ h, copy_wide cfg (hasherWriter cfg) es (newHasher cfg m) =
        .ok (e.map fun _ => BitVec.ofNat 64 segs.flatten.length, h, rest) ∧
      ∃ o, h.finalize_xof = .ok o ∧ toInput o = Spec.root m segs.flatten := by
  obtain ⟨h, e1, hh⟩ := copy_hasher cfg m es rest segs e hr (HasherAt.new cfg m) (by rw [List.length_nil]; omega)
  obtain ⟨o, e2, -, ho⟩ := hh.finalize_xof
  exact ⟨h, e1, o, e2, ho⟩

theorem hash_one_stream (cfg : Config) (env : Env) (path : Option (List Char)) (key : Option (Vector Byte 32)) (d : Bool)
    (stdin : List ReadEvent) (input : Cli.Input) (ho : open_input env path = .ok input)
    (hm : maybe_memmap_input cfg input = .ok none) {segs : List Bytes} {e : Except IoError Unit} {rest : List ReadEvent}
    (hr : Reads (COPY_BUF_LEN cfg) (input.reads stdin) segs e rest)
    (hl : segs.flatten.length < 2 ^ 64) :
    ∃ r, hash_one cfg env path key d stdin = .ok (r, input.stdinAfter stdin rest) ∧
      Matches (modeOf key d) (e.map fun _ => segs.flatten) r := by
  obtain ⟨h, e1, o, e2, e3⟩ := stream_matches cfg (modeOf key d) hr hl
  rw [hash_one, ho]
  dsimp only
  rw [hm]
  dsimp only
  rw [streamed_eq, e1, bind_ok]
  cases e with
  | error e => exact ⟨_, rfl, rfl⟩
  | ok u =>
    simp only [Except.map]
    rw [e2]
    exact ⟨_, rfl, o, rfl, e3⟩

theorem hash_one_serves (cfg : Config) (hv : cfg.Valid) (env : Env) (path : Option (List Char))
    (key : Option (Vector Byte 32)) (d : Bool) (stdin stdin' : List ReadEvent) (res : Except IoError Bytes)
    (hs : Serves cfg env path stdin res stdin') :
    ∃ r, hash_one cfg env path key d stdin = .ok (r, stdin') ∧ Matches (modeOf key d) res r := by
  induction hs with
  | @noFile path stdin e hp he =>
    have ho : open_input env (some path) = .error (.io e) := by
      rw [open_input, path_if_some_and_not_dash, if_neg hp]; dsimp only; rw [he]
    rw [hash_one, ho]
    exact ⟨_, rfl, rfl⟩
  | @stdin path stdin segs e rest hp hr hl =>
    have ho : open_input env path = .ok .stdin := by rcases hp with rfl | rfl <;> rfl
    exact hash_one_stream cfg env path key d stdin .stdin ho rfl hr hl
  | @file path stdin f r hp he hg =>
    have ho : open_input env (some path) = .ok (.file f) := by
      rw [open_input, path_if_some_and_not_dash, if_neg hp]; dsimp only; rw [he]
    cases hg with
    | noMetadata e hm =>
      rw [hash_one, ho]
      dsimp only
      rw [maybe_memmap_input, hm]
      exact ⟨_, rfl, rfl⟩
    | noRead md segs e rest hm hf hr hl =>
      have hmm : maybe_memmap_input cfg (.file f) = .ok none := by
        rw [maybe_memmap_input, hm]; dsimp only
        split
        · rfl
        next h1 =>
        split
        · rfl
        next h2 =>
        split
        · rfl
        next h3 =>
        exfalso
        rcases hf (by cases h : md.isFile; rw [h] at h1; exact absurd rfl h1; rfl) with h | h
        · exact h3 (BitVec.eq_of_toNat_eq h)
        · exact h (by show _ < _; have := Nat.two_pow_pos (cfg.usizeBits - 1); omega)
      exact hash_one_stream cfg env _ key d stdin (.file f) ho hmm hr hl
    | noMap md e hm hf h0 hfits hmap =>
      have hmm : maybe_memmap_input cfg (.file f) = .error (.io e) := by
        have h1 : md.len.toNat < 2 ^ (cfg.usizeBits - 1) := hfits
        rw [maybe_memmap_input, hm]; dsimp only
        rw [hf, if_neg (by decide), if_neg (by omega), if_neg (fun h => by rw [h] at h0; exact absurd h0 (by decide)), hmap]
      rw [hash_one, ho]
      dsimp only
      rw [hmm]
      exact ⟨_, rfl, rfl⟩
    | contents md segs rest hm hr hl hf =>
      by_cases hlen : md.isFile = false ∨ md.len.toNat > 2 ^ (cfg.usizeBits - 1) - 1 ∨ md.len = 0
      · have hmm : maybe_memmap_input cfg (.file f) = .ok none := by
          rw [maybe_memmap_input, hm]; dsimp only
          split
          · rfl
          split
          · rfl
          split
          · rfl
          rcases hlen with h | h | h
          · rename_i h1 _ _; rw [h] at h1; exact absurd rfl h1
          · rename_i h1 _; exact absurd h h1
          · rename_i h1; exact absurd h h1
        exact hash_one_stream cfg env _ key d stdin (.file f) ho hmm hr hl
      · have h1 : md.isFile = true := by
          cases h : md.isFile
          · exact absurd (.inl h) hlen
          · rfl
        obtain ⟨h2, h3⟩ := hf h1
        have hmm : maybe_memmap_input cfg (.file f) = .ok (some segs.flatten) := by
          rw [maybe_memmap_input, hm]; dsimp only
          rw [h1, if_neg (by decide), if_neg (fun h => hlen (.inr (.inl h))), if_neg (fun h => hlen (.inr (.inr h))), h3]
        have hfits : cfg.Fits segs.flatten.length := by
          have := Nat.two_pow_pos (cfg.usizeBits - 1)
          have h4 : ¬ md.len.toNat > 2 ^ (cfg.usizeBits - 1) - 1 := fun h => hlen (.inr (.inl h))
          show _ < _
          omega
        obtain ⟨o, e1, -, e2⟩ := oneShotXof_eq cfg (modeOf key d) _ hv hfits
        rw [hash_one, ho]
        dsimp only
        rw [hmm]
        dsimp only
        rw [mapped_eq, e1]
        exact ⟨_, rfl, o, rfl, e2⟩

/-- C27.  The result for an input depends on its bytes only: not on whether the input is standard
input, a regular file (mapped, if its length allows) or something else that is read in pieces, nor on
the sizes of the pieces. -/
theorem C27_mmap_eq_stream (cfg : Config) (hv : cfg.Valid) (env : Env) (path : Option (List Char))
    (key : Option (Vector Byte 32)) (d : Bool) (stdin stdin' : List ReadEvent) (c : Bytes)
    (hs : Serves cfg env path stdin (.ok c) stdin') :
    ∃ o, hash_one cfg env path key d stdin = .ok (.ok o, stdin') ∧ IsOutput o (modeOf key d) c := by
  obtain ⟨r, e, o, rfl, ho⟩ := hash_one_serves cfg hv env path key d stdin stdin' _ hs
  refine ⟨o, e, fun prof n hn => ?_⟩
  obtain ⟨o', h, -⟩ := (OutAt.zero ho).readMany prof n (Or.inr (by omega))
  exact ⟨o', by rw [h, output_eq_slice]⟩

/-- a regular file whose contents are `c` (not empty, fitting into one read) -/
def exFile (c : Bytes) : Cli.File := ⟨.ok ⟨true, BitVec.ofNat 64 c.length⟩, fun _ => .ok c, [.ok c.length c]⟩
/-- a pipe that delivers `c` byte by byte -/
def exPipe (c : Bytes) : Cli.File := ⟨.ok ⟨false, 0⟩, fun _ => .error (.other []), c.map fun b => .ok 1 [b]⟩

-- both give the same three bytes, one through its map and the other through its reads
example : Gives exAvx2 (exFile [1, 2, 3]) (.ok [1, 2, 3]) :=
  .contents ⟨true, 3⟩ [[1, 2, 3]] [] rfl (.data _ (by decide) (by decide) .done) (by decide) (fun _ => ⟨rfl, rfl⟩)
example : maybe_memmap_input exAvx2 (.file (exFile [1, 2, 3])) = .ok (some [1, 2, 3]) := rfl
example : Gives exAvx2 (exPipe [1, 2, 3]) (.ok [1, 2, 3]) :=
  .contents ⟨false, 0⟩ [[1], [2], [3]] [] rfl (.data [1] (by decide) (by decide)
    (.data [2] (by decide) (by decide) (.data [3] (by decide) (by decide) .done))) (by decide) (fun h => by cases h)
example : maybe_memmap_input exAvx2 (.file (exPipe [1, 2, 3])) = .ok none := rfl

/-! ## The loop over the arguments: C25 -/

/-- What the arguments give, one after the other. -/
inductive ServesAll (cfg : Config) (env : Env) :
    List (List Char) → List ReadEvent → List (Except IoError Bytes) → Prop where
  | nil {stdin} : ServesAll cfg env [] stdin []
  | cons {path paths stdin stdin' r rs} : Serves cfg env (some path) stdin r stdin' →
      ServesAll cfg env paths stdin' rs → ServesAll cfg env (path :: paths) stdin (r :: rs)

/-- the message of an I/O error -/
def message : IoError → List Char
  | .interrupted => "interrupted".toList
  | .other m => m

/-- The line that belongs to an argument: the requested bytes of output in hexadecimal, followed by
the name if there are several arguments; or the error. -/
def lineFor (m : Spec.Mode) (len : Nat) (several : Bool) (path : List Char) : Except IoError Bytes → List Char
  | .ok c => Spec.hex (Spec.output m c len) ++ (if several then "  ".toList ++ path else []) ++ ['\n']
  | .error e => "bao: ".toList ++ path ++ ": ".toList ++ message e ++ ['\n']

/-- The argument could not be read. -/
def failed : Except IoError Bytes → Bool
  | .ok _ => false
  | .error _ => true

theorem lineFor_ok (m : Spec.Mode) (len : Nat) (several : Bool) (path : List Char) (c : Bytes) :
    lineFor m len several path (.ok c) =
      Spec.hex (Spec.output m c len) ++ (if several then "  ".toList ++ path else []) ++ ['\n'] := rfl

theorem lineFor_error (m : Spec.Mode) (len : Nat) (several : Bool) (path : List Char) (e : IoError) :
    lineFor m len several path (.error e) = "bao: ".toList ++ path ++ ": ".toList ++ message e ++ ['\n'] := rfl

theorem hash_loop_ok (cfg : Config) (prof : Profile) (env : Env) (key : Option (Vector Byte 32)) (d : Bool)
    (len : U64) (many : Bool) (path : List Char) (paths : List (List Char)) (stdin stdin' : List ReadEvent) (o o' : Output)
    (hex out : List Char) (err : Bool) (h1 : hash_one cfg env (some path) key d stdin = .ok (.ok o, stdin'))
    (h2 : print_hex prof o len = .ok (hex, o')) :
    hash_loop cfg prof env key d len many (path :: paths) stdin out err =
      hash_loop cfg prof env key d len many paths stdin'
        (out ++ (hex ++ (if many then "  ".toList ++ path else []) ++ ['\n'])) err := by
  rw [hash_loop, h1, bind_ok]
  dsimp only
  rw [h2, bind_ok]
  dsimp only
  cases many
  · rw [if_neg (by decide), if_neg (by decide), List.append_nil]
  · rw [if_pos rfl, if_pos rfl, ← List.append_assoc hex]

theorem hash_loop_error (cfg : Config) (prof : Profile) (env : Env) (key : Option (Vector Byte 32)) (d : Bool)
    (len : U64) (many : Bool) (path : List Char) (paths : List (List Char)) (stdin stdin' : List ReadEvent)
    (e : Cli.Error) (out : List Char) (err : Bool) (h1 : hash_one cfg env (some path) key d stdin = .ok (.error e, stdin')) :
    hash_loop cfg prof env key d len many (path :: paths) stdin out err =
      hash_loop cfg prof env key d len many paths stdin'
        (out ++ ("bao: ".toList ++ path ++ ": ".toList ++ e.display ++ ['\n'])) true := by
  rw [hash_loop, h1, bind_ok]

theorem hash_loop_eq (cfg : Config) (hv : cfg.Valid) (prof : Profile) (env : Env) (key : Option (Vector Byte 32)) (d : Bool)
    (len : U64) (hl : len.toNat < 2 ^ 63) (many : Bool) {paths : List (List Char)} {stdin : List ReadEvent}
    {rs : List (Except IoError Bytes)} (hs : ServesAll cfg env paths stdin rs) : ∀ (out : List Char) (err : Bool),
    hash_loop cfg prof env key d len many paths stdin out err =
      .ok (out ++ (List.zipWith (lineFor (modeOf key d) len.toNat many) paths rs).flatten, err || rs.any failed) := by
  induction hs with
  | nil => intro out err; simp [hash_loop]
  | @cons path paths stdin stdin' r rs h1 h2 ih =>
    intro out err
    obtain ⟨r', e, hm⟩ := hash_one_serves cfg hv env (some path) key d stdin stdin' r h1
    cases r with
    | ok c =>
      obtain ⟨o, rfl, ho⟩ := hm
      obtain ⟨o', e'⟩ := print_hex_at (OutAt.zero ho) prof len hl
      rw [hash_loop_ok _ _ _ _ _ _ _ _ _ _ _ _ _ _ _ _ e e', ih, List.zipWith_cons_cons, List.flatten_cons,
        List.append_assoc, List.any_cons, lineFor_ok]
      exact congrArg (fun b => Except.ok (_, err || b)) (Bool.false_or _).symm
    | error er =>
      cases hm
      have hd : Cli.Error.display (.io er) = message er := by cases er <;> rfl
      rw [hash_loop_error _ _ _ _ _ _ _ _ _ _ _ _ _ _ e, ih, hd, List.zipWith_cons_cons, List.flatten_cons,
        List.append_assoc, List.any_cons, lineFor_error, failed, Bool.true_or, Bool.or_true]

theorem parseKey_asks {args : Args} {m : Spec.Mode} (h : Asks args m) :
    ∃ key, parseKey args = .ok key ∧ modeOf key args.deriveKey.isSome = m := by
  cases h with
  | hash => exact ⟨none, rfl, rfl⟩
  | keyed h => exact ⟨_, (C26_key _ _ rfl _).2 h, rfl⟩
  | derive h => exact ⟨_, (C26_key _ _ rfl _).2 h, rfl⟩

/-- C25.  With file arguments, the program prints one line per argument, in order, and exits with
status 1 exactly when at least one of them could not be read.  (The lines also say which bytes are
printed: C23 and C26 for the whole program.) -/
theorem C25_main (cfg : Config) (hv : cfg.Valid) (prof : Profile) (env : Env) (args : Args) (m : Spec.Mode)
    (stdin : List ReadEvent) (rs : List (Except IoError Bytes)) (hm : Asks args m) (h0 : args.inputs ≠ [])
    (hl : (args.length.getD 32).toNat < 2 ^ 63) (hs : ServesAll cfg env args.inputs stdin rs) :
    Cli.main cfg prof env args stdin = .ok {
      stdout := (List.zipWith (lineFor m (args.length.getD 32).toNat (decide (1 < args.inputs.length))) args.inputs rs).flatten
      status := if rs.any failed then 1 else 0 } := by
  obtain ⟨key, hk, rfl⟩ := parseKey_asks hm
  rw [Cli.main]
  dsimp only
  rw [hk]
  dsimp only
  rw [if_pos h0, hash_loop_eq cfg hv prof env key _ _ hl _ hs]
  rfl

/-- C25.  Without file arguments the program hashes standard input. -/
theorem C25_stdin (cfg : Config) (hv : cfg.Valid) (prof : Profile) (env : Env) (args : Args) (m : Spec.Mode)
    (stdin rest : List ReadEvent) (segs : List Bytes) (e : Except IoError Unit) (hm : Asks args m) (h0 : args.inputs = [])
    (hl : (args.length.getD 32).toNat < 2 ^ 63) (hs : Reads (COPY_BUF_LEN cfg) stdin segs e rest)
    (hlen : segs.flatten.length < 2 ^ 64) :
    Cli.main cfg prof env args stdin = .ok (match e with
      | .ok () => ⟨Spec.hex (Spec.output m segs.flatten (args.length.getD 32).toNat) ++ ['\n'], 0⟩
      | .error _ => ⟨[], 1⟩) := by
  obtain ⟨key, hk, rfl⟩ := parseKey_asks hm
  obtain ⟨r, e1, hr⟩ := hash_one_serves cfg hv env none key args.deriveKey.isSome stdin rest _
    (.stdin (.inl rfl) hs hlen)
  rw [Cli.main]
  dsimp only
  rw [hk]
  dsimp only
  rw [if_neg (by rw [h0]; simp), e1, bind_ok]
  cases e with
  | error e => cases hr; rfl
  | ok u =>
    obtain ⟨o, rfl, ho⟩ := hr
    obtain ⟨o', e'⟩ := print_hex_at (OutAt.zero ho) prof _ hl
    dsimp only
    rw [e']
    rfl

-- `baokeshed a b -` where `b` does not exist
def exEnv : Env := ⟨fun p => if p = ['a'] then .ok (exFile [1, 2, 3]) else .error (.other "no such file".toList)⟩

example : ServesAll exAvx2 exEnv [['a'], ['b'], ['-']] [.ok 1 [7]]
    [.ok [1, 2, 3], .error (.other "no such file".toList), .ok [7]] :=
  .cons (.file (f := exFile [1, 2, 3]) (by decide) rfl
      (.contents ⟨true, 3⟩ [[1, 2, 3]] [] rfl (.data _ (by decide) (by decide) .done) (by decide) (fun _ => ⟨rfl, rfl⟩)))
    (.cons (.noFile (by decide) rfl)
      (.cons (.stdin (segs := [[7]]) (e := .ok ()) (rest := []) (.inr rfl) (.data [7] (by decide) (by decide) .done)
        (by decide)) .nil))

example : Asks ⟨[], some (rep 64 0x30), none, none⟩ (.keyedHash (Vector.replicate 32 0)) := .keyed (by decide +kernel)

end Baokeshed.Props
