import Verif.Proofs.CliIo
import Verif.Props.Cli

/-!
# C48, C49: the command line program when standard output fails

`CliIo.run` is the whole process over a device whose writes may be short, interrupted or fail (Verif/Model/Stdout.lean).
-/

set_option linter.unusedVariables false

namespace Baokeshed.Props
open Baokeshed.Model Baokeshed.Model.Cli Baokeshed.Proofs

/-- the bytes of a text in UTF-8 -/
def encoded (s : List Char) : Bytes := (String.ofList s).toByteArray.data.toList.map UInt8.toBitVec

theorem encoded_eq (s : List Char) : encoded s = CliIo.utf8 s := by
  rw [encoded, CliIo.utf8]
  simp [List.utf8Encode, List.map_flatMap]

/-- Some write to the device fails: with an error other than an interruption, or by accepting nothing. -/
def Breaks (dev : List Stdout.WriteEvent) : Prop := .fail ∈ dev ∨ .accept 0 ∈ dev

/-- How a process that should print `text` and exit with `status` may end on a device: it prints a prefix, and all of it
if the device does not break.  It exits with the status 101 of a panic, and only if the device breaks, or with `status`.
With the current standard library it has then printed everything. -/
structure Ends (v : Stdout.Version) (dev : List Stdout.WriteEvent) (text : List Char) (status : Nat)
    (e : CliIo.Ended) : Prop where
  pre : e.delivered <+: encoded text
  exit : e.status = status ∨ e.status = 101 ∧ Breaks dev
  sound : ¬ Breaks dev → e = ⟨encoded text, status⟩
  told : v = .new → e.status ≠ 101 → e.delivered = encoded text

theorem ends_of {cfg : Config} {prof : Profile} {seg : Cli.Error → List (List Char)} {env : Env}
    {stdin : List ReadEvent} {v : Stdout.Version} {cap : Nat} {dev : List Stdout.WriteEvent} {cmd : CliIo.Cmd}
    {text : List Char} {status : Nat} {r : Except CliIo.Stop Unit}
    (hs : CliIo.Sim (CliIo.main cfg prof seg env stdin cmd) text r)
    (hc : CliIo.Clean (CliIo.main cfg prof seg env stdin cmd))
    (hr : status = 0 ∧ r = .ok () ∨ status = 1 ∧ r = .error .err ∨ status = 1 ∧ r = .error (.exit 1)) :
    Ends v dev text status (CliIo.run cfg prof seg env stdin v cap dev cmd) := by
  rw [CliIo.run]
  have h1 := hs.res ⟨v, cap, false, [], [], dev⟩
  have h2 := hs.dev ⟨v, cap, false, [], [], dev⟩
  have h3 := hc ⟨v, cap, false, [], [], dev⟩
  generalize CliIo.main cfg prof seg env stdin cmd ⟨v, cap, false, [], [], dev⟩ = y at h1 h2 h3
  obtain ⟨x, s⟩ := y
  dsimp only at h1 h2 h3 ⊢
  have hp := Stdout.cleanup_prefix s
  rcases h1 with ⟨rfl, ha⟩ | ⟨rfl, ha, hf⟩
  · have ha : Stdout.all s = encoded text := ha.trans (encoded_eq text).symm
    have hsound : ¬ Breaks dev → s.cleanup.delivered = encoded text := fun hn =>
      (Stdout.cleanup_sound s fun h => hn (h.mono h2)).trans ha
    have hnb : ¬ CliIo.Bad x := by
      rcases hr with ⟨-, rfl⟩ | ⟨-, rfl⟩ | ⟨-, rfl⟩ <;> rintro (h | ⟨p, h⟩) <;> cases h
    have htold : v = .new → s.cleanup.delivered = encoded text := fun hv =>
      (Stdout.cleanup_empty s ((h3 hv rfl).2.resolve_left hnb)).trans ha
    rw [ha] at hp
    rcases hr with ⟨rfl, rfl⟩ | ⟨rfl, rfl⟩ | ⟨rfl, rfl⟩
    · exact ⟨hp, .inl rfl, fun h => congrArg (CliIo.Ended.mk · _) (hsound h), fun h _ => htold h⟩
    · exact ⟨hp, .inl rfl, fun h => congrArg (CliIo.Ended.mk · _) (hsound h), fun h _ => htold h⟩
    · exact ⟨hp, .inl rfl, fun h => congrArg (CliIo.Ended.mk · _) (hsound h), fun h _ => htold h⟩
  · refine ⟨hp.trans ?_, .inr ⟨rfl, hf⟩, fun h => absurd hf h, fun _ h => absurd rfl h⟩
    rw [encoded_eq]
    exact ha

theorem ends_main (cfg : Config) (prof : Profile) (seg : Cli.Error → List (List Char))
    (hseg : ∀ e, (seg e).flatten = e.display) (env : Env) (args : Args) (stdin : List ReadEvent) (text : List Char)
    (status : Nat) (h : Cli.main cfg prof env args stdin = .ok ⟨text, status⟩) (v : Stdout.Version) (cap : Nat)
    (dev : List Stdout.WriteEvent) :
    Ends v dev text status (CliIo.run cfg prof seg env stdin v cap dev (.hash args)) := by
  have hc := CliIo.hash_clean cfg prof seg env args stdin
  rcases (CliIo.hash_sim cfg prof seg hseg env args stdin).2 text status h with ⟨e, hs⟩ | ⟨e, hs⟩ | ⟨e, hs⟩
  · exact ends_of (cmd := .hash args) hs hc (.inl ⟨e, rfl⟩)
  · exact ends_of (cmd := .hash args) hs hc (.inr (.inl ⟨e, rfl⟩))
  · exact ends_of (cmd := .hash args) hs hc (.inr (.inr ⟨e, rfl⟩))

/-- C48, with file arguments.  Whatever the device does, it receives a prefix of the lines that C25 describes, and
unless a write fails all of them.  With the current standard library an exit status of 0 means that every line was
received and every argument could be read, and 1 that every line was received and some argument could not be read. -/
theorem C48_files (cfg : Config) (hv : cfg.Valid) (prof : Profile) (seg : Cli.Error → List (List Char))
    (hseg : ∀ e, (seg e).flatten = e.display) (env : Env) (args : Args) (m : Spec.Mode)
    (stdin : List ReadEvent) (rs : List (Except IoError Bytes)) (hm : Asks args m) (h0 : args.inputs ≠ [])
    (hl : (args.length.getD 32).toNat < 2 ^ 63) (hs : ServesAll cfg env args.inputs stdin rs)
    (v : Stdout.Version) (cap : Nat) (dev : List Stdout.WriteEvent) :
    Ends v dev
      (List.zipWith (lineFor m (args.length.getD 32).toNat (decide (1 < args.inputs.length))) args.inputs rs).flatten
      (if rs.any failed then 1 else 0) (CliIo.run cfg prof seg env stdin v cap dev (.hash args)) :=
  ends_main cfg prof seg hseg env args stdin _ _ (C25_main cfg hv prof env args m stdin rs hm h0 hl hs) v cap dev

/-- C48, standard input. -/
theorem C48_stdin (cfg : Config) (hv : cfg.Valid) (prof : Profile) (seg : Cli.Error → List (List Char))
    (hseg : ∀ e, (seg e).flatten = e.display) (env : Env) (args : Args) (m : Spec.Mode)
    (stdin rest : List ReadEvent) (segs : List Bytes) (e : Except IoError Unit) (hm : Asks args m) (h0 : args.inputs = [])
    (hl : (args.length.getD 32).toNat < 2 ^ 63) (hs : Reads (COPY_BUF_LEN cfg) stdin segs e rest)
    (hlen : segs.flatten.length < 2 ^ 64) (v : Stdout.Version) (cap : Nat) (dev : List Stdout.WriteEvent) :
    match e with
    | .ok () => Ends v dev (Spec.hex (Spec.output m segs.flatten (args.length.getD 32).toNat) ++ ['\n']) 0
        (CliIo.run cfg prof seg env stdin v cap dev (.hash args))
    | .error _ => Ends v dev [] 1 (CliIo.run cfg prof seg env stdin v cap dev (.hash args)) := by
  have h := C25_stdin cfg hv prof env args m stdin rest segs e hm h0 hl hs hlen
  cases e with
  | ok u => exact ends_main cfg prof seg hseg env args stdin _ _ h v cap dev
  | error e => exact ends_main cfg prof seg hseg env args stdin _ _ h v cap dev

/-- C48, keys that are not accepted: nothing is printed. -/
theorem C48_reject (cfg : Config) (prof : Profile) (seg : Cli.Error → List (List Char))
    (hseg : ∀ e, (seg e).flatten = e.display) (env : Env) (args : Args) (stdin : List ReadEvent) (s : Bytes)
    (hs : args.key.or args.deriveKey = some s)
    (hbad : ¬ (s.length = 64 ∧ ∀ c ∈ asText s, (Spec.digitValue c).isSome))
    (v : Stdout.Version) (cap : Nat) (dev : List Stdout.WriteEvent) :
    CliIo.run cfg prof seg env stdin v cap dev (.hash args) = ⟨[], 1⟩ := by
  rw [CliIo.run, CliIo.main, CliIo.hash]
  dsimp only
  cases h : parseKey args with
  | ok k => exact absurd ((C26_digits args s hs).1 ⟨k, h⟩) hbad
  | error e =>
    show CliIo.Ended.mk _ 1 = _
    rw [Stdout.cleanup_empty _ rfl]
    rfl

/-- C48, `--help` and `--version`. -/
theorem C48_info (cfg : Config) (prof : Profile) (seg : Cli.Error → List (List Char)) (env : Env)
    (stdin : List ReadEvent) (v : Stdout.Version) (cap : Nat) (dev : List Stdout.WriteEvent) :
    Ends v dev CliIo.USAGE.toList 0 (CliIo.run cfg prof seg env stdin v cap dev .help) ∧
    Ends v dev "0.1.0\n".toList 0 (CliIo.run cfg prof seg env stdin v cap dev .version) := by
  constructor
  · refine ends_of (r := .ok ()) ((CliIo.Sim.print [CliIo.USAGE.toList]).cast (by simp)) ?_ (.inl ⟨rfl, rfl⟩)
    have h := (CliIo.Clears.print [] (CliIo.USAGE.toList.dropLast)).clean
    rw [show CliIo.USAGE.toList.dropLast ++ ['\n'] = CliIo.USAGE.toList by decide +kernel] at h
    exact h
  · refine ends_of (r := .ok ()) ((CliIo.Sim.print ["0.1.0".toList, ['\n']]).cast (by decide)) ?_ (.inl ⟨rfl, rfl⟩)
    exact (CliIo.Clears.print ["0.1.0".toList] []).clean

/-- C48, panics of the library (C24): status 101 on every device. -/
theorem C48_panic (cfg : Config) (prof : Profile) (seg : Cli.Error → List (List Char))
    (hseg : ∀ e, (seg e).flatten = e.display) (env : Env) (args : Args) (stdin : List ReadEvent) (p : Panic)
    (h : Cli.main cfg prof env args stdin = .error p) (v : Stdout.Version) (cap : Nat) (dev : List Stdout.WriteEvent) :
    (CliIo.run cfg prof seg env stdin v cap dev (.hash args)).status = 101 := by
  obtain ⟨t, hs⟩ := (CliIo.hash_sim cfg prof seg hseg env args stdin).1 p h
  have h1 := hs.res ⟨v, cap, false, [], [], dev⟩
  rw [CliIo.run, CliIo.main]
  generalize CliIo.hash cfg prof seg env args stdin ⟨v, cap, false, [], [], dev⟩ = y at h1
  obtain ⟨x, s⟩ := y
  rcases h1 with ⟨rfl, -⟩ | ⟨rfl, -⟩ <;> rfl

/-- C49.  One input that can be read, an output that fits the buffer with its end of line, and a device all of whose
writes fail (`/dev/full`): with the standard library of the time of the commit the program prints nothing and exits
with status 0; with the current one it panics. -/
theorem C49_full_device (cfg : Config) (hv : cfg.Valid) (prof : Profile) (seg : Cli.Error → List (List Char))
    (env : Env) (args : Args) (m : Spec.Mode) (stdin : List ReadEvent) (path : List Char) (c : Bytes) (hm : Asks args m)
    (h0 : args.inputs = [path]) (hs : ServesAll cfg env args.inputs stdin [.ok c])
    (v : Stdout.Version) (cap : Nat) (hl : 2 * (args.length.getD 32).toNat + 1 < cap) (hl' : 0 < (args.length.getD 32).toNat)
    (hl'' : (args.length.getD 32).toNat < 2 ^ 63) (dev : List Stdout.WriteEvent) :
    CliIo.run cfg prof seg env stdin v cap (.fail :: .fail :: dev) (.hash args) =
      ⟨[], match v with | .old => 0 | .new => 101⟩ := by
  obtain ⟨key, hk, rfl⟩ := parseKey_asks hm
  rw [h0] at hs
  cases hs with
  | cons h1 h2 =>
  rename_i stdin'
  obtain ⟨r, e1, o, rfl, ho⟩ := hash_one_serves cfg hv env (some path) key args.deriveKey.isSome stdin stdin' _ h1
  obtain ⟨o', e2⟩ := print_hex_at (OutAt.zero ho) prof _ hl''
  generalize Spec.hex (Spec.output (modeOf key args.deriveKey.isSome) c (args.length.getD 32).toNat) = hex at e2
  obtain ⟨h3, h4, -, h5⟩ := CliIo.print_hex_buffers prof o o' _ hex hl'' e2
  obtain ⟨h6, h7⟩ := h4.utf8
  rw [CliIo.run, CliIo.main, CliIo.hash]
  dsimp only
  rw [hk]
  dsimp only
  rw [if_pos (by rw [h0]; simp), CliIo.bind_apply, h0, CliIo.hash_loop, e1, CliIo.lift_ok, CliIo.pure_bind]
  dsimp only
  rw [CliIo.bind_apply, h5 _ ⟨rfl, fun b h => absurd h List.not_mem_nil⟩
    (by show 0 + _ < cap; omega)]
  dsimp only
  rw [if_neg (by simp), CliIo.bind_apply]
  have hlen : (CliIo.push ⟨v, cap, false, [], [], .fail :: .fail :: dev⟩ (CliIo.utf8 hex)).buf.length = hex.length := h6
  obtain ⟨s', e3, e4, e5, e6⟩ := CliIo.newline_fails
    (CliIo.push ⟨v, cap, false, [], [], .fail :: .fail :: dev⟩ (CliIo.utf8 hex)) (.fail :: dev)
    (CliIo.Quiet.push ⟨rfl, fun b h => absurd h List.not_mem_nil⟩ h7) rfl
    (by rw [hlen]; show _ < cap; omega) (by rw [← List.length_pos_iff, hlen]; omega)
  have hclean : s'.cleanup.delivered = [] := by
    rw [Stdout.State.cleanup, Stdout.State.flush_buf, e5, CliIo.drain_fail _ _ _ e6]
    exact e4
  cases v with
  | old =>
    rw [show _ = (Except.ok (), s') from e3]
    show CliIo.Ended.mk s'.cleanup.delivered 0 = _
    rw [hclean]
  | new =>
    rw [show _ = (Except.error CliIo.Stop.print, s') from e3]
    show CliIo.Ended.mk s'.cleanup.delivered 101 = _
    rw [hclean]

-- a device that takes three bytes at a time, is interrupted, and then fails
example : Breaks [.accept 3, .interrupted, .accept 3, .fail] := .inl (by decide)
example : ¬ Breaks [.accept 3, .interrupted, .accept 3] := by rintro (h | h) <;> revert h <;> decide
-- an error may be displayed in pieces
example : ∃ seg : Cli.Error → List (List Char), (∀ e, (seg e).flatten = e.display) ∧ ∃ e, (seg e).length = 2 :=
  ⟨fun e => [e.display.take 3, e.display.drop 3], fun e => by simp, .badHex, rfl⟩
-- the two versions of the standard library on a device that accepts four bytes and then fails twice
example : CliIo.run exAvx2 .release (fun e => [e.display]) exEnv [] .new 1024 [.accept 4, .fail, .fail] .version =
    ⟨encoded "0.1.".toList, 101⟩ := by decide +kernel
example : CliIo.run exAvx2 .release (fun e => [e.display]) exEnv [] .old 1024 [.accept 4, .fail, .fail] .version =
    ⟨encoded "0.1.".toList, 0⟩ := by decide +kernel
theorem exServes : ServesAll exAvx2 exEnv [['a']] [] [.ok [1, 2, 3]] :=
  .cons (.file (f := exFile [1, 2, 3]) (by decide) rfl
      (.contents ⟨true, 3⟩ [[1, 2, 3]] [] rfl (.data _ (by decide) (by decide) .done) (by decide) (fun _ => ⟨rfl, rfl⟩)))
    .nil
-- `baokeshed a > /dev/full`
example : CliIo.run exAvx2 .release (fun e => [e.display]) exEnv [] .old 1024 [.fail, .fail]
    (.hash ⟨[['a']], none, none, none⟩) = ⟨[], 0⟩ :=
  C49_full_device exAvx2 (by simp) .release _ exEnv ⟨[['a']], none, none, none⟩ .hash [] ['a'] [1, 2, 3] .hash rfl exServes
    .old 1024 (by decide) (by decide) (by decide) []
example : Ends .new [.accept 3] (List.zipWith (lineFor .hash 32 false) [['a']] [.ok [1, 2, 3]]).flatten 0
    (CliIo.run exAvx2 .release (fun e => [e.display]) exEnv [] .new 1024 [.accept 3] (.hash ⟨[['a']], none, none, none⟩)) :=
  C48_files exAvx2 (by simp) .release (fun e => [e.display]) (fun e => by simp) exEnv
    ⟨[['a']], none, none, none⟩ .hash [] _ .hash (by simp) (by decide) exServes .new 1024 [.accept 3]

end Baokeshed.Props
