import Verif.Proofs.Stdout
import Verif.Proofs.Hash

/-!
# Proofs about the command line program with its standard output
-/

set_option linter.unusedVariables false

namespace Baokeshed.Proofs.CliIo
open Baokeshed.Model Baokeshed.Model.Cli Baokeshed.Model.CliIo Baokeshed.Proofs.Stdout

/-- `x` prints `text` and ends with `r`, unless standard output fails in between. -/
structure Sim {α : Type} (x : Io α) (text : List Char) (r : Except Stop α) : Prop where
  version : ∀ s, (x s).2.version = s.version
  dev : ∀ s, (x s).2.dev <:+ s.dev
  res : ∀ s, ((x s).1 = r ∧ all (x s).2 = all s ++ utf8 text) ∨
    ((x s).1 = .error .print ∧ all (x s).2 <+: all s ++ utf8 text ∧ Failing s.dev)

theorem utf8_append (a b : List Char) : utf8 (a ++ b) = utf8 a ++ utf8 b := List.flatMap_append ..

theorem Sim.pure {α : Type} (a : α) : Sim (Pure.pure a : Io α) [] (.ok a) :=
  ⟨fun _ => rfl, fun _ => List.suffix_refl _, fun _ => .inl ⟨rfl, (List.append_nil _).symm⟩⟩

theorem Sim.stop {α : Type} (e : Stop) : Sim (CliIo.stop e : Io α) [] (.error e) :=
  ⟨fun _ => rfl, fun _ => List.suffix_refl _, fun _ => .inl ⟨rfl, (List.append_nil _).symm⟩⟩

theorem lift_ok {α : Type} (a : α) : lift (.ok a : R α) = Pure.pure a := rfl
theorem lift_error {α : Type} (p : Panic) : lift (.error p : R α) = CliIo.stop (.panic p) := rfl

theorem pure_bind {α β : Type} (a : α) (f : α → Io β) : ((Pure.pure a : Io α) >>= f) = f a := rfl
theorem stop_bind {α β : Type} (e : Stop) (f : α → Io β) : ((CliIo.stop e : Io α) >>= f) = CliIo.stop e := rfl

theorem bind_apply {α β : Type} (x : Io α) (f : α → Io β) (s : Stdout.State) :
    (x >>= f) s = match x s with
      | (.ok a, s) => f a s
      | (.error e, s) => (.error e, s) := rfl

theorem Sim.bind {α β : Type} {x : Io α} {f : α → Io β} {t u : List Char} {a : α} {r : Except Stop β}
    (h1 : Sim x t (.ok a)) (h2 : Sim (f a) u r) : Sim (x >>= f) (t ++ u) r := by
  have key : ∀ s, ((x >>= f) s).2.version = s.version ∧ ((x >>= f) s).2.dev <:+ s.dev ∧
      ((((x >>= f) s).1 = r ∧ all ((x >>= f) s).2 = all s ++ utf8 (t ++ u)) ∨
       (((x >>= f) s).1 = .error .print ∧ all ((x >>= f) s).2 <+: all s ++ utf8 (t ++ u) ∧ Failing s.dev)) := by
    intro s
    have hv := h1.version s
    have hd := h1.dev s
    have hr := h1.res s
    rw [bind_apply]
    generalize x s = y at hv hd hr
    obtain ⟨y, s1⟩ := y
    rcases hr with ⟨rfl, ha⟩ | ⟨rfl, ha, hf⟩
    · refine ⟨(h2.version s1).trans hv, (h2.dev s1).trans hd, ?_⟩
      dsimp only at ha hd ⊢
      rw [utf8_append, ← List.append_assoc, ← ha]
      exact (h2.res s1).imp id fun h => ⟨h.1, h.2.1, h.2.2.mono hd⟩
    · refine ⟨hv, hd, .inr ⟨rfl, ha.trans ?_, hf⟩⟩
      rw [utf8_append, ← List.append_assoc]
      exact List.prefix_append _ _
  exact ⟨fun s => (key s).1, fun s => (key s).2.1, fun s => (key s).2.2⟩

theorem Sim.bind_error {α β : Type} {x : Io α} {f : α → Io β} {t : List Char} {e : Stop}
    (h1 : Sim x t (.error e)) : Sim (x >>= f) t (.error e) := by
  have key : ∀ s, ((x >>= f) s).2.version = s.version ∧ ((x >>= f) s).2.dev <:+ s.dev ∧
      ((((x >>= f) s).1 = .error e ∧ all ((x >>= f) s).2 = all s ++ utf8 t) ∨
       (((x >>= f) s).1 = .error .print ∧ all ((x >>= f) s).2 <+: all s ++ utf8 t ∧ Failing s.dev)) := by
    intro s
    have hv := h1.version s
    have hd := h1.dev s
    have hr := h1.res s
    rw [bind_apply]
    generalize x s = y at hv hd hr
    obtain ⟨y, s1⟩ := y
    rcases hr with ⟨rfl, ha⟩ | ⟨rfl, ha, hf⟩
    · exact ⟨hv, hd, .inl ⟨rfl, ha⟩⟩
    · exact ⟨hv, hd, .inr ⟨rfl, ha, hf⟩⟩
  exact ⟨fun s => (key s).1, fun s => (key s).2.1, fun s => (key s).2.2⟩

theorem Sim.write_str (t : List Char) : Sim (write_str t) t (.ok ()) := by
  have key : ∀ s, (CliIo.write_str t s).2.version = s.version ∧ (CliIo.write_str t s).2.dev <:+ s.dev ∧
      (((CliIo.write_str t s).1 = .ok () ∧ all (CliIo.write_str t s).2 = all s ++ utf8 t) ∨
       ((CliIo.write_str t s).1 = .error .print ∧ all (CliIo.write_str t s).2 <+: all s ++ utf8 t ∧ Failing s.dev)) := by
    intro s
    rw [CliIo.write_str]
    have hg := write_all_good s (utf8 t)
    generalize s.write_all (utf8 t) = r at hg
    obtain ⟨ok, s1⟩ := r
    cases ok with
    | true => exact ⟨hg.version, hg.dev, .inl ⟨rfl, hg.ok rfl⟩⟩
    | false => exact ⟨hg.version, hg.dev, .inr ⟨rfl, hg.err rfl⟩⟩
  exact ⟨fun s => (key s).1, fun s => (key s).2.1, fun s => (key s).2.2⟩

theorem Sim.print (ps : List (List Char)) : Sim (print ps) ps.flatten (.ok ()) := by
  induction ps with
  | nil => exact Sim.pure ()
  | cons p ps ih => exact (Sim.write_str p).bind ih

theorem Sim.cast {α : Type} {x : Io α} {t u : List Char} {r : Except Stop α} (h : Sim x t r) (e : t = u) : Sim x u r :=
  e ▸ h

/-- the result of a part of the program that corresponds to a result of the model without failing output -/
def outcome {α : Type} : R α → Except Stop α
  | .ok a => .ok a
  | .error p => .error (.panic p)

theorem print_hex_loop_sim (prof : Profile) (N : Nat) : ∀ (o : Output) (out : List Char),
    ∃ t, Sim (CliIo.print_hex_loop prof o N) t (outcome ((Cli.print_hex_loop prof o out N).map (·.2))) ∧
      ∀ u o', Cli.print_hex_loop prof o out N = .ok (u, o') → u = out ++ t := by
  induction N using Nat.strongRecOn with
  | ind N ih =>
  intro o out
  rw [CliIo.print_hex_loop, Cli.print_hex_loop]
  by_cases h0 : N = 0
  · rw [dif_pos h0, dif_pos h0]
    exact ⟨[], Sim.pure o, fun u o' h => by cases h; exact (List.append_nil _).symm⟩
  rw [dif_neg h0, dif_neg h0]
  cases hr : o.read prof with
  | error e => exact ⟨[], Sim.stop _, fun u o' h => by cases h⟩
  | ok p =>
  obtain ⟨bytes, o1⟩ := p
  dsimp only
  cases h1 : to_hex (bytes.take 32) with
  | error e => exact ⟨[], Sim.stop _, fun u o' h => by cases h⟩
  | ok hex1 =>
  dsimp only
  by_cases hl : hex1.length = 0
  · rw [dif_pos hl]
    cases h2 : to_hex (bytes.drop 32) with
    | error e => rw [to_hex_eq] at h2; cases h2
    | ok hex2 =>
      dsimp only
      rw [dif_pos hl]
      exact ⟨[], Sim.stop _, fun u o' h => by cases h⟩
  rw [dif_neg hl]
  cases h2 : to_hex (bytes.drop 32) with
  | error e =>
    refine ⟨_, (Sim.print _).bind (Sim.stop _), fun u o' h => by cases h⟩
  | ok hex2 =>
    dsimp only
    rw [dif_neg hl]
    obtain ⟨t, ht, hu⟩ := ih (N - min N hex1.length - min (N - min N hex1.length) hex2.length) (by omega) o1
      (out ++ hex1.take (min N hex1.length) ++ hex2.take (min (N - min N hex1.length) hex2.length))
    refine ⟨_, (Sim.print _).bind ((Sim.print _).bind ht), fun u o' h => ?_⟩
    rw [hu u o' h]
    simp [List.append_assoc]

theorem print_hex_sim (prof : Profile) (o : Output) (len : U64) :
    (∀ p, Cli.print_hex prof o len = .error p → ∃ t, Sim (CliIo.print_hex prof o len) t (.error (.panic p))) ∧
    (∀ t o', Cli.print_hex prof o len = .ok (t, o') → Sim (CliIo.print_hex prof o len) t (.ok o')) := by
  have key : ∀ n : Nat, (∀ p, Cli.print_hex_loop prof o [] n = .error p →
        ∃ t, Sim (CliIo.print_hex_loop prof o n) t (.error (.panic p))) ∧
      (∀ t o', Cli.print_hex_loop prof o [] n = .ok (t, o') → Sim (CliIo.print_hex_loop prof o n) t (.ok o')) := by
    intro n
    obtain ⟨t, h1, h2⟩ := print_hex_loop_sim prof n o []
    constructor
    · intro p hp
      rw [hp] at h1
      exact ⟨t, h1⟩
    · intro u o' hu
      rw [hu] at h1
      rw [h2 u o' hu]
      exact h1
  simp only [Cli.print_hex, CliIo.print_hex]
  cases prof with
  | release => exact key _
  | debug =>
    dsimp only
    cases hm : mulU64 2 len with
    | ok n => exact key _
    | error e =>
      refine ⟨fun p hp => ?_, fun t o' h => by cases h⟩
      cases hp
      exact ⟨[], Sim.stop _⟩

theorem hash_loop_sim (cfg : Config) (prof : Profile) (seg : Cli.Error → List (List Char))
    (hseg : ∀ e, (seg e).flatten = e.display) (env : Env) (key : Option (Vector Byte 32)) (d : Bool) (len : U64)
    (many : Bool) (inputs : List (List Char)) : ∀ (stdin : List ReadEvent) (out : List Char) (err : Bool),
    (∀ p, Cli.hash_loop cfg prof env key d len many inputs stdin out err = .error p →
      ∃ t, Sim (CliIo.hash_loop cfg prof seg env key d len many inputs stdin err) t (.error (.panic p))) ∧
    (∀ u err', Cli.hash_loop cfg prof env key d len many inputs stdin out err = .ok (u, err') →
      ∃ t, u = out ++ t ∧ Sim (CliIo.hash_loop cfg prof seg env key d len many inputs stdin err) t (.ok err')) := by
  induction inputs with
  | nil =>
    intro stdin out err
    refine ⟨fun p h => (by cases h), fun u err' h => ?_⟩
    cases h
    exact ⟨[], (List.append_nil _).symm, Sim.pure _⟩
  | cons input inputs ih =>
    intro stdin out err
    rw [Cli.hash_loop, CliIo.hash_loop]
    cases h1 : hash_one cfg env (some input) key d stdin with
    | error p =>
      rw [lift_error, stop_bind, bind_error]
      refine ⟨fun q h => ?_, fun u err' h => by cases h⟩
      cases h
      exact ⟨[], Sim.stop _⟩
    | ok q =>
    obtain ⟨r, stdin'⟩ := q
    rw [lift_ok, pure_bind, bind_ok]
    dsimp only
    cases r with
    | error e =>
      dsimp only
      have hp := Sim.print (["bao: ".toList, input, ": ".toList] ++ seg e ++ [['\n']])
      have he : (["bao: ".toList, input, ": ".toList] ++ seg e ++ [['\n']]).flatten =
          "bao: ".toList ++ input ++ ": ".toList ++ e.display ++ ['\n'] := by
        simp only [List.flatten_append, hseg, List.flatten_cons, List.flatten_nil, List.append_nil, List.append_assoc]
      rw [he] at hp
      obtain ⟨i1, i2⟩ := ih stdin' (out ++ ("bao: ".toList ++ input ++ ": ".toList ++ e.display ++ ['\n'])) true
      refine ⟨fun p h => ?_, fun u err' h => ?_⟩
      · obtain ⟨t, ht⟩ := i1 p h
        exact ⟨_, hp.bind ht⟩
      · obtain ⟨t, rfl, ht⟩ := i2 u err' h
        exact ⟨_, List.append_assoc _ _ _, hp.bind ht⟩
    | ok o =>
      dsimp only
      obtain ⟨p1, p2⟩ := print_hex_sim prof o len
      cases h2 : Cli.print_hex prof o len with
      | error p =>
        rw [bind_error]
        refine ⟨fun q h => ?_, fun u err' h => by cases h⟩
        cases h
        obtain ⟨t, ht⟩ := p1 p h2
        exact ⟨t, ht.bind_error⟩
      | ok q =>
        obtain ⟨hex, o'⟩ := q
        have hx := p2 hex o' h2
        rw [bind_ok]
        dsimp only
        have hline : ∀ {α : Type} {y : Io α} {t : List Char} {r : Except Stop α}, Sim y t r →
            Sim (do
              let _ ← CliIo.print_hex prof o len
              if many = true then print ["  ".toList, input, ['\n']] else print [['\n']]
              y) ((if many = true then hex ++ "  ".toList ++ input ++ ['\n'] else hex ++ ['\n']) ++ t) r := by
          intro α y t r hy
          cases many with
          | true =>
            refine (hx.bind ((Sim.print _).bind hy)).cast ?_
            simp only [List.flatten_cons, List.flatten_nil, List.append_nil, List.append_assoc, if_true]
          | false =>
            refine (hx.bind ((Sim.print _).bind hy)).cast ?_
            simp [List.append_assoc]
        obtain ⟨i1, i2⟩ := ih stdin'
          (out ++ (if many = true then hex ++ "  ".toList ++ input ++ ['\n'] else hex ++ ['\n'])) err
        refine ⟨fun p h => ?_, fun u err' h => ?_⟩
        · obtain ⟨t, ht⟩ := i1 p h
          have := hline ht
          cases many <;> exact ⟨_, this⟩
        · obtain ⟨t, rfl, ht⟩ := i2 u err' h
          have := hline ht
          cases many <;> exact ⟨_, List.append_assoc _ _ _, this⟩

/-! ## What is left in the buffer -/

/-- the program panics -/
def Bad {α : Type} (r : Except Stop α) : Prop := r = .error .print ∨ ∃ p, r = .error (.panic p)

/-- stops early only by a panic -/
def Keeps {α : Type} (x : Io α) : Prop :=
  ∀ s : Stdout.State, s.version = .new → (x s).2.version = .new ∧ (Bad (x s).1 ∨ ∃ a, (x s).1 = .ok a)

/-- leaves the buffer empty -/
def Clears {α : Type} (x : Io α) : Prop :=
  ∀ s : Stdout.State, s.version = .new → (x s).2.version = .new ∧ (Bad (x s).1 ∨ (x s).2.buf = [])

/-- leaves the buffer empty if it was -/
def Clean {α : Type} (x : Io α) : Prop :=
  ∀ s : Stdout.State, s.version = .new → s.buf = [] → (x s).2.version = .new ∧ (Bad (x s).1 ∨ (x s).2.buf = [])

theorem Clears.clean {α : Type} {x : Io α} (h : Clears x) : Clean x := fun s hv _ => h s hv
theorem Clean.pure {α : Type} (a : α) : Clean (Pure.pure a : Io α) := fun s hv hb => ⟨hv, .inr hb⟩
theorem Clean.stop {α : Type} (e : Stop) : Clean (CliIo.stop e : Io α) := fun s hv hb => ⟨hv, .inr hb⟩
theorem Clean.lift {α : Type} (x : R α) : Clean (CliIo.lift x) := by cases x <;> exact fun s hv hb => ⟨hv, .inr hb⟩
theorem Keeps.pure {α : Type} (a : α) : Keeps (Pure.pure a : Io α) := fun s hv => ⟨hv, .inr ⟨a, rfl⟩⟩
theorem Keeps.panic {α : Type} (p : Panic) : Keeps (CliIo.stop (.panic p) : Io α) :=
  fun s hv => ⟨hv, .inl (.inr ⟨p, rfl⟩)⟩
theorem Keeps.lift {α : Type} (x : R α) : Keeps (CliIo.lift x) := by
  cases x with
  | ok a => exact Keeps.pure a
  | error p => exact Keeps.panic p

theorem Bad.cast {α β : Type} {e : Stop} (h : Bad (.error e : Except Stop α)) : Bad (.error e : Except Stop β) := by
  rcases h with h | ⟨p, h⟩ <;> cases h
  · exact .inl rfl
  · exact .inr ⟨p, rfl⟩

theorem Keeps.bind {α β : Type} {x : Io α} {f : α → Io β} (h1 : Keeps x) (h2 : ∀ a, Keeps (f a)) : Keeps (x >>= f) := by
  intro s hv
  have h := h1 s hv
  rw [bind_apply]
  generalize x s = y at h
  obtain ⟨y, s1⟩ := y
  cases y with
  | ok a => exact h2 a s1 h.1
  | error e => exact ⟨h.1, .inl (h.2.elim Bad.cast fun ⟨a, h⟩ => by cases h)⟩

theorem Clears.bind {α β : Type} {x : Io α} {f : α → Io β} (h1 : Keeps x) (h2 : ∀ a, Clears (f a)) :
    Clears (x >>= f) := by
  intro s hv
  have h := h1 s hv
  rw [bind_apply]
  generalize x s = y at h
  obtain ⟨y, s1⟩ := y
  cases y with
  | ok a => exact h2 a s1 h.1
  | error e => exact ⟨h.1, .inl (h.2.elim Bad.cast fun ⟨a, h⟩ => by cases h)⟩

theorem Clean.bind {α β : Type} {x : Io α} {f : α → Io β} (h1 : Clean x) (h2 : ∀ a, Clean (f a)) : Clean (x >>= f) := by
  intro s hv hb
  have h := h1 s hv hb
  rw [bind_apply]
  generalize x s = y at h
  obtain ⟨y, s1⟩ := y
  cases y with
  | ok a =>
    rcases h.2 with (h' | ⟨p, h'⟩) | h'
    · cases h'
    · cases h'
    · exact h2 a s1 h.1 h'
  | error e => exact ⟨h.1, h.2.imp Bad.cast id⟩

theorem Clears.next {α β : Type} {x : Io α} {f : α → Io β} (h1 : Clears x) (h2 : ∀ a, Clean (f a)) :
    Clears (x >>= f) := by
  intro s hv
  have h := h1 s hv
  rw [bind_apply]
  generalize x s = y at h
  obtain ⟨y, s1⟩ := y
  cases y with
  | ok a =>
    rcases h.2 with (h' | ⟨p, h'⟩) | h'
    · cases h'
    · cases h'
    · exact h2 a s1 h.1 h'
  | error e => exact ⟨h.1, h.2.imp Bad.cast id⟩

theorem Keeps.write_str (t : List Char) : Keeps (write_str t) := by
  intro s hv
  have h := (Sim.write_str t).version s
  have h' := (Sim.write_str t).res s
  exact ⟨h.trans hv, h'.elim (fun h => .inr ⟨(), h.1⟩) (fun h => .inl (.inl h.1))⟩

theorem Keeps.print (ps : List (List Char)) : Keeps (print ps) := by
  induction ps with
  | nil => exact Keeps.pure ()
  | cons p ps ih => exact (Keeps.write_str p).bind fun _ => ih

theorem utf8_newline (t : List Char) : utf8 (t ++ ['\n']) = utf8 t ++ [0x0a] := by
  rw [utf8_append]; rfl

theorem Clears.write_str (t : List Char) : Clears (write_str (t ++ ['\n'])) := by
  intro s hv
  refine ⟨((Sim.write_str _).version s).trans hv, ?_⟩
  rw [CliIo.write_str, utf8_newline, Stdout.State.write_all, hv]
  dsimp only
  have h := newWriteAll_clears s (utf8 t)
  generalize s.newWriteAll (utf8 t ++ [0x0a]) = r at h
  obtain ⟨ok, s1⟩ := r
  cases ok with
  | false => exact .inl (.inl rfl)
  | true => exact .inr (h rfl)

theorem Clears.print (ps : List (List Char)) (t : List Char) : Clears (print (ps ++ [t ++ ['\n']])) := by
  induction ps with
  | nil =>
    intro s hv
    have h := Clears.write_str t s hv
    rw [List.nil_append, CliIo.print, bind_apply]
    generalize CliIo.write_str (t ++ ['\n']) s = y at h
    obtain ⟨y, s1⟩ := y
    cases y with
    | ok a =>
      refine ⟨h.1, .inr ?_⟩
      rcases h.2 with (h' | ⟨p, h'⟩) | h'
      · cases h'
      · cases h'
      · exact h'
    | error e => exact ⟨h.1, h.2.imp Bad.cast id⟩
  | cons p ps ih => exact Clears.bind (Keeps.write_str p) fun _ => ih

theorem print_hex_loop_keeps (prof : Profile) (N : Nat) : ∀ o : Output, Keeps (CliIo.print_hex_loop prof o N) := by
  induction N using Nat.strongRecOn with
  | ind N ih =>
  intro o
  rw [CliIo.print_hex_loop]
  split
  · exact Keeps.pure o
  cases o.read prof with
  | error e => exact Keeps.panic e
  | ok p =>
  dsimp only
  rw [to_hex_eq, to_hex_eq]
  dsimp only
  split
  · exact Keeps.panic _
  · exact (Keeps.print _).bind fun _ => (Keeps.print _).bind fun _ => ih _ (by omega) _

theorem print_hex_keeps (prof : Profile) (o : Output) (len : U64) : Keeps (CliIo.print_hex prof o len) :=
  (Keeps.lift _).bind fun n => print_hex_loop_keeps prof _ o

theorem hash_loop_clean (cfg : Config) (prof : Profile) (seg : Cli.Error → List (List Char)) (env : Env)
    (key : Option (Vector Byte 32)) (d : Bool) (len : U64) (many : Bool) (inputs : List (List Char)) :
    ∀ (stdin : List ReadEvent) (err : Bool),
    Clean (CliIo.hash_loop cfg prof seg env key d len many inputs stdin err) := by
  induction inputs with
  | nil => intro stdin err; exact Clean.pure _
  | cons input inputs ih =>
    intro stdin err
    rw [CliIo.hash_loop]
    refine (Clean.lift _).bind fun q => ?_
    obtain ⟨r, stdin'⟩ := q
    cases r with
    | error e => exact (Clears.print (["bao: ".toList, input, ": ".toList] ++ seg e) []).clean.bind fun _ => ih _ _
    | ok o =>
      refine (Clears.bind (print_hex_keeps prof o len) fun _ => ?_).clean
      cases many with
      | false => exact (Clears.print [] []).next fun _ => ih _ _
      | true => exact (Clears.print ["  ".toList, input] []).next fun _ => ih _ _

theorem hash_clean (cfg : Config) (prof : Profile) (seg : Cli.Error → List (List Char)) (env : Env) (args : Args)
    (stdin : List ReadEvent) : Clean (CliIo.hash cfg prof seg env args stdin) := by
  rw [CliIo.hash]
  dsimp only
  cases parseKey args with
  | error e => exact Clean.stop _
  | ok key =>
    dsimp only
    split
    · refine Clean.bind (hash_loop_clean _ _ _ _ _ _ _ _ _ _ _) fun b => ?_
      cases b
      · exact Clean.pure ()
      · exact Clean.stop _
    · refine (Clean.lift _).bind fun q => ?_
      obtain ⟨r, stdin'⟩ := q
      cases r with
      | error e => exact Clean.stop _
      | ok o => exact (Clears.bind (print_hex_keeps prof o _) fun _ => Clears.print [] []).clean

theorem hash_sim (cfg : Config) (prof : Profile) (seg : Cli.Error → List (List Char))
    (hseg : ∀ e, (seg e).flatten = e.display) (env : Env) (args : Args) (stdin : List ReadEvent) :
    (∀ p, Cli.main cfg prof env args stdin = .error p →
      ∃ t, Sim (CliIo.hash cfg prof seg env args stdin) t (.error (.panic p))) ∧
    (∀ t st, Cli.main cfg prof env args stdin = .ok ⟨t, st⟩ →
      (st = 0 ∧ Sim (CliIo.hash cfg prof seg env args stdin) t (.ok ())) ∨
      (st = 1 ∧ Sim (CliIo.hash cfg prof seg env args stdin) t (.error .err)) ∨
      (st = 1 ∧ Sim (CliIo.hash cfg prof seg env args stdin) t (.error (.exit 1)))) := by
  rw [Cli.main, CliIo.hash]
  dsimp only
  cases parseKey args with
  | error e =>
    refine ⟨fun p h => (by cases h), fun t st h => ?_⟩
    cases h
    exact .inr (.inl ⟨rfl, Sim.stop _⟩)
  | ok key =>
    dsimp only
    by_cases hi : args.inputs ≠ []
    · rw [if_pos hi, if_pos hi]
      obtain ⟨h1, h2⟩ := hash_loop_sim cfg prof seg hseg env key args.deriveKey.isSome (args.length.getD 32)
        (decide (args.inputs.length > 1)) args.inputs stdin [] false
      generalize Cli.hash_loop cfg prof env key args.deriveKey.isSome (args.length.getD 32)
        (decide (args.inputs.length > 1)) args.inputs stdin [] false = r at h1 h2
      cases r with
      | error p =>
        refine ⟨fun q h => ?_, fun t st h => by cases h⟩
        cases h
        obtain ⟨t, ht⟩ := h1 p rfl
        exact ⟨t, ht.bind_error⟩
      | ok q =>
        obtain ⟨u, err⟩ := q
        obtain ⟨t, rfl, ht⟩ := h2 u err rfl
        refine ⟨fun q h => (by cases h), fun t' st h => ?_⟩
        cases h
        cases err with
        | false => exact .inl ⟨rfl, (ht.bind (Sim.pure ())).cast (List.append_nil _)⟩
        | true => exact .inr (.inr ⟨rfl, (ht.bind (Sim.stop _)).cast (List.append_nil _)⟩)
    · rw [if_neg hi, if_neg hi]
      cases hash_one cfg env none key args.deriveKey.isSome stdin with
      | error p =>
        refine ⟨fun q h => ?_, fun t st h => by cases h⟩
        cases h
        exact ⟨[], Sim.stop _⟩
      | ok q =>
        obtain ⟨r, rest⟩ := q
        rw [lift_ok, pure_bind, bind_ok]
        dsimp only
        cases r with
        | error e =>
          refine ⟨fun q h => (by cases h), fun t' st h => ?_⟩
          cases h
          exact .inr (.inl ⟨rfl, Sim.stop _⟩)
        | ok o =>
          dsimp only
          obtain ⟨h1, h2⟩ := print_hex_sim prof o (args.length.getD 32)
          generalize Cli.print_hex prof o (args.length.getD 32) = r at h1 h2
          cases r with
          | error p =>
            refine ⟨fun q h => ?_, fun t st h => by cases h⟩
            cases h
            obtain ⟨t, ht⟩ := h1 p rfl
            exact ⟨t, ht.bind_error⟩
          | ok q =>
            refine ⟨fun q h => (by cases h), fun t' st h => ?_⟩
            cases h
            exact .inl ⟨rfl, (h2 _ _ rfl).bind (Sim.print _)⟩

/-! ## Short outputs stay in the buffer -/

/-- no failed flush and no end of line in the buffer -/
def Quiet (s : Stdout.State) : Prop := s.need_flush = false ∧ ∀ b ∈ s.buf, b ≠ 0x0a

/-- the state with `bytes` added to the buffer -/
def push (s : Stdout.State) (bytes : Bytes) : Stdout.State := { s with buf := s.buf ++ bytes }

theorem push_push (s : Stdout.State) (a b : Bytes) : push (push s a) b = push s (a ++ b) := by
  simp only [push, List.append_assoc]

theorem push_nil (s : Stdout.State) : push s [] = s := by simp only [push, List.append_nil]

theorem Quiet.push {s : Stdout.State} (h : Quiet s) {bytes : Bytes} (hb : ∀ b ∈ bytes, b ≠ 0x0a) : Quiet (push s bytes) :=
  ⟨h.1, fun b m => (List.mem_append.1 m).elim (h.2 b) (hb b)⟩

theorem getLast?_mem {l : Bytes} {b : Byte} (h : l.getLast? = some b) : b ∈ l := List.mem_of_getLast? h

theorem write_all_quiet (s : Stdout.State) (bytes : Bytes) (hq : Quiet s) (hb : ∀ b ∈ bytes, b ≠ 0x0a)
    (hl : s.buf.length + bytes.length < s.cap) : s.write_all bytes = (true, push s bytes) := by
  have hs := splitLines_none hb
  rw [Stdout.State.write_all]
  split
  · rw [Stdout.State.oldWriteAll]
    split
    next h => rw [h, push_nil]
    next h =>
    have hlen : 0 < bytes.length := List.length_pos_iff.2 h
    have hw : s.oldWrite bytes = (.ok bytes.length, push s bytes) := by
      rw [Stdout.State.oldWrite, hq.1, if_neg (by decide)]
      dsimp only
      rw [if_neg (by decide), hs]
      dsimp only
      rw [Stdout.State.bufWrite, if_neg (by omega)]
      dsimp only
      rw [if_neg (by decide), if_neg (by omega)]
      rfl
    rw [hw]
    dsimp only
    rw [if_neg (by omega), dif_pos ?_, List.drop_length, Stdout.State.oldWriteAll, if_pos rfl]
    rw [List.drop_length]
    show s.dev.length + 0 < _
    omega
  · rw [Stdout.State.newWriteAll, hs]
    dsimp only
    rw [Stdout.State.flush_if_completed_line, if_neg (fun h => hq.2 _ (getLast?_mem h) rfl)]
    dsimp only
    rw [if_neg (by decide), Stdout.State.bufWriteAll, if_pos (by omega)]
    rfl

/-- `x` only adds `text` to the buffer, if there is room -/
def Buffers {α : Type} (x : Io α) (text : Bytes) (a : α) : Prop :=
  (∀ b ∈ text, b ≠ 0x0a) ∧
    ∀ s : Stdout.State, Quiet s → s.buf.length + text.length < s.cap → x s = (.ok a, push s text)

theorem Buffers.pure {α : Type} (a : α) : Buffers (Pure.pure a : Io α) [] a :=
  ⟨fun b h => absurd h List.not_mem_nil, fun s _ _ => by rw [push_nil]; rfl⟩

theorem Buffers.bind {α β : Type} {x : Io α} {f : α → Io β} {t u : Bytes} {a : α} {b : β}
    (h1 : Buffers x t a) (h2 : Buffers (f a) u b) : Buffers (x >>= f) (t ++ u) b := by
  refine ⟨fun b m => (List.mem_append.1 m).elim (h1.1 b) (h2.1 b), fun s hq hl => ?_⟩
  rw [List.length_append] at hl
  rw [bind_apply, h1.2 s hq (by omega)]
  dsimp only
  rw [h2.2 (push s t) (hq.push h1.1) ?_, push_push]
  show (s.buf ++ t).length + _ < s.cap
  rw [List.length_append]
  omega

theorem Buffers.print (t : List Char) (h : ∀ b ∈ utf8 t, b ≠ 0x0a) : Buffers (print [t]) (utf8 t) () := by
  refine ⟨h, fun s hq hl => ?_⟩
  rw [CliIo.print, bind_apply, CliIo.write_str, write_all_quiet s _ hq h hl]
  rfl

theorem table_ascii : ∀ i : Fin 16, (String.utf8EncodeChar (hexTable[i.val]'i.isLt)).map UInt8.toBitVec =
    [BitVec.ofNat 8 (hexTable[i.val]'i.isLt).toNat] ∧ BitVec.ofNat 8 (hexTable[i.val]'i.isLt).toNat ≠ 0x0a := by
  decide +kernel

/-- text made of hexadecimal digits -/
def Digits (t : List Char) : Prop := ∀ c ∈ t, ∃ i : Fin 16, c = hexTable[i.val]'i.isLt

theorem Digits.hexOf (bs : Bytes) : Digits (hexOf bs) := by
  intro c hc
  rw [Proofs.hexOf, List.mem_flatMap] at hc
  obtain ⟨b, -, hb⟩ := hc
  rcases List.mem_cons.1 hb with rfl | hb
  · exact ⟨⟨_, Nat.mod_lt _ (by decide)⟩, rfl⟩
  · rw [List.mem_singleton] at hb
    exact ⟨⟨_, Nat.mod_lt _ (by decide)⟩, hb⟩

theorem Digits.take {t : List Char} (h : Digits t) (n : Nat) : Digits (t.take n) :=
  fun c hc => h c (List.mem_of_mem_take hc)

theorem Digits.utf8 {t : List Char} (h : Digits t) : (utf8 t).length = t.length ∧ ∀ b ∈ utf8 t, b ≠ 0x0a := by
  induction t with
  | nil => exact ⟨rfl, fun b h => absurd h List.not_mem_nil⟩
  | cons c t ih =>
    obtain ⟨i1, i2⟩ := ih fun c hc => h c (List.mem_cons_of_mem _ hc)
    obtain ⟨i, rfl⟩ := h c List.mem_cons_self
    obtain ⟨e, hne⟩ := table_ascii i
    have hu : CliIo.utf8 ((hexTable[i.val]'i.isLt) :: t) =
        BitVec.ofNat 8 (hexTable[i.val]'i.isLt).toNat :: CliIo.utf8 t := by
      rw [CliIo.utf8, List.flatMap_cons, e]; rfl
    rw [hu]
    refine ⟨by rw [List.length_cons, i1, List.length_cons], fun b hb => ?_⟩
    rcases List.mem_cons.1 hb with rfl | hb
    · exact hne
    · exact i2 b hb

theorem print_hex_loop_buffers (prof : Profile) (N : Nat) : ∀ (o : Output) (out u : List Char) (o' : Output),
    Cli.print_hex_loop prof o out N = .ok (u, o') →
    ∃ t, u = out ++ t ∧ t.length = N ∧ Digits t ∧ Buffers (CliIo.print_hex_loop prof o N) (utf8 t) o' := by
  induction N using Nat.strongRecOn with
  | ind N ih =>
  intro o out u o' h
  rw [Cli.print_hex_loop] at h
  rw [CliIo.print_hex_loop]
  by_cases h0 : N = 0
  · rw [dif_pos h0] at h ⊢
    cases h
    exact ⟨[], (List.append_nil _).symm, h0.symm, fun c h => absurd h List.not_mem_nil, Buffers.pure _⟩
  rw [dif_neg h0] at h ⊢
  cases hr : o.read prof with
  | error e => rw [hr] at h; cases h
  | ok p =>
  obtain ⟨bytes, o1⟩ := p
  rw [hr] at h
  dsimp only at h ⊢
  rw [to_hex_eq, to_hex_eq] at h
  rw [to_hex_eq, to_hex_eq]
  have l1 : (hexOf (bytes.take 32).toList).length = 64 := by rw [length_hexOf, Vector.length_toList]; rfl
  have l2 : (hexOf (bytes.drop 32).toList).length = 64 := by rw [length_hexOf, Vector.length_toList]
  have d1 := Digits.hexOf (bytes.take 32).toList
  have d2 := Digits.hexOf (bytes.drop 32).toList
  generalize hexOf (bytes.take 32).toList = x1 at h l1 d1 ⊢
  generalize hexOf (bytes.drop 32).toList = x2 at h l2 d2 ⊢
  dsimp only at h ⊢
  rw [dif_neg (by omega)] at h ⊢
  obtain ⟨t, rfl, hl, hd, hb⟩ := ih _ (by omega) _ _ _ _ h
  refine ⟨x1.take (min N x1.length) ++ (x2.take (min (N - min N x1.length) x2.length) ++ t), ?_, ?_, ?_, ?_⟩
  · simp only [List.append_assoc]
  · rw [List.length_append, List.length_append, List.length_take, List.length_take, hl]
    omega
  · intro c hc
    rcases List.mem_append.1 hc with hc | hc
    · exact d1.take _ c hc
    rcases List.mem_append.1 hc with hc | hc
    · exact d2.take _ c hc
    · exact hd c hc
  · rw [utf8_append, utf8_append]
    exact (Buffers.print _ (d1.take _).utf8.2).bind ((Buffers.print _ (d2.take _).utf8.2).bind hb)

theorem print_hex_buffers (prof : Profile) (o o' : Output) (len : U64) (u : List Char) (hlen : len.toNat < 2 ^ 63)
    (h : Cli.print_hex prof o len = .ok (u, o')) :
    u.length = 2 * len.toNat ∧ Digits u ∧ Buffers (CliIo.print_hex prof o len) (utf8 u) o' := by
  have h2 : (2 * len).toNat = 2 * len.toNat := by
    rw [BitVec.toNat_mul, show (2 : U64).toNat = 2 from rfl, Nat.mod_eq_of_lt (by omega)]
  have key : ∀ n : Nat, n = 2 * len.toNat → Cli.print_hex_loop prof o [] n = .ok (u, o') →
      u.length = 2 * len.toNat ∧ Digits u ∧ Buffers (CliIo.print_hex_loop prof o n) (utf8 u) o' := by
    intro n hn hp
    obtain ⟨t, rfl, h3, h4, h5⟩ := print_hex_loop_buffers prof n o _ u o' hp
    exact ⟨h3.trans hn, h4, h5⟩
  cases prof with
  | release => exact key _ h2 h
  | debug =>
    have hm : mulU64 2 len = .ok (2 * len) := if_pos (by rw [show (2 : U64).toNat = 2 from rfl]; omega)
    rw [Cli.print_hex, hm, bind_ok] at h
    rw [CliIo.print_hex, hm, lift_ok, pure_bind]
    exact key _ h2 h

theorem drain_fail (dev : List Stdout.WriteEvent) (d b : Bytes) (h : b ≠ []) :
    Stdout.drain (.fail :: dev) d b = (false, b, d, dev) := by rw [Stdout.drain.eq_def, if_neg h]

/-- the end of the line, when the device fails: the old `LineWriter` reports success, the new one does not -/
theorem newline_fails (s : Stdout.State) (dev : List Stdout.WriteEvent) (hq : Quiet s) (hd : s.dev = .fail :: dev)
    (hl : s.buf.length + 1 < s.cap) (hb : s.buf ≠ []) :
    ∃ s', print [['\n']] s = ((if s.version = .old then .ok () else .error .print), s') ∧
      s'.delivered = s.delivered ∧ s'.dev = dev ∧ s'.buf ≠ [] := by
  have hn : s.buf ++ [0x0a] ≠ [] := by simp
  have hu : utf8 ['\n'] = [0x0a] := rfl
  rw [CliIo.print, bind_apply, CliIo.write_str, hu, Stdout.State.write_all]
  cases hv : s.version with
  | old =>
    rw [if_pos rfl]
    dsimp only
    have hw : s.oldWrite [0x0a] = (.ok 1, { s with need_flush := true, buf := s.buf ++ [0x0a], dev := dev }) := by
      have hbw : s.bufWrite [0x0a] = (.ok 1, push s [0x0a]) := by
        rw [Stdout.State.bufWrite, if_neg (by simp only [List.length_singleton]; omega)]
        dsimp only
        rw [if_neg (by decide), if_neg (by simp only [List.length_singleton]; omega)]
        rfl
      rw [Stdout.State.oldWrite, hq.1, if_neg (by decide)]
      dsimp only
      rw [if_neg (by decide), show Stdout.splitLines [0x0a] = some ([0x0a], []) from rfl]
      dsimp only
      rw [hbw]
      simp only [push, Stdout.State.flush, Stdout.State.flush_buf, hd, drain_fail _ _ _ hn]
      rfl
    rw [Stdout.State.oldWriteAll, if_neg (by simp), hw]
    dsimp only
    rw [if_neg (by decide), dif_pos (by rw [hd]; simp; omega), show List.drop 1 [(0x0a : Byte)] = [] from rfl,
      Stdout.State.oldWriteAll, if_pos rfl]
    exact ⟨_, rfl, rfl, rfl, hn⟩
  | new =>
    rw [if_neg (by decide)]
    dsimp only
    have hw : s.newWriteAll [0x0a] = (false, { s with buf := s.buf ++ [0x0a], dev := dev }) := by
      rw [Stdout.State.newWriteAll, show Stdout.splitLines [0x0a] = some ([0x0a], []) from rfl]
      dsimp only
      have hbw : s.bufWriteAll [0x0a] = (true, push s [0x0a]) := by
        rw [Stdout.State.bufWriteAll]
        exact if_pos (show 1 < _ by omega)
      rw [if_neg hb, hbw]
      dsimp only
      rw [if_neg (by decide)]
      simp only [push, Stdout.State.flush_buf, hd, drain_fail _ _ _ hn]
      rfl
    rw [hw]
    exact ⟨_, rfl, rfl, rfl, hn⟩

end Baokeshed.Proofs.CliIo
