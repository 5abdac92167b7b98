import Verif.Proofs.World
import Verif.Props.Ex

/-!
# C02, C03, C11, C22, C36: the incremental `Hasher`

`newHasher cfg m` is the constructor for mode `m`; `updates` is a chain of `update` calls.
-/

set_option linter.unusedVariables false

namespace Baokeshed.Props
open Baokeshed.Model Baokeshed.Proofs

/-- C02.  However the input is cut into slices, `finalize` returns the specified hash of their
concatenation. -/
theorem C02_finalize (cfg : Config) (m : Spec.Mode) (ss : List Bytes) (hl : ss.flatten.length < 2 ^ 64) :
    ∃ h, (newHasher cfg m).updates cfg ss = .ok h ∧ h.finalize = .ok (Spec.hash m ss.flatten) := by
  obtain ⟨h, e, hh⟩ := (HasherAt.new cfg m).updates ss (by simpa using hl)
  exact ⟨h, e, hh.finalize⟩

/-- C02.  `n` reads of the extensible output give the first `64 n` bytes of the specified stream. -/
theorem C02_finalize_xof (cfg : Config) (m : Spec.Mode) (ss : List Bytes) (hl : ss.flatten.length < 2 ^ 64)
    (prof : Profile) :
    ∃ h o, (newHasher cfg m).updates cfg ss = .ok h ∧ h.finalize_xof = .ok o ∧
      ∀ n ≤ 2 ^ 58 - 1, ∃ o', o.readMany prof n = .ok (Spec.output m ss.flatten (64 * n), o') := by
  obtain ⟨h, e, hh⟩ := (HasherAt.new cfg m).updates ss (by simpa using hl)
  obtain ⟨o, e', -, ho⟩ := hh.finalize_xof
  refine ⟨h, o, e, e', fun n hn => ?_⟩
  obtain ⟨o', h, -⟩ := (OutAt.zero ho).readMany prof n (Or.inr (by omega))
  exact ⟨o', by rw [h, output_eq_slice, List.nil_append]⟩

/-- C02.  `finalize` agrees with the one-shot function, even on another machine. -/
theorem C02_eq_one_shot (cfg cfg' : Config) (hv : cfg'.Valid) (m : Spec.Mode) (ss : List Bytes)
    (hf : cfg'.Fits ss.flatten.length) :
    ∃ h, (newHasher cfg m).updates cfg ss = .ok h ∧ h.finalize = oneShot cfg' m ss.flatten := by
  have h64 : ss.flatten.length < 2 ^ 64 := by
    have h1 : 2 ^ (cfg'.usizeBits - 1) ≤ 2 ^ 64 := Nat.pow_le_pow_right (by decide) (by have := hv.2; omega)
    exact Nat.lt_of_lt_of_le hf h1
  obtain ⟨h, e, hh⟩ := C02_finalize cfg m ss h64
  obtain ⟨o, e', -, ho⟩ := oneShotXof_eq cfg' m ss.flatten hv hf
  refine ⟨h, e, ?_⟩
  rw [hh, oneShot_of_xof cfg' m _ o e']
  refine congrArg Except.ok (Vector.toList_inj.1 ?_)
  rw [hash_toList, (OutAt.zero ho).to_hash]

/-- C02.  Two ways of cutting the same input give the same hash. -/
theorem C02_split_independent (cfg cfg' : Config) (m : Spec.Mode) (ss ss' : List Bytes)
    (hl : ss.flatten.length < 2 ^ 64) (he : ss.flatten = ss'.flatten) :
    ∃ h h', (newHasher cfg m).updates cfg ss = .ok h ∧ (newHasher cfg' m).updates cfg' ss' = .ok h' ∧
      ∃ d, h.finalize = .ok d ∧ h'.finalize = .ok d := by
  obtain ⟨h, e, hh⟩ := C02_finalize cfg m ss hl
  obtain ⟨h', e', hh'⟩ := C02_finalize cfg' m ss' (he ▸ hl)
  refine ⟨h, h', e, e', _, hh, by rw [hh', he]⟩

-- an input of 9 chunks and 11 bytes, cut in two ways
example : [rep 2048 1, [], rep 16395 1].flatten.length < 2 ^ 64 ∧
    [rep 2048 1, [], rep 16395 1].flatten = [rep 1 1, rep 18442 1].flatten := by
  constructor
  · simp
  · simp only [rep, List.flatten_cons, List.flatten_nil, List.append_nil, List.nil_append,
      List.replicate_append_replicate]

/-! ## Histories -/

/-- What hashers and outputs stand for: a hasher is a mode and the bytes it was given; an output is
a mode, the bytes it is the output for, and the number of blocks read from it. -/
structure Ideal where
  hashers : List (Spec.Mode × Bytes)
  outputs : List (Spec.Mode × Bytes × Nat)

/-- What a call should return and how it should change the state.  `none` if the call names a value
that does not exist, makes the input of a hasher 2^64 bytes or longer, or reads more than
2^64 - 64 bytes from an output. -/
def Ideal.step (w : Ideal) : Call → Option (Obs × Ideal)
  | .new m => some (.none, { w with hashers := w.hashers ++ [(m, [])] })
  | .update i s => (give i s).map fun w => (.none, w)
  | .write i s => (give i s).map fun w => (.count s.length, w)
  | .writeAll i s => (give i s).map fun w => (.success true, w)
  | .flush i => (give i []).map fun w => (.success true, w)
  | .clone i => w.hashers[i]?.map fun (m, b) => (.none, { w with hashers := w.hashers ++ [(m, b)] })
  | .finalize i => w.hashers[i]?.map fun (m, b) => (.bytes (Spec.hash m b).toList, w)
  | .finalizeXof i => w.hashers[i]?.map fun (m, b) => (.none, { w with outputs := w.outputs ++ [(m, b, 0)] })
  | .read j => w.outputs[j]?.bind fun (m, b, k) =>
      if k < 2 ^ 58 - 1 then some (.bytes ((List.range 64).map fun i => Spec.streamByte m b (64 * k + i)),
        { w with outputs := w.outputs.set j (m, b, k + 1) }) else none
  | .toHash j => w.outputs[j]?.map fun (m, b, k) =>
      (.bytes ((List.range 32).map fun i => Spec.streamByte m b (64 * k + i)), w)
  | .cloneOut j => w.outputs[j]?.map fun o => (.none, { w with outputs := w.outputs ++ [o] })
where
  /-- hasher `i` receives `s` -/
  give (i : Nat) (s : Bytes) : Option Ideal :=
    w.hashers[i]?.bind fun (m, b) =>
      if b.length + s.length < 2 ^ 64 then some { w with hashers := w.hashers.set i (m, b ++ s) } else none

/-- What the calls of a program should return. -/
def Ideal.run : Ideal → List Call → Option (List Obs)
  | _, [] => some []
  | w, c :: cs => (w.step c).bind fun (o, w) => (Ideal.run w cs).map (o :: ·)

/-- the state of the program stands for the ideal state -/
structure Stands (cfg : Config) (w : World) (s : Ideal) : Prop where
  hashers : Rel (fun h (mb : Spec.Mode × Bytes) => HasherAt cfg mb.1 mb.2 h) w.hashers s.hashers
  outputs : Rel (fun o (mbk : Spec.Mode × Bytes × Nat) => OutAt o mbk.1 mbk.2.1 mbk.2.2) w.outputs s.outputs

theorem Stands.hasher {cfg : Config} {w : World} {s : Ideal} (hs : Stands cfg w s) {i : Nat} {m : Spec.Mode} {b : Bytes}
    (h : s.hashers[i]? = some (m, b)) : ∃ x, w.hasher i = .ok x ∧ HasherAt cfg m b x := by
  obtain ⟨hi, e⟩ := List.getElem?_eq_some_iff.1 h
  have hi' : i < w.hashers.length := by rw [hs.hashers.1]; exact hi
  refine ⟨w.hashers[i], by rw [World.hasher, dif_pos hi'], ?_⟩
  have := hs.hashers.2 i hi' hi
  rwa [e] at this

theorem Stands.output {cfg : Config} {w : World} {s : Ideal} (hs : Stands cfg w s) {j : Nat} {m : Spec.Mode} {b : Bytes}
    {k : Nat} (h : s.outputs[j]? = some (m, b, k)) : ∃ x, w.output j = .ok x ∧ OutAt x m b k := by
  obtain ⟨hi, e⟩ := List.getElem?_eq_some_iff.1 h
  have hi' : j < w.outputs.length := by rw [hs.outputs.1]; exact hi
  refine ⟨w.outputs[j], by rw [World.output, dif_pos hi'], ?_⟩
  have := hs.outputs.2 j hi' hi
  rwa [e] at this

theorem give_some {s s' : Ideal} {i : Nat} {x : Bytes} (h : Ideal.step.give s i x = some s') :
    ∃ m b, s.hashers[i]? = some (m, b) ∧ b.length + x.length < 2 ^ 64 ∧
      s' = { s with hashers := s.hashers.set i (m, b ++ x) } := by
  unfold Ideal.step.give at h
  obtain ⟨⟨m, b⟩, h1, h2⟩ := Option.bind_eq_some_iff.1 h
  dsimp only at h2
  split at h2
  next hlt => exact ⟨m, b, h1, hlt, (Option.some.inj h2).symm⟩
  next => cases h2

theorem step_stands {cfg : Config} (prof : Profile) {w : World} {s s' : Ideal} (c : Call) {o : Obs}
    (hs : Stands cfg w s) (h : s.step c = some (o, s')) :
    ∃ w', w.step cfg prof c = .ok (o, w') ∧ Stands cfg w' s' := by
  cases c with
  | new m =>
    obtain ⟨rfl, rfl⟩ := Prod.mk.inj (Option.some.inj h)
    exact ⟨_, rfl, hs.hashers.push (HasherAt.new cfg m), hs.outputs⟩
  | update i x =>
    obtain ⟨s1, h1, h2⟩ := Option.map_eq_some_iff.1 h
    obtain ⟨rfl, rfl⟩ := Prod.mk.inj h2
    obtain ⟨m, b, h3, h4, rfl⟩ := give_some h1
    obtain ⟨y, e, hy⟩ := hs.hasher h3
    obtain ⟨y', e', hy'⟩ := hy.update x h4
    exact ⟨⟨w.hashers.set i y', w.outputs⟩, by rw [World.step, e, bind_ok, e', bind_ok]; rfl, hs.hashers.set hy' i, hs.outputs⟩
  | write i x =>
    obtain ⟨s1, h1, h2⟩ := Option.map_eq_some_iff.1 h
    obtain ⟨rfl, rfl⟩ := Prod.mk.inj h2
    obtain ⟨m, b, h3, h4, rfl⟩ := give_some h1
    obtain ⟨y, e, hy⟩ := hs.hasher h3
    obtain ⟨y', e', -, hy'⟩ := hy.write x h4
    exact ⟨⟨w.hashers.set i y', w.outputs⟩, by rw [World.step, e, bind_ok, e', bind_ok]; rfl, hs.hashers.set hy' i, hs.outputs⟩
  | writeAll i x =>
    obtain ⟨s1, h1, h2⟩ := Option.map_eq_some_iff.1 h
    obtain ⟨rfl, rfl⟩ := Prod.mk.inj h2
    obtain ⟨m, b, h3, h4, rfl⟩ := give_some h1
    obtain ⟨y, e, hy⟩ := hs.hasher h3
    obtain ⟨y', e', hy', -⟩ := hy.write_all x h4
    exact ⟨⟨w.hashers.set i y', w.outputs⟩, by rw [World.step, e, bind_ok, e', bind_ok]; rfl, hs.hashers.set hy' i, hs.outputs⟩
  | flush i =>
    obtain ⟨s1, h1, h2⟩ := Option.map_eq_some_iff.1 h
    obtain ⟨rfl, rfl⟩ := Prod.mk.inj h2
    obtain ⟨m, b, h3, h4, rfl⟩ := give_some h1
    obtain ⟨y, e, hy⟩ := hs.hasher h3
    refine ⟨⟨w.hashers.set i y, w.outputs⟩, by rw [World.step, e, bind_ok, Hasher.flush, bind_ok]; rfl, hs.hashers.set ?_ i, hs.outputs⟩
    rw [List.append_nil]; exact hy
  | clone i =>
    obtain ⟨⟨m, b⟩, h1, h2⟩ := Option.map_eq_some_iff.1 h
    obtain ⟨rfl, rfl⟩ := Prod.mk.inj h2
    obtain ⟨y, e, hy⟩ := hs.hasher h1
    exact ⟨⟨w.hashers ++ [y], w.outputs⟩, by rw [World.step, e, bind_ok]; rfl, hs.hashers.push hy, hs.outputs⟩
  | finalize i =>
    obtain ⟨⟨m, b⟩, h1, h2⟩ := Option.map_eq_some_iff.1 h
    obtain ⟨rfl, rfl⟩ := Prod.mk.inj h2
    obtain ⟨y, e, hy⟩ := hs.hasher h1
    exact ⟨w, by rw [World.step, e, bind_ok, hy.finalize, bind_ok]; rfl, hs⟩
  | finalizeXof i =>
    obtain ⟨⟨m, b⟩, h1, h2⟩ := Option.map_eq_some_iff.1 h
    obtain ⟨rfl, rfl⟩ := Prod.mk.inj h2
    obtain ⟨y, e, hy⟩ := hs.hasher h1
    obtain ⟨z, e', -, hz⟩ := hy.finalize_xof
    exact ⟨⟨w.hashers, w.outputs ++ [z]⟩, by rw [World.step, e, bind_ok, e', bind_ok]; rfl, hs.hashers, hs.outputs.push (OutAt.zero hz)⟩
  | read j =>
    obtain ⟨⟨m, b, k⟩, h1, h2⟩ := Option.bind_eq_some_iff.1 h
    dsimp only at h2
    split at h2
    next hk =>
      obtain ⟨rfl, rfl⟩ := Prod.mk.inj (Option.some.inj h2)
      obtain ⟨y, e, hy⟩ := hs.output h1
      refine ⟨⟨w.hashers, w.outputs.set j { y with offset := BitVec.ofNat 64 (64 * (k + 1)) }⟩, ?_, hs.hashers,
        hs.outputs.set (y := (m, b, k + 1)) hy.next j⟩
      rw [World.step, e, bind_ok, hy.read prof (Or.inr hk), bind_ok]
      have := slice_block m b k 64 (by decide)
      rw [List.take_of_length_le (by simp)] at this
      dsimp only
      rw [← this]
      rfl
    next => cases h2
  | toHash j =>
    obtain ⟨⟨m, b, k⟩, h1, h2⟩ := Option.map_eq_some_iff.1 h
    obtain ⟨rfl, rfl⟩ := Prod.mk.inj h2
    obtain ⟨y, e, hy⟩ := hs.output h1
    exact ⟨w, by rw [World.step, e, bind_ok, hy.to_hash]; rfl, hs⟩
  | cloneOut j =>
    obtain ⟨⟨m, b, k⟩, h1, h2⟩ := Option.map_eq_some_iff.1 h
    obtain ⟨rfl, rfl⟩ := Prod.mk.inj h2
    obtain ⟨y, e, hy⟩ := hs.output h1
    exact ⟨⟨w.hashers, w.outputs ++ [y]⟩, by rw [World.step, e, bind_ok]; rfl, hs.hashers, hs.outputs.push (y := (m, b, k)) hy⟩

theorem run_stands {cfg : Config} (prof : Profile) (cs : List Call) : ∀ {w : World} {s : Ideal} {os : List Obs},
    Stands cfg w s → s.run cs = some os → w.run cfg prof cs = .ok os := by
  induction cs with
  | nil => intro w s os _ h; rw [World.run, Option.some.inj h]
  | cons c cs ih =>
    intro w s os hs h
    obtain ⟨⟨o, s1⟩, h1, h2⟩ := Option.bind_eq_some_iff.1 h
    obtain ⟨os1, h3, rfl⟩ := Option.map_eq_some_iff.1 h2
    obtain ⟨w1, e, hw⟩ := step_stands prof c hs h1
    rw [World.run, e, bind_ok]
    dsimp only
    rw [ih hw h3]
    rfl

/-- C03.  Every call of every program over any number of hashers and outputs returns what it should:
`finalize` the hash of exactly the bytes given so far to this hasher (and, before it was cloned, to
its ancestors), `read` and `to_hash` the right part of the stream of the bytes the hasher had been
given when `finalize_xof` was called. -/
theorem C03_histories (cfg : Config) (prof : Profile) (cs : List Call) (os : List Obs)
    (h : Ideal.run ⟨[], []⟩ cs = some os) : World.run cfg prof ⟨[], []⟩ cs = .ok os :=
  run_stands prof cs ⟨⟨rfl, fun i h => absurd h (by simp)⟩, ⟨rfl, fun i h => absurd h (by simp)⟩⟩ h

/-- C03, C11.  No program of the kind considered panics. -/
theorem C11_histories_no_panic (cfg : Config) (prof : Profile) (cs : List Call)
    (h : (Ideal.run ⟨[], []⟩ cs).isSome) (e : Panic) : World.run cfg prof ⟨[], []⟩ cs ≠ .error e := by
  obtain ⟨os, h⟩ := Option.isSome_iff_exists.1 h
  rw [C03_histories cfg prof cs os h]
  intro h; cases h

-- a program with a clone that goes its own way, an output that outlives an update, and two modes
example (k : Vector Byte 32) : Ideal.run ⟨[], []⟩
    [.new .hash, .new (.keyedHash k), .update 0 (rep 5000 1), .clone 0, .update 1 (rep 10 3), .finalizeXof 0,
     .write 2 (rep 3 2), .finalize 0, .update 0 (rep 1 9), .finalize 2, .finalize 1, .toHash 0, .flush 0] =
    some [.none, .none, .none, .none, .none, .none, .count 3, .bytes (Spec.hash .hash (rep 5000 1)).toList, .none,
      .bytes (Spec.hash .hash (rep 5000 1 ++ rep 3 2)).toList,
      .bytes (Spec.hash (.keyedHash k) (rep 10 3)).toList,
      .bytes ((List.range 32).map fun i => Spec.streamByte .hash (rep 5000 1) (64 * 0 + i)), .success true] := by
  simp [Ideal.run, Ideal.step, Ideal.step.give]

/-- C11.  No check fails in any chain of updates below 2^64 bytes, nor in finalization after it. -/
theorem C11_no_panic (cfg : Config) (m : Spec.Mode) (ss : List Bytes) (hl : ss.flatten.length < 2 ^ 64) :
    ∃ h o d, (newHasher cfg m).updates cfg ss = .ok h ∧ h.finalize_xof = .ok o ∧ h.finalize = .ok d := by
  obtain ⟨h, e, hh⟩ := (HasherAt.new cfg m).updates ss (by simpa using hl)
  obtain ⟨o, e', -⟩ := hh.finalize_xof
  exact ⟨h, o, _, e, e', hh.finalize⟩

/-- C22.  `write` takes the whole slice and reports its length, `write_all` and `flush` succeed, and
their effect is that of `update`. -/
theorem C22_write (cfg : Config) (m : Spec.Mode) (ss : List Bytes) (s : Bytes)
    (hl : ss.flatten.length + s.length < 2 ^ 64) :
    ∃ h h', (newHasher cfg m).updates cfg ss = .ok h ∧ h.update cfg s = .ok h' ∧
      h.write cfg s = .ok (s.length, h') ∧ (s ≠ [] → h.write_all cfg s = .ok (true, h')) ∧
      h.write_all cfg [] = .ok (true, h) ∧ h.flush = .ok h := by
  obtain ⟨h, e, hh⟩ := (HasherAt.new cfg m).updates ss (by rw [List.length_nil]; omega)
  rw [List.nil_append] at hh
  obtain ⟨h', e', e2, -⟩ := hh.write s hl
  refine ⟨h, h', e, e2, e', fun h0 => ?_, ?_, rfl⟩
  · obtain ⟨h2, e3, -, e4⟩ := hh.write_all s hl
    have := e4 h0
    rw [e2] at this
    rw [e3, Except.ok.inj this]
  · rw [Hasher.write_all, dif_pos rfl]

/-- C22.  An empty `update` (and so an empty `write` or `write_all`) does not change what the
hasher returns. -/
theorem C22_empty (cfg : Config) (m : Spec.Mode) (ss : List Bytes) (hl : ss.flatten.length < 2 ^ 64) :
    ∃ h h', (newHasher cfg m).updates cfg ss = .ok h ∧ h.update cfg [] = .ok h' ∧ h'.finalize = h.finalize := by
  obtain ⟨h, e, hh⟩ := (HasherAt.new cfg m).updates ss (by simpa using hl)
  obtain ⟨h', e', hh'⟩ := hh.update [] (by simpa using hl)
  refine ⟨h, h', e, e', ?_⟩
  rw [hh.finalize, hh'.finalize, List.append_nil]

/-- C36.  Memory.  The number of subtree hashes kept is the number of 1 bits in the number `n` of
chunks hashed so far, or, if the input ends with a chunk that may still turn out to be the last, one
more than that of `n - 1`.  It is at most `log2 (len / 2048) + 1` and at most 53.  Never more than
64 input bytes are kept. -/
theorem C36_memory (cfg : Config) (m : Spec.Mode) (ss : List Bytes) (hl : ss.flatten.length < 2 ^ 64) :
    ∃ h, (newHasher cfg m).updates cfg ss = .ok h ∧
      (∃ n, 2048 * n ≤ ss.flatten.length ∧ ss.flatten.length ≤ 2048 * n + 2048 ∧
        (h.subtree_hashes.length = popcount n ∨
          (ss.flatten.length = 2048 * n ∧ 2 ≤ n ∧ h.subtree_hashes.length = popcount (n - 1) + 1))) ∧
      h.subtree_hashes.length ≤ Nat.log2 (ss.flatten.length / 2048) + 1 ∧
      h.subtree_hashes.length ≤ 53 ∧ h.chunk.buf_len ≤ 64 := by
  obtain ⟨h, e, hh⟩ := (HasherAt.new cfg m).updates ss (by simpa using hl)
  have := hh.1.memory _ _ hh.2
  rw [List.nil_append] at this
  exact ⟨h, e, this⟩

example : [rep 2048 1, [], rep 16395 1].flatten.length + (rep 100 7).length < 2 ^ 64 := by simp

end Baokeshed.Props
