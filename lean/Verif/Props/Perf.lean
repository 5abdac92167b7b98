import Verif.Props.Oblivious
import Verif.Props.Lanes
import Verif.Proofs.Perf

/-!
# C58: the three modes have the same performance characteristics

lib.rs:7-9.  The recording functions of Model/Isa.lean return what the functions of the model return (`C52_same_results`), and
record the calls of compression functions and kernels and the copies into block buffers, in order.
-/

namespace Baokeshed.Props
open Baokeshed.Model Baokeshed.Proofs

/-- A recorded event without the two bits of the flags that name the mode, `KEYED_HASH` and `DERIVE_KEY`, lib.rs:47-48. -/
def unnamed : I.Ev → I.Ev
  | .compress sse flags => .compress sse (flags &&& ~~~(Flags.KEYED_HASH ||| Flags.DERIVE_KEY))
  | .xof sse => .xof sse
  | .hash1 sse len => .hash1 sse len
  | .hash4 len => .hash4 len
  | .hash8 len => .hash8 len
  | .manySse41 => .manySse41
  | .manyAvx2 => .manyAvx2
  | .copy n => .copy n

/-- What a run costs: the functions it calls, on inputs of which lengths, in which order, the bytes it copies, and the reason of
a panic. -/
def cost {α : Type} (x : I.IR α) : List I.Ev × Option Panic :=
  (x.log.map unnamed, match x.res with | .ok _ => none | .error e => some e)

theorem unnamed_eq (e : I.Ev) : unnamed e = Perf.pub e := by cases e <;> rfl

theorem cost_eq {α β : Type} {x : I.IR α} {y : I.IR β} {Q : α → β → Prop} (h : Perf.Rel Q x y) : cost x = cost y := by
  obtain ⟨rx, lx⟩ := x
  obtain ⟨ry, ly⟩ := y
  obtain ⟨h1, h2⟩ := h
  refine Prod.ext ?_ ?_
  · show lx.map unnamed = ly.map unnamed
    rw [List.map_congr_left fun e _ => unnamed_eq e, List.map_congr_left fun e _ => unnamed_eq e]
    exact h1
  · cases rx <;> cases ry
    · exact congrArg some h2
    · exact h2.elim
    · exact h2.elim
    · rfl

/-- C58.  A one-shot function of any mode costs what that of any other mode costs on as many bytes, also when more output is
read, on any machine, also outside the supported lengths. -/
theorem C58_one_shot (cfg : Config) (prof : Profile) (m m' : Spec.Mode) (x y : Bytes) (h : x.length = y.length)
    (os : List OutCall) : cost (I.oneShotRun cfg prof m x os) = cost (I.oneShotRun cfg prof m' y os) :=
  cost_eq (Perf.rel_oneShotRun cfg prof m m' h os)

/-- C58.  The same for every sequence of `update`s, `finalize_xof`s and reads on hashers of two modes. -/
theorem C58_session (cfg : Config) (prof : Profile) (m m' : Spec.Mode) (cs ds : List HCall) (h : SameCalls cs ds) :
    cost (I.Hasher.session cfg prof cs (newHasher cfg m)) = cost (I.Hasher.session cfg prof ds (newHasher cfg m')) := by
  have hc : Obl.SameCalls cs ds := by
    induction h with
    | nil => exact .nil
    | update s t e _ ih => exact .cons (.update s t e) ih
    | output os _ ih => exact .cons (.output os) ih
  have hs : Perf.SimH (newHasher cfg m) (newHasher cfg m') := by
    have e : ∀ m : Spec.Mode, (newHasher cfg m).chunk.flags &&& 0xcf = 0 := fun m => by
      cases m
      · exact (by decide : (0 : Byte) &&& 0xcf = 0)
      · exact (by decide : Flags.KEYED_HASH &&& 0xcf = 0)
      · exact (by decide : Flags.DERIVE_KEY &&& 0xcf = 0)
    have e' : Perf.Low (newHasher cfg m).chunk.flags (newHasher cfg m').chunk.flags := (e m).trans (e m').symm
    cases m <;> cases m' <;> exact ⟨rfl, rfl, rfl, rfl, e', rfl⟩
  exact cost_eq (Perf.rel_session cfg prof hc hs)

/-! The hypotheses can be met.  By `C57_one_shot` the list recorded for 25000 bytes on AVX2 contains a call of `hash8` and one of
`hash4`. -/

example (k k' : Vector Byte 32) (x y : Bytes) (hx : x.length = 25000) (hy : y.length = 25000) (os : List OutCall) :
    cost (I.oneShotRun Isa.haswell .debug (.keyedHash k) x os) = cost (I.oneShotRun Isa.haswell .debug (.deriveKey k') y os) :=
  C58_one_shot _ _ _ _ x y (hx.trans hy.symm) os
/-- the events of the two modes are not the same before the bits of the mode are dropped -/
example (k : Vector Byte 32) : (I.oneShot Isa.haswell .hash []).log = [.copy 0, .compress true 11] ∧
    (I.oneShot Isa.haswell (.keyedHash k) []).log = [.copy 0, .compress true 27] ∧
    unnamed (.compress true 11) = unnamed (.compress true 27) := by
  have h : ∀ (key : Vector Word 8) (f : Byte), (I.hash_internal Isa.haswell [] key f >>= I.Output.to_hash).log =
      [.copy 0, .compress true (f ||| Flags.CHUNK_START ||| Flags.CHUNK_END ||| Flags.ROOT)] := by
    intro key f
    have e : I.hash_internal Isa.haswell [] key f = I.hash_one_chunk [] key 0 .root f .avx2 := rfl
    rw [e, I.hash_one_chunk, I.hash_one_chunk_loop]
    rfl
  exact ⟨h _ _, h _ _, rfl⟩

end Baokeshed.Props
