import Verif.Model.Isa
import Verif.SpecSchedule

/-!
# The one-shot functions with the `rayon` feature, recording the functions entered

/repo/src/lib.rs:436-552 once more, as in Model/Par.lean, but with the events of Model/Isa.lean: which functions of platform.rs,
portable.rs, sse41.rs and avx2.rs are entered and which bytes are copied, in series and in parallel.  `join` returns the pair of
both results; that the results do not depend on the interleaving is the subject of Model/Rayon.lean.
-/

namespace Baokeshed.Model.PI
open Baokeshed.Model Baokeshed.Model.I

/-- A computation that may panic, and what it calls in series and in parallel. -/
structure PIR (α : Type) where
  res : R α
  work : Spec.Events Ev

instance : Monad PIR where
  pure a := ⟨.ok a, .list []⟩
  bind x f := match x.res with
    | .ok a => ⟨(f a).res, .seq x.work (f a).work⟩
    | .error e => ⟨.error e, x.work⟩

instance : MonadLift IR PIR where
  monadLift x := ⟨x.res, .list x.log⟩

instance : MonadLift R PIR where
  monadLift r := ⟨r, .list []⟩

/-- `rayon::join`, lib.rs:436-447.  A panic of either argument is a panic of `join`; what the other argument does, it may have
done or not. -/
def join {α β} (oper_a : PIR α) (oper_b : PIR β) : PIR (α × β) :=
  ⟨do let a ← oper_a.res
      let b ← oper_b.res
      return (a, b),
   .par oper_a.work oper_b.work⟩

/-- lib.rs:450-512 -/
def hash_recurse (cfg : Config) (input : Bytes) (key : Vector Word 8) (offset : U64) (flags : Byte)
    (p : Platform) (out : Bytes) : PIR (Nat × Bytes) :=
  if input.length ≤ p.simd_degree * CHUNK_LEN then
    (I.hash_chunks_parallel cfg input key offset flags p out : IR (Nat × Bytes))
  else
    match _hl : left_len cfg.usizeBits input.length with
    | .error e => ⟨.error e, .list []⟩
    | .ok l =>
      let left := input.take l
      let right := input.drop l
      do
        let right_off ← addU64 offset (BitVec.ofNat 64 left.length)
        assertR (popcount p.simd_degree = 1)
        let children_array : Bytes := List.replicate (2 * MAX_SIMD_DEGREE_OR_2 cfg * OUT_LEN) 0
        let degree := if left.length = CHUNK_LEN then 1 else max p.simd_degree 2
        let (left_out, right_out) ← splitAtR children_array (degree * OUT_LEN)
        let ((left_n, left_out), (right_n, right_out)) ← join
          (hash_recurse cfg left key offset flags p left_out)
          (hash_recurse cfg right key right_off flags p right_out)
        let children_array := left_out ++ right_out
        assertR (left_n = degree)
        assertR (1 ≤ right_n ∧ right_n ≤ left_n)
        if left_n = 1 then
          let c ← sliceTo children_array (2 * OUT_LEN)
          let out ← writeAt out 0 c
          return (2, out)
        else
          let num_children := left_n + right_n
          let c ← sliceTo children_array (num_children * OUT_LEN)
          (I.hash_parents_parallel cfg c key flags p out : IR (Nat × Bytes))
termination_by input.length
decreasing_by
  · have := left_len_lt _hl
    simp only [List.length_take]; omega
  · have := left_len_pos _hl
    have := left_len_lt _hl
    simp only [List.length_drop]; omega

/-- lib.rs:538-552 -/
def hash_internal (cfg : Config) (input : Bytes) (key_words : Vector Word 8) (flags : Byte) : PIR Output := do
  let p := Platform.detect cfg
  if input.length ≤ CHUNK_LEN then
    (I.hash_one_chunk input key_words 0 .root flags p : IR Output)
  else
    let children_array : Bytes := List.replicate (MAX_SIMD_DEGREE_OR_2 cfg * OUT_LEN) 0
    let (num_children, children_array) ← hash_recurse cfg input key_words 0 flags p children_array
    let c ← sliceTo children_array (num_children * OUT_LEN)
    (I.condense_root cfg c key_words flags p : IR Output)

/-- `hash_xof` / `keyed_hash_xof` / `derive_key_xof`, lib.rs:560-562, 574-577, 593-596 -/
def oneShotXof (cfg : Config) : Spec.Mode → Bytes → PIR Output
  | .hash, input => hash_internal cfg input IV 0
  | .keyedHash k, input => hash_internal cfg input (words_from_key_bytes k) Flags.KEYED_HASH
  | .deriveKey k, input => hash_internal cfg input (words_from_key_bytes k) Flags.DERIVE_KEY

/-- `hash` / `keyed_hash` / `derive_key`, lib.rs:555-557, 567-569, 584-586 -/
def oneShot (cfg : Config) (m : Spec.Mode) (input : Bytes) : PIR (Vector Byte 32) := do
  let o ← oneShotXof cfg m input
  (I.Output.to_hash o : IR (Vector Byte 32))

/-- A one-shot `_xof` function followed by calls on the `Output` it returns. -/
def oneShotRun (cfg : Config) (prof : Profile) (m : Spec.Mode) (input : Bytes) (os : List OutCall) : PIR (List Bytes) := do
  let o ← oneShotXof cfg m input
  let (rs, _) ← (I.Output.run prof os o : IR (List Bytes × Output))
  return rs

end Baokeshed.Model.PI
