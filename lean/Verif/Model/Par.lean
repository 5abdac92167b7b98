import Verif.Model.Trace
import Verif.SpecSpan

/-!
# Model of the one-shot functions with the `rayon` feature, recording what can happen side by side

/repo/src/lib.rs:436-552 once more.  `join` runs its two arguments in parallel; everything else is sequential and is
taken from Model/Trace.lean.  That the results do not depend on the interleaving is the subject of Model/Rayon.lean; here
`join` returns the pair of both results.
-/

namespace Baokeshed.Model.P
open Baokeshed.Model Baokeshed.Model.T

/-- A computation that may panic, and the compressions it performs in series and in parallel. -/
structure PR (α : Type) where
  res : R α
  work : Spec.Work

instance : Monad PR where
  pure a := ⟨.ok a, .calls []⟩
  bind x f := match x.res with
    | .ok a => ⟨(f a).res, .seq x.work (f a).work⟩
    | .error e => ⟨.error e, x.work⟩

instance : MonadLift TR PR where
  monadLift x := ⟨x.res, .calls x.log⟩

instance : MonadLift R PR where
  monadLift r := ⟨r, .calls []⟩

/-- `rayon::join`, lib.rs:436-447.  A panic of either argument is a panic of `join`. -/
def join {α β} (oper_a : PR α) (oper_b : PR β) : PR (α × β) :=
  ⟨do let a ← oper_a.res
      let b ← oper_b.res
      return (a, b),
   .par oper_a.work oper_b.work⟩

/-- lib.rs:450-512 -/
def hash_recurse (cfg : Config) (input : Bytes) (key : Vector Word 8) (offset : U64) (flags : Byte)
    (p : Platform) (out : Bytes) : PR (Nat × Bytes) :=
  if input.length ≤ p.simd_degree * CHUNK_LEN then
    (T.hash_chunks_parallel cfg input key offset flags p out : TR (Nat × Bytes))
  else
    match _hl : left_len cfg.usizeBits input.length with
    | .error e => ⟨.error e, .calls []⟩
    | .ok l =>
      let left := input.take l
      let right := input.drop l
      do
        let right_off ← addU64 offset (BitVec.ofNat 64 left.length)
        assertR (popcount p.simd_degree = 1)
        let children_array : Bytes := List.replicate (2 * MAX_SIMD_DEGREE_OR_2 cfg * OUT_LEN) 0
        let degree := if left.length = CHUNK_LEN then 1 else max p.simd_degree 2
        let (left_out, right_out) ← splitAtR children_array (degree * OUT_LEN)
        let ((left_n, left_out), (right_n, right_out)) ← join
          (hash_recurse cfg left key offset flags p left_out)
          (hash_recurse cfg right key right_off flags p right_out)
        let children_array := left_out ++ right_out
        assertR (left_n = degree)
        assertR (1 ≤ right_n ∧ right_n ≤ left_n)
        if left_n = 1 then
          let c ← sliceTo children_array (2 * OUT_LEN)
          let out ← writeAt out 0 c
          return (2, out)
        else
          let num_children := left_n + right_n
          let c ← sliceTo children_array (num_children * OUT_LEN)
          (T.hash_parents_parallel cfg c key flags p out : TR (Nat × Bytes))
termination_by input.length
decreasing_by
  · have := left_len_lt _hl
    simp only [List.length_take]; omega
  · have := left_len_pos _hl
    have := left_len_lt _hl
    simp only [List.length_drop]; omega

/-- lib.rs:538-552 -/
def hash_internal (cfg : Config) (input : Bytes) (key_words : Vector Word 8) (flags : Byte) : PR Output := do
  let p := Platform.detect cfg
  if input.length ≤ CHUNK_LEN then
    (T.hash_one_chunk input key_words 0 .root flags p : TR Output)
  else
    let children_array : Bytes := List.replicate (MAX_SIMD_DEGREE_OR_2 cfg * OUT_LEN) 0
    let (num_children, children_array) ← hash_recurse cfg input key_words 0 flags p children_array
    let c ← sliceTo children_array (num_children * OUT_LEN)
    (T.condense_root cfg c key_words flags p : TR Output)

/-- `hash_xof` / `keyed_hash_xof` / `derive_key_xof`, lib.rs:560-562, 574-577, 593-596 -/
def oneShotXof (cfg : Config) : Spec.Mode → Bytes → PR Output
  | .hash, input => hash_internal cfg input IV 0
  | .keyedHash k, input => hash_internal cfg input (words_from_key_bytes k) Flags.KEYED_HASH
  | .deriveKey k, input => hash_internal cfg input (words_from_key_bytes k) Flags.DERIVE_KEY

/-- `hash` / `keyed_hash` / `derive_key`, lib.rs:555-557, 567-569, 584-586 -/
def oneShot (cfg : Config) (m : Spec.Mode) (input : Bytes) : PR (Vector Byte 32) := do
  let o ← oneShotXof cfg m input
  (T.Output.to_hash o : TR (Vector Byte 32))

end Baokeshed.Model.P
