import Verif.Model.Lib
import Verif.Spec

/-!
# The public API, one entry point per mode

Only dispatch on the mode; used to state theorems about "all three modes" once.
-/

namespace Baokeshed.Model

/-- `hash_xof` / `keyed_hash_xof` / `derive_key_xof`, lib.rs:560, 574, 593 -/
def oneShotXof (cfg : Config) : Spec.Mode → Bytes → R Output
  | .hash, input => hash_xof cfg input
  | .keyedHash k, input => keyed_hash_xof cfg k input
  | .deriveKey k, input => derive_key_xof cfg k input

/-- `hash` / `keyed_hash` / `derive_key`, lib.rs:555, 567, 584 -/
def oneShot (cfg : Config) : Spec.Mode → Bytes → R (Vector Byte 32)
  | .hash, input => hash cfg input
  | .keyedHash k, input => keyed_hash cfg k input
  | .deriveKey k, input => derive_key cfg k input

/-- `n` calls of `Output::read`; the bytes read, in order. -/
def Output.readMany (prof : Profile) : Nat → Output → R (Bytes × Output)
  | 0, o => .ok ([], o)
  | n + 1, o => do
    let (b, o) ← o.read prof
    let (bs, o) ← readMany prof n o
    return (b.toList ++ bs, o)

/-- A call on an `Output`. -/
inductive OutCall where
  | read
  | toHash
  deriving DecidableEq

/-- A sequence of calls on one `Output`; what each call returned. -/
def Output.run (prof : Profile) : List OutCall → Output → R (List Bytes × Output)
  | [], o => .ok ([], o)
  | .read :: cs, o => do
    let (b, o) ← o.read prof
    let (rs, o) ← run prof cs o
    return (b.toList :: rs, o)
  | .toHash :: cs, o => do
    let h := o.to_hash
    let (rs, o) ← run prof cs o
    return (h.toList :: rs, o)

end Baokeshed.Model
