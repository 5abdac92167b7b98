import Verif.SpecOracle
import Verif.SpecExtract

/-!
# A world without the mode

An algorithm asks for compressions (`inl`) and for blocks of output (`inr`).  In the world of this file the blocks come from a
function that has nothing to do with compressions, and somebody, the simulator, invents the results of the compressions.  The
simulator is not told which blocks are asked for.
-/

namespace Baokeshed.Spec

/-- Run an algorithm.  Requests `inr μ` are answered by `R`.  Questions `inl a` are answered by the simulator: the same as
before, if it was asked before; otherwise `R μ`, if `see` takes the question for the root node of the request `μ`, looking only at
the questions and answers so far, `tbl`; otherwise `F a`, a value of its own. -/
def simulated {X Y M α : Type} [BEq X] (see : List (X × Y) → X → Option M) (F : X → Y) (R : M → Y) :
    Algo (X ⊕ M) Y α → List (X × Y) → α
  | .done a, _ => a
  | .ask (.inl a) k, tbl =>
    match tbl.lookup a with
    | some y => simulated see F R (k y) tbl
    | none =>
      let y := match see tbl a with
        | some μ => R μ
        | none => F a
      simulated see F R (k y) (tbl ++ [(a, y)])
  | .ask (.inr μ) k, tbl => simulated see F R (k (R μ)) tbl

/-- A request for output: the mode with its key, the input, and the number of the 64-byte block. -/
abbrev Wanted := Mode × Bytes × Nat

/-- the answers of a table, and anything else for questions that are not in it -/
def answers (tbl : List (Input × Full)) (a : Input) : Full :=
  (tbl.lookup a).getD (Vector.replicate 8 0, Vector.replicate 8 0)

/-- How the simulator recognises a root node: it reads an input back from the earlier questions and answers without `ROOT`
(`Record.subtree`), and then compares, by computing the root node of that input from the table alone. -/
def recognise (tbl : List (Input × Full)) (a : Input) : Option Wanted := do
  let r : Record := (tbl.filter fun p => p.1.flags &&& rootFlag = 0).map fun p => (p.1, p.2.1)
  let (key, x) ← r.subtree 53 a
  let m := modeOf a.flags key
  let k := a.offset.toNat / 64
  if (∀ n ∈ (rootAsk m x).asked (answers tbl), n ∈ tbl.map (·.1)) ∧
      { (rootAsk m x).result (answers tbl) with offset := BitVec.ofNat 64 (64 * k) } = a then
    some (m, x, k)
  else none

/-- Requests for inputs of at most `N` bytes.  The output has 2^58 blocks. -/
abbrev Want (N : Nat) := { w : Wanted // w.2.1.length ≤ N ∧ w.2.2 < 2 ^ 58 }

/-- the same for these requests -/
def seen (N : Nat) (tbl : List (Input × Full)) (a : Input) : Option (Want N) :=
  (recognise tbl a).bind fun w => if h : w.2.1.length ≤ N ∧ w.2.2 < 2 ^ 58 then some ⟨w, h⟩ else none

end Baokeshed.Spec
