import Verif.Spec

/-!
# Work and span

What a computation on several processors does: calls of the compression function, one after the other or side by side.
-/

namespace Baokeshed.Spec

/-- Calls in series and in parallel. -/
inductive Work where
  /-- these calls, one after the other -/
  | calls (l : List Input)
  /-- first `a`, then `b` -/
  | seq (a b : Work)
  /-- `a` and `b` side by side -/
  | par (a b : Work)

/-- all calls, from left to right -/
def Work.all : Work → List Input
  | .calls l => l
  | .seq a b => a.all ++ b.all
  | .par a b => a.all ++ b.all

/-- The length of the longest chain of calls that have to happen one after the other: the time it takes with as many
processors as can be used, if every call takes one unit of time. -/
def Work.span : Work → Nat
  | .calls l => l.length
  | .seq a b => a.span + b.span
  | .par a b => max a.span b.span

end Baokeshed.Spec
