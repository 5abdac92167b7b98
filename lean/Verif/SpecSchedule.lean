import Verif.SpecSpan

/-!
# Events in series and in parallel, and the orders in which they can happen
-/

namespace Baokeshed.Spec

/-- Events in series and in parallel. -/
inductive Events (ε : Type) where
  /-- these, one after the other -/
  | list (l : List ε)
  /-- first `a`, then `b` -/
  | seq (a b : Events ε)
  /-- `a` and `b` side by side -/
  | par (a b : Events ε)

/-- `Merge a b l`: `l` consists of `a` and `b`, each in its order, interleaved in any way. -/
inductive Merge {ε : Type} : List ε → List ε → List ε → Prop where
  | nil : Merge [] [] []
  | left (x : ε) {a b l : List ε} : Merge a b l → Merge (x :: a) b (x :: l)
  | right (x : ε) {a b l : List ε} : Merge a b l → Merge a (x :: b) (x :: l)

/-- `Order w l`: the events of `w` can happen in the order `l`. -/
inductive Order {ε : Type} : Events ε → List ε → Prop where
  | list (l : List ε) : Order (.list l) l
  | seq {a b : Events ε} {l l' : List ε} : Order a l → Order b l' → Order (.seq a b) (l ++ l')
  | par {a b : Events ε} {l l' r : List ε} : Order a l → Order b l' → Merge l l' r → Order (.par a b) r

/-- What is left of the events if only `f` of each can be seen. -/
def Events.map {ε ζ : Type} (f : ε → ζ) : Events ε → Events ζ
  | .list l => .list (l.map f)
  | .seq a b => .seq (a.map f) (b.map f)
  | .par a b => .par (a.map f) (b.map f)

/-- Calls of the compression function as events. -/
def Work.events : Work → Events Input
  | .calls l => .list l
  | .seq a b => .seq a.events b.events
  | .par a b => .par a.events b.events

end Baokeshed.Spec
