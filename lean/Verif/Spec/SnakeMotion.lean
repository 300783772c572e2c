import Verif.Model.SnakeMotion

/-!
# Specification of snaxel motion, independent of the formulas of the code

Only the record `Snax` is taken from the model.
-/

namespace RSVS.Spec

variable {K : Type} [Field K] [LinearOrder K]

/-- Position on the edge measured from vertex `A`. -/
def posFrom (A : Int) (s : Snax K) : K := if s.fromvert = A then s.d else 1 - s.d

/-- Velocity away from vertex `A`. -/
def velFrom (A : Int) (s : Snax K) : K := if s.fromvert = A then s.v else -s.v

/-- The snaxel lies on an edge with the two distinct vertices `A`, `B`, in either direction. -/
def OnEdge (A B : Int) (s : Snax K) : Prop :=
  A ≠ B ∧ ((s.fromvert = A ∧ s.tovert = B) ∨ (s.fromvert = B ∧ s.tovert = A))

/-- `t` is a time of contact of two snaxels: 0 when they are within `eps`, otherwise a time at which
they are at the same place; only when their relative speed is at least `eps`. -/
def IsContact (eps : K) (A : Int) (a b : Snax K) (t : K) : Prop :=
  (|posFrom A b - posFrom A a| < eps ∧ t = 0) ∨
  (eps ≤ |posFrom A b - posFrom A a| ∧ eps ≤ |velFrom A b - velFrom A a| ∧
    posFrom A a + velFrom A a * t = posFrom A b + velFrom A b * t)

/-- `d` is the least of `d0` and of the non-negative members of `S`. -/
def MinOver (d0 : K) (S : K → Prop) (d : K) : Prop :=
  d ≤ d0 ∧ (∀ t, S t → 0 ≤ t → d ≤ t) ∧ (d = d0 ∨ (S d ∧ 0 ≤ d))

/-- Outermost at its `fromvert`, by order number counted from the lower-index vertex. -/
def OutermostFrom (n : Nat) (s : Snax K) : Prop :=
  if s.fromvert < s.tovert then s.orderedge = 1 else s.orderedge = n

/-- Outermost at its `tovert`, by order number counted from the lower-index vertex. -/
def OutermostTo (n : Nat) (s : Snax K) : Prop :=
  if s.fromvert < s.tovert then s.orderedge = n else s.orderedge = 1

/-- Position measured from the lower-index vertex of the edge. -/
def lowPos (s : Snax K) : K := posFrom (min s.fromvert s.tovert) s

end RSVS.Spec
