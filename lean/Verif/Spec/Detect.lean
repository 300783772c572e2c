import Verif.Spec.SnakeMotion
import Verif.Spec.SnakeJoin

/-!
# Specification of the detection of impacts on a whole snake
-/

namespace RSVS.Spec

variable {K : Type} [Field K] [LinearOrder K]

/-- No other snaxel is on the edge of this one. -/
def Alone (l : List (Snax K)) (a : Snax K) : Prop := ∀ b ∈ l, b.edgeind = a.edgeind → b = a

/-- What is reported on a snake: snaxels which touch, and snaxels at the ends of their edges.  `low e` is the end of edge `e` with the lower index and `count e` the
number of snaxels on it. -/
structure Detected (eps : K) (low : Int → Int) (count : Int → Nat) (l : List (Snax K)) (L : List (Int × Int)) : Prop where
  /-- pairs: neighbours on an edge which touch -/
  contacts : ∀ i j, 0 < j → ((i, j) ∈ L ↔ ∃ a ∈ l, ∃ b ∈ l, a.edgeind = b.edgeind ∧ a.index = i ∧ b.index = j ∧
    (a.orderedge - b.orderedge = 1 ∨ b.orderedge - a.orderedge = 1) ∧ ∃ t, |t| < eps ∧ IsContact eps (low a.edgeind) a b t)
  /-- arrivals of snaxels alone on their edges -/
  alone : ∀ a ∈ l, Alone l a → (((a.index, -1) ∈ L ↔ |a.d| < eps ∧ a.v ≤ 0) ∧ ((a.index, -2) ∈ L ↔ |a.d - 1| < eps ∧ 0 ≤ a.v))
  /-- arrivals on edges with several snaxels, which all travel from the end with the lower index -/
  several : ∀ a ∈ l, ¬ Alone l a → (∀ b ∈ l, b.edgeind = a.edgeind → b.fromvert < b.tovert) →
    (((a.index, -1) ∈ L ↔ |a.d| < eps ∧ a.v ≤ 0 ∧ OutermostFrom (count a.edgeind) a) ∧
     ((a.index, -2) ∈ L ↔ |a.d - 1| < eps ∧ 0 ≤ a.v ∧ OutermostTo (count a.edgeind) a))
  /-- nothing else -/
  only : ∀ p ∈ L, (∃ a ∈ l, a.index = p.1) ∧ (p.2 = -1 ∨ p.2 = -2 ∨ 0 < p.2)

end RSVS.Spec
