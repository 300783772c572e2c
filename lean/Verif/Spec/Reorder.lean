import Verif.Model.Reorder
import Verif.Spec.SnakeMotion
import Verif.Spec.Container

/-!
# What the numbers on an edge have to be
-/

namespace RSVS.Spec

variable {K : Type} [Field K] [LinearOrder K]

/-- A snaxel that came and has no number. -/
def IsNew (s : Snax K) : Prop := s.orderedge = -1

/-- The number of snaxels of the edge of `s` that have the property. -/
def onEdge (l : List (Snax K)) (s : Snax K) (P : Snax K → Bool) : Nat := l.countP fun t => decide (t.edgeind = s.edgeind) && P t

/-- New snaxels are at the ends of their edges, the others between them and numbered by their positions. -/
structure Arrived (l : List (Snax K)) : Prop where
  dir : ∀ s ∈ l, s.fromvert ≠ s.tovert
  atEnd : ∀ s ∈ l, IsNew s → s.d = 0 ∨ s.d = 1
  between : ∀ s ∈ l, ¬ IsNew s → 0 < s.d ∧ s.d < 1 ∧ 0 < s.orderedge
  order : ∀ s ∈ l, ∀ t ∈ l, s.edgeind = t.edgeind → ¬ IsNew s → ¬ IsNew t → (s.orderedge < t.orderedge ↔ lowPos s < lowPos t)
  one : ∀ (p q : Nat) (s t : Snax K), l[p]? = some s → l[q]? = some t → IsNew s → IsNew t → s.edgeind = t.edgeind → lowPos s = lowPos t → p = q

/-- The numbers of the snaxels that are not new are 1, 2, … on each edge. -/
structure NoGaps (l : List (Snax K)) : Prop where
  numbers : ∀ s ∈ l, ¬ IsNew s → s.orderedge = onEdge l s (fun t => decide (t.orderedge ≠ -1 ∧ lowPos t < lowPos s)) + 1
  apart : ∀ (p q : Nat) (s t : Snax K), l[p]? = some s → l[q]? = some t → ¬ IsNew s → ¬ IsNew t → s.edgeind = t.edgeind → lowPos s = lowPos t → p = q

/-- `l'` is `l` with other numbers. -/
def NumbersOnly (l l' : List (Snax K)) : Prop := ∃ f : Nat → Int, l' = l.mapIdx fun p s => { s with orderedge := f p }

/-- The numbers follow the positions on each edge. -/
def FollowsPos (l' : List (Snax K)) : Prop :=
  ∀ s ∈ l', 0 < s.orderedge ∧ ∀ t ∈ l', s.edgeind = t.edgeind → (s.orderedge < t.orderedge ↔ lowPos s < lowPos t)

/-- The numbers are 1, 2, … along each edge. -/
def Counted (l' : List (Snax K)) : Prop := ∀ s ∈ l', s.orderedge = onEdge l' s (fun t => decide (lowPos t < lowPos s)) + 1

end RSVS.Spec
