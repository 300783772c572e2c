import Mathlib.Algebra.Order.Field.Rat

/-! # Specification of velocities -/

namespace RSVS.Spec

/-- A velocity `v` of a snax at `d` of its edge is towards the middle of the edge. -/
def TowardsMiddle (d v : ℚ) : Prop := (1 / 2 < d → v < 0) ∧ (d < 1 / 2 → 0 < v) ∧ (d = 1 / 2 → v = 0)

end RSVS.Spec
