import Mathlib.Algebra.Order.Field.Rat
import Mathlib.Algebra.Order.AbsoluteValue.Basic

/-!
# Specification of the points around a domain

A box is between `lo` and `up` in each of three directions.
-/

namespace RSVS.Spec

/-- Coordinate `j` at the upper (`b`) or lower end of the box; in direction `a` it is moved out by `tol` times the length of the box. -/
def BoxEnd (lo up : Nat → ℚ) (tol : ℚ) (a : Nat) (b : Bool) (j : Nat) : ℚ :=
  (if b then up j else lo j) + if j = a then (if b then 1 else -1) * (tol * (up j - lo j)) else 0

/-- A corner of the box, moved out in direction `a` (not at all if this is 3). -/
def CornerPoint (lo up : Nat → ℚ) (tol : ℚ) (b : Nat → Bool) (a : Nat) (p : List ℚ) : Prop :=
  p = [BoxEnd lo up tol a (b 0) 0, BoxEnd lo up tol a (b 1) 1, BoxEnd lo up tol a (b 2) 2]

/-- A point of an edge in direction `l` of the box, at `t` of its length, moved out in direction `a`. -/
def EdgePoint (lo up : Nat → ℚ) (tol : ℚ) (l a : Nat) (b : Nat → Bool) (t : ℚ) (p : List ℚ) : Prop :=
  p.length = 3 ∧ ∀ j < 3, p[j]? = some (if j = l then lo l + t * (up l - lo l) else BoxEnd lo up tol a (b j) j)

end RSVS.Spec
