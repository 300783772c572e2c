import Verif.Model.Geometry

/-!
# Boxes and the points where lines leave them
-/

namespace RSVS.Spec

open RSVS.Geo

variable {K : Type} [Field K] [LinearOrder K]

/-- The point is in the closed box. -/
def InBox (lo hi p : P3 K) : Prop := ∀ i, lo i ≤ p i ∧ p i ≤ hi i

/-- The point is on a side of the box. -/
def OnSide (lo hi p : P3 K) : Prop := InBox lo hi p ∧ ∃ i, p i = lo i ∨ p i = hi i

/-- `p` is the last point of the box on the way from `o` along `d`: it is reached after `t`, and all points after it are outside. -/
def LeavesAt (lo hi o d p : P3 K) (t : K) : Prop :=
  0 ≤ t ∧ (∀ i, p i = o i + t * d i) ∧ OnSide lo hi p ∧ ∀ u > t, ¬ InBox lo hi fun i => o i + u * d i

end RSVS.Spec
