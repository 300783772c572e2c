import Mathlib.Algebra.Order.Field.Rat
import Mathlib.Algebra.Order.Group.Unbundled.Abs
import Verif.Spec.FaceFan

/-!
# Specification of flat faces
-/

namespace RSVS.Spec

/-- The corners of the surface are less than `tol` from one plane across an axis. -/
def AxisFlat (m : Mesh) (tol : ℚ) (f : Surf) : Prop :=
  ∃ k < 3, ∃ c : ℚ, ∀ v ∈ m.verts, (∃ e ∈ f.edgeind, EdgeVert m e v.index) → ∃ x, v.coord[k]? = some x ∧ |x - c| < tol

/-- The corners of the surface are in one plane across an axis. -/
def ExactlyFlat (m : Mesh) (f : Surf) : Prop :=
  ∃ k < 3, ∃ c : ℚ, ∀ v ∈ m.verts, (∃ e ∈ f.edgeind, EdgeVert m e v.index) → v.coord[k]? = some c

end RSVS.Spec
