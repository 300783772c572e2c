import Verif.Spec.Geometry
import Verif.Spec.Mesh

/-!
# Specification of points in cells
-/

namespace RSVS.Spec

open RSVS

variable {K : Type} [Field K] [LinearOrder K]

/-- `v` is a corner of the volume: the end of an edge of one of its surfaces. -/
def VoluCorner (m : Mesh) (c : Volu) (v : Int) : Prop := ∃ s ∈ c.surfind, ∃ e, SurfEdge m s e ∧ EdgeVert m e v

/-- `v` is a corner of the surface. -/
def SurfCorner (m : Mesh) (f : Surf) (v : Int) : Prop := ∃ e ∈ f.edgeind, EdgeVert m e v

/-- `x` is in the hull of the points of `S`: in every half space that has them all. -/
def InHull (S : (Fin 3 → K) → Prop) (x : (Fin 3 → K)) : Prop := ∀ (n : (Fin 3 → K)) (d : K), (∀ p, S p → inner n p ≤ d) → inner n x ≤ d

end RSVS.Spec
