import Verif.Spec.CutEdges

/-!
# Specification of the new edge of a surface cut by a box
-/

namespace RSVS.Spec

/-- `r` lists, in order, the points where the border of surface `s` goes through the box: the
vertices new in `m'` on the edges of `s` which crossed in `m`, one for each of them. -/
structure ClosingVerts (lb ub : Fin 3 → ℚ) (m m' : Mesh) (s : Int) (r : List Int) : Prop where
  sorted : r.Pairwise (· < ·)
  mem : ∀ v, v ∈ r ↔ ¬ HasVert m v ∧ ∃ e, Crosses lb ub m e ∧ SurfEdge m s e ∧ EdgeVert m' e v
  count : ∀ cut : List Int, cut.Nodup → (∀ e, e ∈ cut ↔ Crosses lb ub m e ∧ SurfEdge m s e) →
    r.length = cut.length

end RSVS.Spec
