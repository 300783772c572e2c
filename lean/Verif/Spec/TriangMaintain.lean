import Verif.Model.Triangulate
import Verif.Spec.Triangulate

/-! # What the triangulation of the snake has to be -/

namespace RSVS.Spec

open RSVS.Triang

/-- The triangles of surface `s` are the fan of the polygon `pts`, of which the centre, if it has
one, is a point of surface `s` of the snake. -/
def Fanned (pts : List (Int × Int)) (s : Int) (tris : List Triangle) (points : List TriPoint) : Prop :=
  ∃ c, FanOf pts ((tris.filter fun t => t.parentsurf == s).map fun t => t.pointtype.zip t.pointind)
      (3, c) ∧
    (3 < pts.length → (⟨c, s, 2⟩ : TriPoint) ∈ points)

/-- Triangles and points of the snake fit together. -/
structure Tidy (tris : List Triangle) (points : List TriPoint) : Prop where
  triIdx : (tris.map Triangle.index).Nodup
  ptIdx : (points.map TriPoint.index).Nodup
  /-- The centre of a triangle is that of its surface. -/
  centre : ∀ t ∈ tris, ∀ c, (3, c) ∈ t.pointtype.zip t.pointind →
    (⟨c, t.parentsurf, 2⟩ : TriPoint) ∈ points
  /-- No centre of a surface of the snake is left without triangles. -/
  used : ∀ q ∈ points, q.parentType = 2 → ∃ t ∈ tris, t.parentsurf = q.parentsurf ∧
    (3, q.index) ∈ t.pointtype.zip t.pointind

/-- A surface of the mesh belongs to the outside of the object as a whole: it is not cut by the snake,
and the vertex of its first triangle is inside. -/
def WhollyIn (vertIn : Int → Res Bool) (trisurf : List TriSurf) (tris : List Triangle) (s : Int) : Prop :=
  (∀ c ∈ trisurf, c.parentsurfmesh ≠ s) ∧
    ∃ t v, tris.find? (fun t => t.parentsurf == s) = some t ∧
      (t.pointtype.zip t.pointind).find? (fun p => p.1 == 1) = some (1, v) ∧ vertIn v = .ok true

end RSVS.Spec
