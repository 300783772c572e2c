import Verif.Model.TriSoup
import Verif.Spec.Mesh

/-!
# Specification of a mesh of separate triangles
-/

namespace RSVS.Spec

open RSVS.Triang RSVS.TriSoup

/-- The point of this type (1 mesh, 2 snake, 3 triangulation) and index has coordinates `x`. -/
def LiesAt (g : Points) (ty p : Int) (x : List ℚ) : Prop :=
  (ty = 1 ∧ ∃ v ∈ g.mesh, v.index = p ∧ v.coord = x) ∨ (ty = 2 ∧ ∃ v ∈ g.snake, v.index = p ∧ v.coord = x) ∨ (ty = 3 ∧ (p, x) ∈ g.tri)

/-- `find` lists what a cell goes with in `constr`, in any order. -/
def HashOf (constr : List (Int × Int)) (find : Int → List Int) : Prop := ∀ c, (find c).Perm ((constr.filter fun p => p.1 = c).map Prod.snd)

/-- The triangle has three known corners, two cells or more, at least one of them among the constraints, and factors. -/
structure Usable (g : Points) (constr : List (Int × Int)) (t : Triangle) : Prop where
  corners : ∃ x y z p q r a b c, t.pointtype = [x, y, z] ∧ t.pointind = [p, q, r] ∧ LiesAt g x p a ∧ LiesAt g y q b ∧ LiesAt g z r c
  cells : 2 ≤ t.celltarg.length ∧ ∃ p ∈ constr, p.1 ∈ t.celltarg
  factors : t.influence ≠ []

/-- The mesh has one surface for each triangle, with its own three vertices and edges around it, in order, at the points of the triangle, and the volumes of its cells. -/
structure Separate (g : Points) (constr : List (Int × Int)) (ts : List Triangle) (m : Mesh) : Prop where
  counts : m.verts.length = ts.length * 3 ∧ m.edges.length = ts.length * 3 ∧ m.surfs.length = ts.length
  own : ∀ v e e' s s', VertEdge m v e → EdgeSurf m e s → VertEdge m v e' → EdgeSurf m e' s' → s = s'
  shape : ∀ (i : Nat) (t : Triangle), ts[i]? = some t → ∀ x y z p q r, t.pointtype = [x, y, z] → t.pointind = [p, q, r] →
    ∃ f ∈ m.surfs, f.index = i + 1 ∧ ∃ a ∈ m.verts, ∃ b ∈ m.verts, ∃ c ∈ m.verts, ∃ e1 ∈ m.edges, ∃ e2 ∈ m.edges, ∃ e3 ∈ m.edges,
      LiesAt g x p a.coord ∧ LiesAt g y q b.coord ∧ LiesAt g z r c.coord ∧ f.edgeind = [e1.index, e2.index, e3.index] ∧
      e1.vertind = [a.index, b.index] ∧ e2.vertind = [b.index, c.index] ∧ e3.vertind = [c.index, a.index]
  cells : ∀ (i : Nat) (t : Triangle), ts[i]? = some t → ∀ c, c ≠ 0 → (SurfVolu m (i + 1) c ↔ ∃ x ∈ t.celltarg, (x, c - 1) ∈ constr)
  sides : (constr.map Prod.fst).Nodup → ∀ (i : Nat) (t : Triangle), ts[i]? = some t → ∀ a b p q, t.celltarg = [a, b] → (a, p) ∈ constr → (b, q) ∈ constr →
    ∃ f ∈ m.surfs, f.index = i + 1 ∧ f.voluind = if t.influence.head? = some 1 then [q + 1, p + 1] else [p + 1, q + 1]

end RSVS.Spec
