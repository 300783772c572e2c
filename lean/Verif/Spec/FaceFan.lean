import Verif.Model.FaceFan
import Verif.Spec.Order

/-!
# Specification of the replacement of surfaces by triangles
-/

namespace RSVS.Spec

/-- The surface is a simple closed loop of at least three edges, in order; edge `k` is from `w k` to `w (k + 1)`. -/
def RingFace (m : Mesh) (f : Surf) (w : Nat → Int) : Prop :=
  3 ≤ f.edgeind.length ∧ GoesRound (EdgeJoins m) f.edgeind w

/-- In `r` the surface `f` of `m` is replaced by triangles around a new vertex at `x`: there are new edges from the new vertex to
the corners, and for each edge of the surface a triangle with the edge and the two new edges at its ends, between the volumes of
the surface. -/
def FanOver (m r : Mesh) (f : Surf) (x : List ℚ) : Prop :=
  ∃ (w : Nat → Int) (c : Int) (sp : Nat → Int), RingFace m f w ∧ ¬ HasVert m c ∧ (∃ v ∈ r.verts, v.index = c ∧ v.coord = x) ∧
    (∀ i j, i < f.edgeind.length → j < f.edgeind.length → sp i = sp j → i = j) ∧
    ∀ k e, f.edgeind[k]? = some e → ¬ HasEdge m (sp k) ∧ EdgeJoins r (sp k) c (w (k + 1)) ∧
      ∃ t ∈ r.surfs, t.edgeind.Perm [sp ((k + f.edgeind.length - 1) % f.edgeind.length), sp k, e] ∧ t.voluind = f.voluind ∧
        (t.index = f.index ∨ ¬ HasSurf m t.index)

/-- The surface is three edges joining three vertices, in order. -/
def IsTriangle (m : Mesh) (s : Surf) : Prop :=
  ∃ a b c e₁ e₂ e₃, a ≠ b ∧ b ≠ c ∧ a ≠ c ∧ s.edgeind = [e₁, e₂, e₃] ∧ EdgeJoins m e₁ a b ∧ EdgeJoins m e₂ b c ∧ EdgeJoins m e₃ c a

/-- Everything of `m` except the surfaces in `P` is in `r`. -/
structure KeptBut (m r : Mesh) (P : Int → Prop) : Prop where
  verts : ∀ v ∈ m.verts, ∃ v' ∈ r.verts, v'.index = v.index ∧ v'.coord = v.coord
  edges : ∀ e ∈ m.edges, ∃ e' ∈ r.edges, e'.index = e.index ∧ e'.vertind = e.vertind
  surfs : ∀ f ∈ m.surfs, ¬ P f.index → f ∈ r.surfs
  volus : r.volus.map Volu.index = m.volus.map Volu.index

/-- Vertices less edges plus surfaces. -/
def euler (m : Mesh) : Int := (m.verts.length : Int) - m.edges.length + m.surfs.length

/-- What is asked of a triangle with points of different types: its surface is in the mesh and a ring, and it has a point of the
triangulation, with coordinates. -/
structure GoodTri (m : Mesh) (coordOf : Int → Res (List ℚ)) (t : Triang.Triangle) : Prop where
  ring : ∃ f ∈ m.surfs, f.index = t.parentsurf ∧ ∃ w, RingFace m f w
  three : t.pointtype.length = 3
  point : 3 ∈ t.pointtype
  known : ∀ k : Nat, t.pointtype[k]? = some 3 → ∃ i x, t.pointind[k]? = some i ∧ coordOf i = .ok x

/-- The points of the triangle are of more than one type. -/
def Mixed (t : Triang.Triangle) : Prop := ∃ a ∈ t.pointtype, ∃ b ∈ t.pointtype, a ≠ b

/-- `x` are the coordinates of a point of the triangulation on a triangle of the surface. -/
def PointOf (coordOf : Int → Res (List ℚ)) (tris : List Triang.Triangle) (s : Int) (x : List ℚ) : Prop :=
  ∃ t ∈ tris, t.parentsurf = s ∧ ∃ k : Nat, t.pointtype[k]? = some 3 ∧ ∃ i, t.pointind[k]? = some i ∧ coordOf i = .ok x

/-- The surface has a triangle with points of different types. -/
def Split (tris : List Triang.Triangle) (s : Int) : Prop := ∃ t ∈ tris, Mixed t ∧ t.parentsurf = s

/-- The edges and vertices of surfaces on the border are marked as on the border. -/
def BorderMarked (m : Mesh) : Prop :=
  ∀ s ∈ m.surfs, s.isBorder = true → ∀ e ∈ m.edges, e.index ∈ s.edgeind → e.isBorder = true ∧
    ∀ v ∈ m.verts, v.index ∈ e.vertind → v.isBorder = true

end RSVS.Spec
