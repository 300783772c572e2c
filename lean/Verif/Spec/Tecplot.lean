import Verif.Model.Tecplot
import Verif.Spec.Order

/-!
# Specification of Tecplot zones

What the format asks of a zone, and what it means for a zone to show a mesh.  Of the model only the record of a zone is
used.
-/

namespace RSVS.Spec

open RSVS.Tecplot

/-- The lines of a face map are `fs` followed by the elements on the left and on the right of each face. -/
structure Sided (z : Zone) (fs : List (List Int)) (left right : List Int) : Prop where
  faces : (fs.length : Int) = z.faces
  corners : ∀ f ∈ fs, ∀ n ∈ f, 1 ≤ n ∧ n ≤ z.nodes
  total : (fs.map fun f => (f.length : Int)).sum = z.faceNodes
  left_len : (left.length : Int) = z.faces
  right_len : (right.length : Int) = z.faces
  sides : ∀ c ∈ left ++ right, 0 ≤ c ∧ c ≤ z.elements

/-- The face map has the form that goes with the kind of zone, and stays in the range of the header. -/
def MapFits (z : Zone) : Prop :=
  match z.kind with
  | .polyhedron => ∃ fs left right, z.map = (fs.map fun f => (f.length : Int)) :: fs ++ [left, right] ∧
      Sided z fs left right
  | .polygon => ∃ fs left right, z.map = fs ++ [left, right] ∧ Sided z fs left right ∧ ∀ f ∈ fs, f.length = 2
  | .line => (z.map.length : Int) = z.elements ∧ ∀ f ∈ z.map, f.length = 2 ∧ ∀ n ∈ f, 1 ≤ n ∧ n ≤ z.nodes
  | .ordered => z.map = []

/-- A zone agrees with its header: three lines at the nodes and three at the elements (six at the nodes for points), one
value for each, and a face map that fits. -/
structure Readable (z : Zone) : Prop where
  nodal : z.nodal.length = if z.kind = .ordered then 6 else 3
  nodal_len : ∀ r ∈ z.nodal, (r.length : Int) = z.nodes
  cell : z.cell.length = if z.kind = .ordered then 0 else 3
  cell_len : ∀ r ∈ z.cell, (r.length : Int) = z.elements
  map : MapFits z

/-- `n` is the number of `a` in the list, counted from 1, and 0 if `a` is not in it. -/
def NumberOf (l : List Int) (n a : Int) : Prop :=
  (∃ p : Nat, n = p + 1 ∧ l[p]? = some a) ∨ (n = 0 ∧ a ∉ l)

/-- The lines of coordinates of the vertices. -/
def coordRows (V : List Vert) : List (List ℚ) :=
  [0, 1, 2].map fun j => V.map fun v => v.coord.getD j 0

/-- The zone shows the volumes `C`, with the surfaces `F` as faces and the vertices `V` as nodes: each line of nodes goes
round the face, and the volumes on its two sides are named. -/
structure ShowsVolumes (m : Mesh) (V : List Vert) (C : List Volu) (F : List Surf) (z : Zone) : Prop where
  kind : z.kind = .polyhedron
  coords : z.nodal = coordRows V
  values : z.cell = [C.map Volu.fill, C.map Volu.target, C.map Volu.error]
  elements : z.elements = C.length
  faces : ∀ (i : Nat) (s : Surf), F[i]? = some s → ∃ r a b p q, z.map[i + 1]? = some r ∧
    (∀ w, GoesRound (EdgeJoins m) s.edgeind w → List.Forall₂ (NumberOf (V.map Vert.index)) r
      ((List.range s.edgeind.length).map w)) ∧
    s.voluind = [a, b] ∧ z.map[F.length + 1]?.bind (·[i]?) = some p ∧ z.map[F.length + 2]?.bind (·[i]?) = some q ∧
    NumberOf (C.map Volu.index) p a ∧ NumberOf (C.map Volu.index) q b
  count : z.map.length = F.length + 3

/-- The zone shows the surfaces of a flat mesh, with the edges as faces. -/
structure ShowsSurfaces (m : Mesh) (z : Zone) : Prop where
  kind : z.kind = .polygon
  coords : z.nodal = coordRows m.verts
  values : z.cell = [m.surfs.map Surf.fill, m.surfs.map Surf.target, m.surfs.map Surf.error]
  elements : z.elements = m.surfs.length
  faces : ∀ (i : Nat) (e : Edge), m.edges[i]? = some e → ∃ r a b p q, z.map[i]? = some r ∧
    List.Forall₂ (NumberOf (m.verts.map Vert.index)) r e.vertind ∧
    e.surfind = [a, b] ∧ z.map[m.edges.length]?.bind (·[i]?) = some p ∧
    z.map[m.edges.length + 1]?.bind (·[i]?) = some q ∧
    NumberOf (m.surfs.map Surf.index) p a ∧ NumberOf (m.surfs.map Surf.index) q b
  count : z.map.length = m.edges.length + 2

/-- The zone shows the edges of a mesh as segments. -/
structure ShowsEdges (m : Mesh) (z : Zone) : Prop where
  kind : z.kind = .line
  coords : z.nodal = coordRows m.verts
  values : ∀ r ∈ z.cell, ∀ x ∈ r, x = 0
  segments : List.Forall₂ (fun r e => List.Forall₂ (NumberOf (m.verts.map Vert.index)) r e.vertind) z.map m.edges

/-- The zone shows the points `V`. -/
structure ShowsPoints (V : List Vert) (z : Zone) : Prop where
  kind : z.kind = .ordered
  nodes : z.nodes = V.length
  lines : z.nodal = coordRows V ++ List.replicate 3 (List.replicate V.length 0)

/-- Every surface is a loop of at least three edges, in order, between two volumes (0 for none). -/
def Faced (m : Mesh) : Prop :=
  ∀ s ∈ m.surfs, 3 ≤ s.edgeind.length ∧ (∃ w, GoesRound (EdgeJoins m) s.edgeind w) ∧ s.voluind.length = 2

/-- Every vertex has three coordinates. -/
def Solid (m : Mesh) : Prop := ∀ v ∈ m.verts, v.coord.length = 3

/-- `F` lists once each surface of the volumes `C`. -/
def FacesOf (m : Mesh) (C : List Volu) (F : List Surf) : Prop :=
  F.Nodup ∧ ∀ s, s ∈ F ↔ s ∈ m.surfs ∧ ∃ c ∈ C, s.index ∈ c.surfind

/-- `V` lists once each vertex of the surfaces `F`. -/
def CornersOf (m : Mesh) (F : List Surf) (V : List Vert) : Prop :=
  V.Nodup ∧ ∀ v, v ∈ V ↔ v ∈ m.verts ∧ ∃ s ∈ F, ∃ e ∈ m.edges, e.index ∈ s.edgeind ∧ v.index ∈ e.vertind

end RSVS.Spec
