import Verif.Model.SnakeCheck
import Verif.Spec.Mesh
import Verif.Spec.Container

/-!
# Specification of the check of a snake
-/

namespace RSVS.Spec

open RSVS.SnakeCheck

/-- Two different positions hold parts in the same parent. -/
def SameParent (parts : List Part) (i j : Nat) : Prop :=
  i ≠ j ∧ ∃ x y, parts[i]? = some x ∧ parts[j]? = some y ∧ x.parent = y.parent

/-- The snaxel at position `i` has an edge with the snaxel at position `j`. -/
def SnaxLinked (conn : Mesh) (i j : Nat) : Prop :=
  ∃ v w, conn.verts[i]? = some v ∧ conn.verts[j]? = some w ∧ ∃ e ∈ conn.edges, e.index ∈ v.edgeind ∧ w.index ∈ e.vertind

/-- The snake edges at the two positions have a common end. -/
def EdgesMeet (conn : Mesh) (i j : Nat) : Prop :=
  ∃ x y, conn.edges[i]? = some x ∧ conn.edges[j]? = some y ∧ ∃ v, v ∈ x.vertind ∧ v ∈ y.vertind

/-- The snake surfaces at the two positions have a common edge. -/
def SurfsMeet (conn : Mesh) (i j : Nat) : Prop :=
  ∃ x y, conn.surfs[i]? = some x ∧ conn.surfs[j]? = some y ∧ ∃ e, e ∈ x.edgeind ∧ e ∈ y.edgeind

/-- The snaxel at position `i` does not have one edge for each surface around its edge of the mesh. -/
def WrongCount (conn base : Mesh) (snaxs : List Part) (i : Nat) : Prop :=
  ∃ v s e, conn.verts[i]? = some v ∧ snaxs[i]? = some s ∧ e ∈ base.edges ∧ e.index = s.parent ∧
    v.edgeind.length ≠ e.surfind.length

/-- What the check relies on: the parts are those of the mesh of the snake, in the same order; indices are unique; what is
listed exists; edges have two ends; snaxels are on edges of the mesh. -/
structure CheckReady (conn base : Mesh) (snaxs snaxedges snaxsurfs : List Part) : Prop where
  unique : UniqueIndices conn
  baseEdges : (base.edges.map Edge.index).Nodup
  atVerts : snaxs.map Part.index = conn.verts.map Vert.index
  atEdges : snaxedges.map Part.index = conn.edges.map Edge.index
  atSurfs : snaxsurfs.map Part.index = conn.surfs.map Surf.index
  vertEdge : ∀ v ∈ conn.verts, ∀ e ∈ v.edgeind, HasEdge conn e
  twoVerts : TwoVerts conn
  onEdge : ∀ s ∈ snaxs, HasEdge base s.parent

/-- The list holds exactly the pairs with the property, each once. -/
def Exactly {α : Type} (l : List α) (P : α → Prop) : Prop := l.Nodup ∧ ∀ x, x ∈ l ↔ P x

end RSVS.Spec
