import Mathlib.Algebra.BigOperators.Fin
import Verif.Model.EdgeLength

/-!
# Specification of stored lengths

The length of an edge from the coordinates of its ends, and when stored values agree with it.
-/

namespace RSVS.Spec

open RSVS.Lengths

variable {K : Type} [Field K] [LinearOrder K]

/-- `l` is the length of the edge from `v0` to `v1` in the first `dim` directions. -/
def LengthOf (root : K → K) (m : LMesh K) (v0 v1 : Int) (l : K) : Prop :=
  ∃ a ∈ m.verts, ∃ b ∈ m.verts, a.index = v0 ∧ b.index = v1 ∧
    l = root (∑ i : Fin 3, if i.val < m.dim then (a.coord i - b.coord i) ^ 2 else 0)

/-- The incidence of vertices and edges agrees, and indices are unique. -/
structure LinkedMesh (m : LMesh K) : Prop where
  verts : (m.verts.map LVert.index).Nodup
  edges : (m.edges.map LEdge.index).Nodup
  ends : ∀ e ∈ m.edges, (∃ a ∈ m.verts, a.index = e.v0 ∧ e.index ∈ a.edgeind) ∧ ∃ b ∈ m.verts, b.index = e.v1 ∧ e.index ∈ b.edgeind
  has : ∀ v ∈ m.verts, ∀ i ∈ v.edgeind, ∃ e ∈ m.edges, e.index = i

/-- Lengths that are stored (not negative) are right. -/
def Current (root : K → K) (m : LMesh K) : Prop := ∀ e ∈ m.edges, 0 ≤ e.length → LengthOf root m e.v0 e.v1 e.length

/-- When the mesh says that the lengths are set, they are. -/
def Flagged (m : LMesh K) : Prop := m.lengthsSet = true → ∀ e ∈ m.edges, 0 ≤ e.length

end RSVS.Spec
