import Verif.Spec.Mesh
import Verif.Spec.Container
import Mathlib.Order.Bounds.Basic
import Mathlib.Algebra.Order.Field.Basic

/-!
# Specification of the step limits
-/

namespace RSVS.Spec

/-- An edge of a volume whose entry in `conn`, the list of the parents of the volumes, is `k`. -/
def EdgeInCell (m : Mesh) (conn : List Int) (k e : Int) : Prop :=
  ∃ (p : Nat) (c : Volu), conn[p]? = some k ∧ m.volus[p]? = some c ∧ ∃ s ∈ m.surfs, s.index ∈ c.surfind ∧ e ∈ s.edgeind

/-- The mean of the numbers of a list, 1 if there are none. -/
def meanOr1 {K : Type} [Field K] [LinearOrder K] (l : List K) : K := if l = [] then 1 else l.sum / (l.length : K)

/-- The least length of the edges of a cell. -/
def LeastLength {K : Type} [LinearOrder K] (m : Mesh) (len : Edge → K) (conn : List Int) (k : Int) (a : K) : Prop :=
  IsLeast {l | ∃ x ∈ m.edges, EdgeInCell m conn k x.index ∧ len x = l} a

/-- The cells of the parent meshes: the number of the mesh and the index of the volume. -/
def allCells (parents : List (List Int)) : List (Nat × Int) :=
  (List.range parents.length).flatMap fun i => (parents.getD i []).map fun k => (i, k)

/-- What the limits rely on: unique indices, what is listed exists, and `kids` gives the positions of the volumes of a
cell, `conn i` being the list of the parents of the volumes in mesh number `i`. -/
structure LimitReady (m : Mesh) (parents : List (List Int)) (conn : Nat → List Int) (kids : Nat → Int → List Nat) : Prop where
  edges : (m.edges.map Edge.index).Nodup
  surfs : (m.surfs.map Surf.index).Nodup
  voluSurf : ∀ c ∈ m.volus, ∀ s ∈ c.surfind, HasSurf m s
  surfEdge : ∀ s ∈ m.surfs, ∀ e ∈ s.edgeind, HasEdge m e
  short : ∀ i < parents.length, (conn i).length ≤ m.volus.length
  kids : ∀ i < parents.length, ∀ k, AllPos id (conn i) k (kids i k)

end RSVS.Spec
