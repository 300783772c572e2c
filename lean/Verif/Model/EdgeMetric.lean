import Mathlib.Algebra.Order.Monoid.Unbundled.WithTop
import Verif.Model.EdgeLength

/-!
# Lengths of the edges at a vertex

`CalculateEdgeLengths` (SRCC/src/grid/meshprocessing.cpp:773-784), `CalculateVertexMinEdgeLength` (meshprocessing.cpp:691-709),
`CalculateVertexMaxEdgeLength` (meshprocessing.cpp:718-736) and `CalculateVertexMeanEdgeLength` (meshprocessing.cpp:745-764).

Simplifications: those of `Model/EdgeLength.lean`.  `INFINITY` is the element added above (or below) the field.
-/

namespace RSVS.Lengths

open RSVS.Mesh

variable {K : Type} [Field K] [LinearOrder K]

/-- `CalculateEdgeLengths` (meshprocessing.cpp:773-784). -/
def edgeLengths (root : K → K) (m : LMesh K) : Res (List K) := m.edges.mapM (m := Except Fault) (length root m)

/-- The loop over the edges of a vertex (for instance meshprocessing.cpp:702-706). -/
def atVert {α : Type} (m : LMesh K) (lens : List K) (op : α → K → α) (a : α) (v : LVert K) : Res α :=
  v.edgeind.foldlM (m := Except Fault) (fun a e => (vecGet lens (posOf LEdge.index m.edges e)).map (op a)) a

/-- The body of the loop for the smallest length (meshprocessing.cpp:705). -/
def minStep (a : WithTop K) (x : K) : WithTop K := if (x : WithTop K) < a then (x : WithTop K) else a

/-- The body of the loop for the largest length (meshprocessing.cpp:732). -/
def maxStep (a : WithBot K) (x : K) : WithBot K := if a < (x : WithBot K) then (x : WithBot K) else a

/-- `CalculateVertexMinEdgeLength` (meshprocessing.cpp:691-709). -/
def vertexMin (root : K → K) (m : LMesh K) : Res (List (WithTop K)) :=
  (edgeLengths root m).bind fun lens => m.verts.mapM (m := Except Fault) (atVert m lens minStep ⊤)

/-- `CalculateVertexMaxEdgeLength` (meshprocessing.cpp:718-736). -/
def vertexMax (root : K → K) (m : LMesh K) : Res (List (WithBot K)) :=
  (edgeLengths root m).bind fun lens => m.verts.mapM (m := Except Fault) (atVert m lens maxStep ⊥)

/-- `CalculateVertexMeanEdgeLength` (meshprocessing.cpp:745-764): the sum starts at `INFINITY`; an infinite sum stays infinite
in the division. -/
def vertexMean (root : K → K) (m : LMesh K) : Res (List (WithTop K)) :=
  (edgeLengths root m).bind fun lens => m.verts.mapM (m := Except Fault) fun v =>
    (atVert m lens (fun a x => a + (x : WithTop K)) ⊤ v).map fun a => a.map (fun x => x / (v.edgeind.length : K))

end RSVS.Lengths
