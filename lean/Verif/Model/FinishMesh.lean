import Verif.Model.FlattenFaces
import Verif.Model.SplitSurf

/-!
# The end of the replacement of faces

What `TriangulateAllFaces` and `FlattenBoundaryFaces` (SRCC/src/grid/meshprocessing.cpp:15-114) do with the mesh made by
`MeshTriangulation`.
-/

namespace RSVS.FaceFan

open RSVS RSVS.Mesh RSVS.Triang

/-- `PrepareForUse`, `TightenConnectivity` and `OrderEdges` (meshprocessing.cpp:73-77 and 107-111): `PrepareForUse`
(mesh.cpp:3028-3086) orders the edges of the surfaces a first time.  Not modelled of it: the hash tables, the lengths of the edges, and
`SetBorders`, which is done only if the borders of the mesh were not set before.  `cap` is the capacity of the vector of surfaces. -/
def finishMesh (tab : List Int → Table) (cap : Nat) (m : Mesh) : Res Mesh :=
  (SplitSurf.orderEdges tab m cap).bind fun s => s.1.tighten.bind fun m' => (SplitSurf.orderEdges tab m' s.2.1).map fun q => q.1

/-- `TriangulateAllFaces` (meshprocessing.cpp:82-114). -/
def triangulateAllFaces (tab : List Int → Table) (cap : Nat) (m : Mesh) (place : Int → Res (List ℚ))
    (sibs : List Triangle → Int → List Nat) : Res Mesh :=
  (triangulateFaces m place sibs).bind (finishMesh tab cap)

/-- `FlattenBoundaryFaces` (meshprocessing.cpp:15-80): nothing is done if there is no surface to split. -/
def flattenBoundary (tab : List Int → Table) (cap : Nat) (m : Mesh) (place : Int → Res (List ℚ))
    (sibs : List Triangle → Int → List Nat) : Res Mesh :=
  (splitFrom m 0 m.surfs).bind fun sub =>
    if sub = [] then .ok m else (triangulateSome m sub place sibs).bind (finishMesh tab cap)

end RSVS.FaceFan
