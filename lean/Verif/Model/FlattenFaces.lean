import Mathlib.Algebra.Order.Field.Rat
import Mathlib.Algebra.Order.Group.Unbundled.Abs
import Verif.Model.FaceFan

/-!
# Flattening the faces of the border

`FlattenBoundaryFaces` (SRCC/src/grid/meshprocessing.cpp:15-80), up to `MeshTriangulation`; `TightenConnectivity` and `OrderEdges`
come after it.  Doubles are rationals.
-/

namespace RSVS.FaceFan

open RSVS RSVS.Mesh RSVS.Triang

/-- The coordinates of a vertex (meshprocessing.cpp:41, 50). -/
def coordsAt (m : Mesh) (v : Int) : Res (List ℚ) :=
  (elemAt m.verts (posOf Vert.index m.verts v)).bind fun x => (List.range 3).mapM (m := Except Fault) fun (k : Nat) =>
    vecGet x.coord (k : Int)

/-- Whether the loop over the other points leaves `isFlat[k]` set (meshprocessing.cpp:43-52). -/
def flatAlong (c0 : List ℚ) (cs : List (List ℚ)) (k : Nat) : Bool :=
  cs.all fun c => decide (|c.getD k 0 - c0.getD k 0| < 1 / 1000000000)

/-- Whether no coordinate is the same for all points of a surface (meshprocessing.cpp:40-53). -/
def tilted (m : Mesh) (f : Surf) : Res Bool :=
  (Order.orderedVerts m f.edgeind).bind fun vs => (vs.mapM (m := Except Fault) (coordsAt m)).map fun cs =>
    match cs with
    | [] => false
    | c0 :: cs => !(flatAlong c0 cs 0 || flatAlong c0 cs 1 || flatAlong c0 cs 2)

/-- Whether a surface is to be split (meshprocessing.cpp:38-57). -/
def toSplit (m : Mesh) (f : Surf) : Res Bool :=
  if f.isBorder ∧ 3 < f.edgeind.length then tilted m f else .ok false

/-- The list of positions `subList` (meshprocessing.cpp:36-58), from position `i`. -/
def splitFrom (m : Mesh) : Nat → List Surf → Res (List Int)
  | _, [] => .ok []
  | i, f :: fs => (toSplit m f).bind fun b => (splitFrom m (i + 1) fs).map fun l => if b then (i : Int) :: l else l

/-- The triangles of the chosen surfaces and the mesh with them (meshprocessing.cpp:62-73). -/
def triangulateSome (m : Mesh) (sub : List Int) (place : Int → Res (List ℚ)) (sibs : List Triangle → Int → List Nat) : Res Mesh :=
  (meshPolys m 1 sub).bind fun polys => (triangulateContainer 1 polys ([], [])).bind fun T =>
    meshTriangulation m T.1 (sibs T.1) fun i => (isearch TriPoint.index T.2 i).bind fun p => place p.parentsurf

/-- `FlattenBoundaryFaces` (meshprocessing.cpp:15-80). -/
def flattenFaces (m : Mesh) (place : Int → Res (List ℚ)) (sibs : List Triangle → Int → List Nat) : Res Mesh :=
  (splitFrom m 0 m.surfs).bind fun sub => if sub = [] then .ok m else triangulateSome m sub place sibs

end RSVS.FaceFan
