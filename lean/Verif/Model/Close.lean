import Verif.Model.Hash
import Verif.Model.SnakeJoin

/-!
# Groups of close vertices

`GroupCloseSnaxels`, `TestVertClose` and `GroupCloseVertices` (SRCC/src/grid/meshprocessing.cpp:252-365),
`mesh::MergeGroupedVertices` (SRCC/src/grid/mesh.cpp:4420-4470).

Simplifications: arithmetic is exact.  The hash of the vector of groups is left to the hashed vector; its order is
a parameter of `mergeGrouped`.  `countRep` (mesh.cpp:4430) is increased without a first value and never used; it is
left out.
-/

namespace RSVS

namespace Mesh

/-- One term of the sum of squares (meshprocessing.cpp:299-301). -/
def squareAt (a b : List ℚ) (i : Int) : Res ℚ :=
  (vecGet a i).bind fun x => (vecGet b i).map fun y => (x - y) ^ 2

/-- The ends of an edge, `vertind[0]` and `vertind[1]`. -/
def edgeEnds (m : Mesh) (e : Int) : Res (Int × Int) :=
  (isearch Edge.index m.edges e).bind fun ed =>
  (vecGet ed.vertind 0).bind fun a => (vecGet ed.vertind 1).map fun b => (a, b)

/-- The test of an edge (meshprocessing.cpp:296-303): the square of its length is below `tol2`. -/
def edgeShort (m : Mesh) (tol2 : ℚ) (e : Int) : Res Bool :=
  (edgeEnds m e).bind fun ab =>
  (isearch Vert.index m.verts ab.1).bind fun va =>
  (isearch Vert.index m.verts ab.2).bind fun vb =>
  (squareAt va.coord vb.coord 0).bind fun x =>
  (squareAt va.coord vb.coord 1).bind fun y =>
  (squareAt va.coord vb.coord 2).map fun z => decide (0 + x + y + z < tol2)

/-- `TestVertClose` (meshprocessing.cpp:284-314) on `isSnaxDone` and `sameEdges`.  The recursion is as deep as the
number of vertices at most; `fuel` bounds it and its exhaustion is reported. -/
def testVertClose (m : Mesh) (tol2 : ℚ) : Nat → List Bool × List Int → Int → Res (List Bool × List Int)
  | 0, _, _ => .error .diverges
  | fuel + 1, s, v =>
    (vecGet s.1 v).bind fun d =>
    if d then .ok s
    else
      (elemAt m.verts v).bind fun vv =>
      vv.edgeind.foldlM (m := Except Fault) (fun s e =>
        (edgeShort m tol2 e).bind fun short =>
        if short then
          (edgeEnds m e).bind fun ab =>
          (testVertClose m tol2 fuel (s.1, s.2 ++ [e]) (posOf Vert.index m.verts ab.1)).bind fun s =>
          testVertClose m tol2 fuel s (posOf Vert.index m.verts ab.2)
        else .ok s) (s.1.set v.toNat true, s.2)

/-- A write through `std::vector::operator[]`. -/
def vecSet (l : List Int) (i x : Int) : Res (List Int) :=
  if i < 0 then .error .ub else if i.toNat < l.length then .ok (l.set i.toNat x) else .error .ub

/-- The loop over `sameEdges` (meshprocessing.cpp:344-354). -/
def markEnds (m : Mesh) (g : Int) (vec : List Int) (es : List Int) : Res (List Int) :=
  es.foldlM (m := Except Fault) (fun vec e =>
    (edgeEnds m e).bind fun ab =>
    (vecSet vec (posOf Vert.index m.verts ab.1) g).bind fun vec =>
    vecSet vec (posOf Vert.index m.verts ab.2) g) vec

/-- One turn of the loop of `GroupCloseVertices` (meshprocessing.cpp:337-357): `isSnaxDone`, `closeVert.vec` and
`nGroup`. -/
def groupStep (m : Mesh) (tol2 : ℚ) (s : List Bool × List Int × Int) (i : Nat) : Res (List Bool × List Int × Int) :=
  (testVertClose m tol2 (m.verts.length + 1) (s.1, []) i).bind fun r =>
  if r.2 = [] then .ok (r.1, s.2.1, s.2.2)
  else (markEnds m s.2.2 s.2.1 r.2).map fun vec => (r.1, vec, s.2.2 + 1)

/-- `GroupCloseVertices` (meshprocessing.cpp:316-365): the vector of groups. -/
def groupCloseVertices (m : Mesh) (tol : ℚ) : Res (List Int) :=
  ((List.range m.verts.length).foldlM (m := Except Fault) (groupStep m (tol * tol))
    (List.replicate m.verts.length false, List.replicate m.verts.length (-1), 1)).map fun s => s.2.1

/-- The loop over the members of one group (mesh.cpp:4448-4454); the mesh and the vertices that are merged. -/
def mergeGroup (first : Nat) (s : Mesh × List Int) (j : Nat) : Res (Mesh × List Int) :=
  (elemAt s.1.verts j).bind fun vj =>
  (elemAt s.1.verts first).bind fun v0 =>
  (s.1.switchVert vj.index v0.index).map fun m => (m, s.2 ++ [vj.index])

/-- One turn of the loop of `MergeGroupedVertices` (mesh.cpp:4441-4461): mesh, merged vertices and `isSnaxDone`. -/
def mergeTurn (vec : List Int) (all : Int → List Nat) (s : (Mesh × List Int) × List Bool) (i : Nat) :
    Res ((Mesh × List Int) × List Bool) :=
  if s.2.getD i true = false ∧ vec.getD i (-1) ≠ -1 then
    match all (vec.getD i (-1)) with
    | [] => .error .ub
    | first :: rest =>
      (rest.foldlM (m := Except Fault) (mergeGroup first) s.1).map fun r =>
      (r, (rest.foldl (fun d j => d.set j true) s.2).set first true)
  else .ok (s.1, s.2.set i true)

/-- `mesh::MergeGroupedVertices` (mesh.cpp:4420-4470): the mesh and the vertices that are merged.  `all` is
`closeVert.findall`. -/
def mergeGrouped (m : Mesh) (vec : List Int) (all : Int → List Nat) (delVerts : Bool) : Res (Mesh × List Int) :=
  ((List.range vec.length).foldlM (m := Except Fault) (mergeTurn vec all)
    ((m, []), List.replicate vec.length false)).map fun s =>
  if s.1.2 ≠ [] ∧ delVerts = true then
    ({ s.1.1 with verts := removeIdx Vert.index s.1.1.verts (sortUnique s.1.2) }, sortUnique s.1.2)
  else s.1

end Mesh

/-- `GroupCloseSnaxels` (meshprocessing.cpp:252-282): the vector of groups. -/
def groupCloseSnaxels {K : Type} [Field K] [LinearOrder K] (snaxs : List (Snax K)) (tol : K) : List Int :=
  snaxs.map fun s => if s.d < tol then s.fromvert else if 1 - s.d < tol then s.tovert else -1

end RSVS
