import Verif.Model.Mesh
import Verif.Model.Triangulate

/-!
# A mesh of separate triangles

`TriarrayToMesh` (SRCC/src/snake/triangulate.cpp:513-604).  Simplification: the `PrepareForUse` at the end is left out.
-/

namespace RSVS.TriSoup

open RSVS.Triang

/-- Where the points of triangles are: the vertices of `meshDep` and of `snakeDep->snakeconn`, and `trivert` (indices and coordinates). -/
structure Points where
  mesh : List Vert
  snake : List Vert
  tri : List (Int × List ℚ)

/-- The coordinates of corner `jj` (triangulate.cpp:584-596); with another type the vertex keeps the coordinates it was made with. -/
def corner (g : Points) (t : Triangle) (jj : Nat) : Res (List ℚ) :=
  (vecGet t.pointtype jj).bind fun ty =>
  (vecGet t.pointind jj).bind fun p =>
  if ty = 1 then (elemAt g.mesh (posOf Vert.index g.mesh p)).map Vert.coord
  else if ty = 2 then (elemAt g.snake (posOf Vert.index g.snake p)).map Vert.coord
  else if ty = 3 then (elemAt g.tri (posOf Prod.fst g.tri p)).map Prod.snd
  else .ok [0, 0, 0]

/-- The coordinates of all corners, three for each triangle (triangulate.cpp:580-596). -/
def coords (g : Points) : List Triangle → Res (List (List ℚ))
  | [] => .ok []
  | t :: r =>
    (corner g t 0).bind fun a => (corner g t 1).bind fun b => (corner g t 2).bind fun c => (coords g r).map fun l => a :: b :: c :: l

/-- The vertex at position `k = ii * 3 + jj` (triangulate.cpp:584-597, `PopulateIndices`). -/
def soupVert (k : Nat) (x : List ℚ) : Vert :=
  { index := k + 1, edgeind := [((k / 3 * 3 + 1 + k % 3 : Nat) : Int), ((k / 3 * 3 + 1 + (k % 3 + 3 - 1) % 3 : Nat) : Int)], coord := x }

/-- The edge at position `k = ii * 3 + jj` (triangulate.cpp:582-583). -/
def soupEdge (k : Nat) : Edge :=
  { index := k + 1, vertind := [((k / 3 * 3 + 1 + k % 3 : Nat) : Int), ((k / 3 * 3 + 1 + (k % 3 + 1) % 3 : Nat) : Int)], surfind := [((k / 3 + 1 : Nat) : Int)] }

/-- The volumes of a triangle (triangulate.cpp:546-565): the constraints of its cells, as listed by `find` (the hash table of
`constrMap`, from `vec` to `targ`, arraystructures_incl.cpp:748-753).
Simplification: the factors are integers, so that the comparison with 1.0 is exact. -/
def soupCells (find : Int → List Int) (t : Triangle) : Res (List Int) :=
  let l := t.celltarg.flatMap fun c => (find c).map fun (x : Int) => x + 1
  let l := if l.length = 1 then l ++ [0] else l
  (vecGet t.influence 0).bind fun w =>
  if w = 1 then
    (vecGet l 0).bind fun a => (vecGet l 1).bind fun b => .ok ((l.set 0 b).set 1 a)
  else .ok l

/-- A volume gets the surface, if there is one with this index (triangulate.cpp:566-578).  Simplification: the message for other volumes
(573-577) is left out; it reads `celltarg[jj]`, which is past the end for more volumes than cells. -/
def addSurf (s : Int) (volus : List Volu) (c : Int) : List Volu :=
  let kk := posOf Volu.index volus c
  if 0 ≤ kk then volus.modify kk.toNat fun x => { x with surfind := x.surfind ++ [s] } else volus

/-- The surfaces, and the volumes with their surfaces (triangulate.cpp:541-578); `ii` is the position of the first triangle. -/
def surfLoop (find : Int → List Int) : List Triangle → Nat → List Volu → Res (List Surf × List Volu)
  | [], _, volus => .ok ([], volus)
  | t :: r, ii, volus =>
    (soupCells find t).bind fun cells =>
    (surfLoop find r (ii + 1) (cells.foldl (addSurf (ii + 1)) volus)).map fun (ss, vs) =>
      ({ index := ii + 1, edgeind := [(ii : Int) * 3 + 1, (ii : Int) * 3 + 2, (ii : Int) * 3 + 3], voluind := cells } :: ss, vs)

/-- `TriarrayToMesh` (triangulate.cpp:513-604).  `nVolu` is `numConstr()`.  The list `voluInds` (527-534) is not used, but filling it reads the first two cells of
each triangle. -/
def triarrayToMesh (g : Points) (find : Int → List Int) (nVolu : Nat) (ts : List Triangle) : Res Mesh :=
  if ts.any (fun t => t.celltarg.length < 2) then .error .ub
  else
    (surfLoop find ts 0 ((List.range nVolu).map fun (k : Nat) => { index := (k : Int) + 1, surfind := [] })).bind fun (surfs, volus) =>
    (coords g ts).map fun xs =>
      { verts := xs.zipIdx.map fun (x : List ℚ × Nat) => soupVert x.2 x.1
        edges := (List.range (ts.length * 3)).map soupEdge
        surfs := surfs
        volus := volus }

end RSVS.TriSoup
