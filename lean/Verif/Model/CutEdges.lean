import Verif.Model.Mesh

/-!
# The edges cut by a box

Model of the first part of `mesh::AddBoundary` (mesh.cpp:5357-5531): the vertices outside a
box are marked, the edges with one end in and one end out are found, and each of them is
split by a new vertex; then each edge is marked as inside or outside.

Simplifications:

* the new vertices and edges are appended one at a time when they are filled in; in the code
  `Concatenate` (mesh.cpp:5445-5454) appends all of them empty beforehand, with the indices
  used here;
* the position of the new vertex, `meshhelp::PlaceBorderVertex` (mesh.cpp:6321-6350, property
  C104), is a parameter, which may fault;
* coordinates have three entries, as every constructor of `vert` sets;
* the tests of `flagErr1` and `flagErr2` (mesh.cpp:5487-5500) are left out: after the test just
  before them they cannot fire;
* the new surfaces and volumes, filled by the rest of the function, are left out.
-/

namespace RSVS.CutEdges

/-- The marks of the outer vertices (mesh.cpp:5409-5420). -/
def marks (lb ub : Fin 3 → ℚ) (m : Mesh) : List Bool :=
  m.verts.map fun x => [0, 1, 2].any fun j : Fin 3 =>
    decide (x.coord.getD j 0 > ub j) || decide (x.coord.getD j 0 < lb j)

/-- `vertOut[this->verts.find(v)]` (mesh.cpp:5423). -/
def isOut (m : Mesh) (vo : List Bool) (v : Int) : Res Bool :=
  vecGet vo (posOf Vert.index m.verts v)

/-- The edges with one end in and one end out (mesh.cpp:5421-5428). -/
def cutEdges (m : Mesh) (vo : List Bool) : Res (List Int) :=
  m.edges.foldlM (fun (acc : List Int) (x : Edge) => do
    let a ← vecGet x.vertind 0
    let b ← vecGet x.vertind 1
    let oa ← isOut m vo a
    let ob ← isOut m vo b
    .ok (if oa ^^ ob then acc ++ [x.index] else acc)) []

/-- One pass of the loop over the edges to split (mesh.cpp:5468-5521), with the indices of the
new vertex and of the new edge. -/
def splitEdge (place : List ℚ → List ℚ → Res (List ℚ)) (nv ne : Int) (e : Int)
    (st : Mesh × List Bool) : Res (Mesh × List Bool) := do
  let m := st.1
  let ed ← elemAt m.edges (posOf Edge.index m.edges e)
  let surfs ← visit m.surfs (posList Surf.index m.surfs ed.surfind)
    (fun s => { s with edgeind := s.edgeind ++ [ne] })
  let a ← vecGet ed.vertind 0
  let b ← vecGet ed.vertind 1
  let oa ← isOut m st.2 a
  let ob ← isOut m st.2 b
  if !(oa ^^ ob) then .error .throws
  else do
    let iIn : Nat := if oa then 1 else 0
    let iOut : Nat := if oa then 0 else 1
    let vi ← vecGet ed.vertind iIn
    let vx ← vecGet ed.vertind iOut
    let cin ← elemAt m.verts (posOf Vert.index m.verts vi)
    let cout ← elemAt m.verts (posOf Vert.index m.verts vx)
    let x ← place cin.coord cout.coord
    let verts ← modAt m.verts (posOf Vert.index m.verts vx)
      (fun w => { w with edgeind := replaceAll e ne w.edgeind })
    let edges ← modAt m.edges (posOf Edge.index m.edges e)
      (fun w => { w with vertind := w.vertind.set iOut nv })
    .ok ({ m with
            verts := verts ++ [{ index := nv, edgeind := [e, ne], coord := x }]
            edges := edges ++ [{ ed with index := ne, vertind := ed.vertind.set iIn nv }]
            surfs := surfs }, st.2 ++ [false])

/-- The loop (mesh.cpp:5464-5522); `nv` and `ne` are the indices of the next new vertex and
edge. -/
def splitAll (place : List ℚ → List ℚ → Res (List ℚ)) :
    List Int → Int → Int → Mesh × List Bool → Res (Mesh × List Bool)
  | [], _, _, st => .ok st
  | e :: es, nv, ne, st => do
    let st' ← splitEdge place nv ne e st
    splitAll place es (nv + 1) (ne + 1) st'

/-- The first part of `mesh::AddBoundary` (mesh.cpp:5398-5522). -/
def cutByBox (place : List ℚ → List ℚ → Res (List ℚ)) (lb ub : Fin 3 → ℚ) (m : Mesh) :
    Res (Mesh × List Bool) := do
  let es ← cutEdges m (marks lb ub m)
  splitAll place es (Mesh.maxIdx Vert.index m.verts + 1) (Mesh.maxIdx Edge.index m.edges + 1)
    (m, marks lb ub m)

/-- The edges with an end outside (mesh.cpp:5525-5531); the second end is read only when the
first is not outside. -/
def edgeOuts (m : Mesh) (vo : List Bool) : Res (List Bool) :=
  m.edges.mapM (m := Except Fault) fun x => do
    let a ← vecGet x.vertind 0
    let oa ← isOut m vo a
    if oa then .ok true
    else do
      let b ← vecGet x.vertind 1
      isOut m vo b

end RSVS.CutEdges
