import Verif.Model.CutEdges

/-!
# The new edge of a surface cut by a box

Model of the functions of `meshhelp` with which `mesh::AddBoundary` shares out the edges of a
surface and finds the ends of the edge which closes it (mesh.cpp:6352-6383, 6490-6540), as
called in mesh.cpp:5551-5556.  The containers are prepared; the surface is the one found in the
mesh, the copy of it made just before is not needed here.
-/

namespace RSVS.CutEdges

/-- `meshhelp::SplitBorderSurfaceEdgeind` (mesh.cpp:6352-6383): the edges inside and those
outside. -/
def shareEdges (m : Mesh) (eo : List Bool) : List Int → Res (List Int × List Int)
  | [] => .ok ([], [])
  | f :: r => do
    let p := posOf Edge.index m.edges f
    if p = -1 then .error .throws
    else do
      let o ← vecGet eo p
      let x ← elemAt m.edges p
      let q ← shareEdges m eo r
      .ok (if o then (q.1, x.index :: q.2) else (x.index :: q.1, q.2))

/-- The ends of an edge which are not outside (mesh.cpp:6504-6511). -/
def innerEnds (m : Mesh) (vo : List Bool) (f : Int) : Res (List Int) := do
  let x ← elemAt m.edges (posOf Edge.index m.edges f)
  let a ← vecGet x.vertind 0
  let oa ← isOut m vo a
  let b ← vecGet x.vertind 1
  let ob ← isOut m vo b
  .ok ((if oa then [] else [a]) ++ (if ob then [] else [b]))

/-- The loop over a list of edges which collects vertices of each. -/
def collect (g : Int → Res (List Int)) : List Int → Res (List Int)
  | [] => .ok []
  | f :: r => do
    let x ← g f
    let y ← collect g r
    .ok (x ++ y)

/-- The ends of an edge which are in a list (mesh.cpp:6523-6533). -/
def endsAmong (m : Mesh) (l : List Int) (f : Int) : Res (List Int) := do
  let x ← elemAt m.edges (posOf Edge.index m.edges f)
  .ok (x.vertind.filter fun v => decide (v ∈ l))

/-- `meshhelp::FindVertInFromEdgeOut` (mesh.cpp:6490-6540). -/
def findVertIn (m : Mesh) (vo : List Bool) (edgeList edgeListCheck : List Int) :
    Res (List Int) := do
  let l ← collect (innerEnds m vo) edgeList
  let l := sortUnique l
  if l.length ≠ 2 then do
    let l' ← collect (endsAmong m l) edgeListCheck
    .ok (sortUnique l')
  else .ok (sortUnique l)

/-- The ends found for the edge which closes surface `s` (mesh.cpp:5551-5556). -/
def closingVerts (m : Mesh) (vo eo : List Bool) (s : Surf) : Res (List Int) := do
  let q ← shareEdges m eo s.edgeind
  findVertIn m vo q.2 q.1

end RSVS.CutEdges
