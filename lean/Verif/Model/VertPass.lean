import Verif.Model.Mesh

/-!
# Snaxels on the same edge of the parent mesh are joined

`SnaxEdgeConnecDetection` and the part of `CleanupSnakeConnec` which carries its edits out
(SRCC/src/snake/snakeengine.cpp:415-471, 588-660, 781-795).
-/

namespace RSVS.VertPass

open RSVS.Mesh

/-- The edits pushed for one edge of the snake.  An edit of a vertex (`typeobj` 1) is always pushed
together with the edit of the edge (`typeobj` 2) right behind it (snakeengine.cpp:445-456), so the two are
kept in one record and `connecEdit[jj + 1]` is the edge part of the record of `connecEdit[jj]`.  `rmvind`
has exactly one entry in both.  `pair` is `(keepind, rmvind[0])` of the edit of the vertex. -/
structure Found where
  pair : Option (Int × Int)
  edgeKeep : Int
  edgeRmv : Int
  deriving DecidableEq, Repr

/-- One turn of the loop of `SnaxEdgeConnecDetection` (snakeengine.cpp:424-470).  `snaxs` are the snaxels,
each with the edge of the parent mesh it is on; `snaxedges` are the indices of the snake edges. -/
def detectAt (m : Mesh) (snaxs : List (Int × Int)) (snaxedges : List Int) (ii : Nat) : Res (List Found) :=
  (elemAt m.edges (ii : Int)).bind fun e =>
  if e.vertind.length > 0 then
    (vecGet e.vertind 0).bind fun v0 =>
    (vecGet e.vertind 1).bind fun v1 =>
    let sub1 := posOf Prod.fst snaxs v0
    let sub2 := posOf Prod.fst snaxs v1
    if sub1 = -1 ∨ sub2 = -1 then .ok []
    else
      (elemAt snaxs sub1).bind fun s1 =>
      (elemAt snaxs sub2).bind fun s2 =>
      if s1.2 = s2.2 then
        (elemAt snaxedges (ii : Int)).map fun k => [⟨if sub1 ≠ sub2 then some (s1.1, s2.1) else none, k, k⟩]
      else .ok []
  else .ok []

/-- `SnaxEdgeConnecDetection` (snakeengine.cpp:415-471). -/
def detect (m : Mesh) (snaxs : List (Int × Int)) (snaxedges : List Int) : Res (List Found) :=
  ((List.range snaxedges.length).mapM (m := Except Fault) (detectAt m snaxs snaxedges)).map List.flatten

/-- A later edit is changed by an edit which has been carried out (snakeengine.cpp:601-619). -/
def overwrite (p : Int × Int) (edgeKeep : Int) (h : Found) : Found :=
  match h.pair with
  | none => h
  | some q =>
    if q.1 ≠ q.2 ∧ (q.2 = p.2 ∨ q.2 = p.1 ∨ q.1 = p.2 ∨ q.1 = p.1) then ⟨some p, edgeKeep, -1⟩ else h

/-- The vertices are joined, one edit after the other (snakeengine.cpp:591-622).  The number bounds the turns of
the loop. -/
def mergeGo : Nat → Mesh → List Found → Res (Mesh × List Found)
  | 0, m, _ => .ok (m, [])
  | _ + 1, m, [] => .ok (m, [])
  | c + 1, m, g :: rest =>
    match g.pair with
    | none => (mergeGo c m rest).map fun r => (r.1, g :: r.2)
    | some p =>
      (m.switchVert p.2 p.1).bind fun m1 =>
      (mergeGo c m1 (rest.map (overwrite p g.edgeKeep))).map fun r => (r.1, g :: r.2)

/-- The loop over all the edits (snakeengine.cpp:591-622), a turn for each. -/
def mergePass (m : Mesh) (l : List Found) : Res (Mesh × List Found) := mergeGo l.length m l

/-- `DeHashParent(find(edge))` (snakstruct_incl.cpp:42-61): the edge is taken out of the table of parents,
kept here as the list `live` of the edges in it.  An edge which is not in the table is looked for past the
end of it, or is refused; both are reported as undefined. -/
def dehash (live : List Int) (edge : Int) : Res (List Int) :=
  if edge ∈ live then .ok (live.erase edge) else .error .ub

/-- One edge is removed from the mesh and from the table of parents. -/
def removeOne (s : Mesh × List Int) (edge : Int) : Res (Mesh × List Int) :=
  (s.1.removeEdge edge).bind fun m => (dehash s.2 edge).map fun live => (m, live)

/-- The edges of the edits are removed (snakeengine.cpp:626-641). -/
def removePass (s : Mesh × List Int) : List Found → Res ((Mesh × List Int) × List Found)
  | [] => .ok (s, [])
  | g :: rest =>
    if g.edgeRmv > 0 then
      (removeOne s g.edgeRmv).bind fun s1 => (removePass s1 rest).map fun r => (r.1, g :: r.2)
    else (removePass s rest).map fun r => (r.1, { g with edgeRmv := g.edgeKeep } :: r.2)

/-- One turn of the loop which removes edges connected to the same vertex twice (snakeengine.cpp:645-659);
the edges pushed on `connecEdit` are collected in the last component. -/
def sameVertAt (s : (Mesh × List Int) × List Int) (ii : Nat) : Res ((Mesh × List Int) × List Int) :=
  (elemAt s.1.1.edges (ii : Int)).bind fun e =>
  if e.vertind.length > 1 then
    (vecGet e.vertind 0).bind fun v0 =>
    (vecGet e.vertind 1).bind fun v1 =>
    if v0 = v1 then (removeOne s.1 e.index).map fun s1 => (s1, s.2 ++ [e.index]) else .ok s
  else .ok s

/-- The loop (snakeengine.cpp:644-659). -/
def sameVertPass (s : Mesh × List Int) : Res ((Mesh × List Int) × List Int) :=
  (List.range s.1.edges.length).foldlM (m := Except Fault) sameVertAt (s, [])

/-- What the pass leaves. -/
structure Passed where
  mesh : Mesh
  live : List Int
  found : List Found
  extra : List Int
  deriving DecidableEq, Repr

/-- From the search for snaxels on the same edge to the removal of edges connected to the same vertex twice
(snakeengine.cpp:588-660). -/
def vertexPass (m : Mesh) (snaxs : List (Int × Int)) (snaxedges live : List Int) : Res Passed :=
  (detect m snaxs snaxedges).bind fun f =>
  (mergePass m f).bind fun r =>
  (removePass (r.1, live) r.2).bind fun q =>
  (sameVertPass q.1).map fun t => ⟨t.1.1, t.1.2, q.2, t.2⟩

/-- The search for collapsed edges among the kept edges of the edits (snakeengine.cpp:785-795).  `vertind` is a
plain vector. -/
def collapsedEdges (m : Mesh) (keeps : List Int) : Res (List Int) :=
  (keeps.mapM (m := Except Fault) fun k =>
    (isearch Edge.index m.edges k).bind fun e =>
    (vecGet e.vertind 0).bind fun v0 =>
    (vecGet e.vertind 1).map fun v1 => if v0 = v1 then [k] else []).map List.flatten

end RSVS.VertPass
