import Verif.Model.Order

/-!
# Output of a mesh as a Tecplot zone

`tecplotfile::PrintMesh` (SRCC/src/postprocessing.cpp).  A zone is modelled by the integers of its header and by its
lines of numbers.  The formatting of numbers, the breaks of long lines, the strand and time of the zone, and the line of
variable names are left out.
-/

namespace RSVS.Tecplot

open RSVS RSVS.Order RSVS.Mesh

/-- `ZONETYPE` of the header. -/
inductive Kind
  | polyhedron
  | polygon
  | line
  | ordered
  deriving DecidableEq, Repr

/-- What is printed for a zone.  `faceNodes` is `TOTALNUMFACENODES` (0 where the header has no such line); `nodal` and
`cell` are the lines of values which the header declares at the nodes and at the elements. -/
structure Zone where
  kind : Kind
  nodes : Int
  elements : Int
  faces : Int
  faceNodes : Int
  nodal : List (List ℚ)
  cell : List (List ℚ)
  map : List (List Int)
  deriving DecidableEq, Repr

/-- `totNumFaceNode` of `ExtractMeshData` (postprocessing.cpp:16-31). -/
def totFaceNodes (m : Mesh) : Int := (m.surfs.map fun s => (s.edgeind.length : Int)).sum

/-- One line with a value for each position below `n` of a container. -/
def lineOf {α β : Type} (l : List α) (n : Nat) (f : α → Res β) : Res (List β) :=
  (List.range n).mapM (m := Except Fault) fun i : Nat => (elemAt l (i : Int)).bind f

/-- `dataoutput::Coord` (postprocessing.cpp:34-56) with `nVertDat = 3`. -/
def coordLines (m : Mesh) (nVert : Nat) : Res (List (List ℚ)) :=
  (elemAt m.verts 0).bind fun v0 =>
    ((List.range (min v0.coord.length 3)).mapM (m := Except Fault) fun j : Nat =>
      lineOf m.verts nVert fun v => vecGet v.coord (j : Int)).map
        (· ++ List.replicate (3 - v0.coord.length) (List.replicate nVert 0))

/-- The coordinates of listed vertices (postprocessing.cpp:149-165). -/
def coordLinesOf (m : Mesh) (vertList : List Int) : Res (List (List ℚ)) :=
  (elemAt m.verts 0).bind fun v0 =>
    ((List.range (min v0.coord.length 3)).mapM (m := Except Fault) fun j : Nat =>
      vertList.mapM (m := Except Fault) fun i => (isearch Vert.index m.verts i).bind fun v => vecGet v.coord (j : Int)).map
        (· ++ List.replicate (3 - v0.coord.length) (List.replicate vertList.length 0))

/-- The three lines of cell data (postprocessing.cpp:168-185, 249-264). -/
def valueLines {α : Type} (l : List α) (n : Nat) (f t e : α → ℚ) : Res (List (List ℚ)) :=
  (lineOf l n fun c => .ok (f c)).bind fun a => (lineOf l n fun c => .ok (t c)).bind fun b =>
    (lineOf l n fun c => .ok (e c)).map fun c => [a, b, c]

/-- The three lines of cell data of listed volumes (postprocessing.cpp:186-204). -/
def valueLinesOf (m : Mesh) (voluList : List Int) : Res (List (List ℚ)) :=
  (voluList.mapM (m := Except Fault) fun i => (isearch Volu.index m.volus i).map Volu.fill).bind fun a =>
    (voluList.mapM (m := Except Fault) fun i => (isearch Volu.index m.volus i).map Volu.target).bind fun b =>
      (voluList.mapM (m := Except Fault) fun i => (isearch Volu.index m.volus i).map Volu.error).map fun c => [a, b, c]

/-- The coordinates printed by `VolDataBlock` (postprocessing.cpp:134-166): those of the list, or of the first `nVert`
vertices when the list is empty. -/
def volCoords (m : Mesh) (nVert : Nat) (vertList : List Int) : Res (List (List ℚ)) :=
  if vertList.length = 0 then coordLines m nVert else coordLinesOf m vertList

/-- The cell data printed by `VolDataBlock` (postprocessing.cpp:168-205). -/
def volValues (m : Mesh) (nVolu : Nat) (voluList : List Int) : Res (List (List ℚ)) :=
  if voluList.length = 0 then valueLines m.volus nVolu Volu.fill Volu.target Volu.error else valueLinesOf m voluList

/-! ### Face maps -/

/-- `find(vertind[0])` and `find(vertind[1])` of an edge (postprocessing.cpp:407-409, 415-418; 479-481, 487-490);
`num` is `verts.find`, or `verthash.find` for a list of vertices. -/
def numEnds (num : Int → Int) (m : Mesh) (e : Int) : Res (Int × Int) :=
  (endsOf m e).map fun p => (num p.1, num p.2)

/-- The loop over the edges of a face (postprocessing.cpp:413-446, 485-518); the second end is printed whenever the
first is not shared, as `TEST_POSTPROCESSING` is not defined. -/
def faceLoop (num : Int → Int) (m : Mesh) : Int × Int → List Int → Res (List Int)
  | _, [] => .ok []
  | past, e :: es =>
    (numEnds num m e).bind fun now =>
      (faceLoop num m now es).map
        (((if now.1 = past.1 ∨ now.2 = past.1 then past.1 else past.2) + 1) :: ·)

/-- The nodes printed for one face (postprocessing.cpp:405-447, 477-519); `edgeind[n - 1]` of an empty list is
undefined. -/
def faceNodes (num : Int → Int) (m : Mesh) (edgeind : List Int) : Res (List Int) :=
  (vecGet edgeind ((edgeind.length : Int) - 1)).bind fun l =>
    (numEnds num m l).bind fun past => faceLoop num m past edgeind

/-- `VolFaceMap` (postprocessing.cpp:393-461): the numbers of nodes, the nodes of each face, the volumes on the left
and the volumes on the right; `voluind[jj]` is a plain vector access. -/
def volFaceMap (m : Mesh) (nSurf : Nat) : Res (List (List Int)) :=
  (lineOf m.surfs nSurf fun s => .ok (s.edgeind.length : Int)).bind fun counts =>
    (lineOf m.surfs nSurf fun s => faceNodes (posOf Vert.index m.verts) m s.edgeind).bind fun fs =>
      (lineOf m.surfs nSurf fun s => (vecGet s.voluind 0).map fun c => posOf Volu.index m.volus c + 1).bind fun left =>
        (lineOf m.surfs nSurf fun s => (vecGet s.voluind 1).map fun c => posOf Volu.index m.volus c + 1).map fun right =>
          counts :: fs ++ [left, right]

/-- The search of a volume in the list (postprocessing.cpp:527-541): the number of the first equal entry, 0 if none. -/
def cellNum (voluList : List Int) (c : Int) : Int :=
  match voluList.findIdx? (· == c) with
  | some p => (p : Int) + 1
  | none => 0

/-- `VolFaceMap` for listed surfaces, volumes and vertices (postprocessing.cpp:462-548).  `verthash` is a hash of a
list without repetitions. -/
def volFaceMapOf (m : Mesh) (surfList voluList vertList : List Int) : Res (List (List Int)) :=
  let rows {β : Type} (f : Surf → Res β) : Res (List β) :=
    (posList Surf.index m.surfs surfList).mapM (m := Except Fault) fun p => (elemAt m.surfs p).bind f
  (rows fun s => .ok (s.edgeind.length : Int)).bind fun counts =>
    (rows fun s => faceNodes (posOf id vertList) m s.edgeind).bind fun fs =>
      (rows fun s => (vecGet s.voluind 0).map (cellNum voluList)).bind fun left =>
        (rows fun s => (vecGet s.voluind 1).map (cellNum voluList)).map fun right =>
          counts :: fs ++ [left, right]

/-- The lines `verts.find(..) + 1` of each edge (postprocessing.cpp:355-361, 382-388). -/
def edgeLines (m : Mesh) (nEdge : Nat) : Res (List (List Int)) :=
  lineOf m.edges nEdge fun e => (vecGet e.vertind 0).bind fun a => (vecGet e.vertind 1).map fun b =>
    [posOf Vert.index m.verts a + 1, posOf Vert.index m.verts b + 1]

/-- `SurfFaceMap` (postprocessing.cpp:350-375); `surfind[jj]` is a plain vector access. -/
def surfFaceMap (m : Mesh) (nEdge : Nat) : Res (List (List Int)) :=
  (edgeLines m nEdge).bind fun fs =>
    (lineOf m.edges nEdge fun e => (vecGet e.surfind 0).map fun s => posOf Surf.index m.surfs s + 1).bind fun left =>
      (lineOf m.edges nEdge fun e => (vecGet e.surfind 1).map fun s => posOf Surf.index m.surfs s + 1).map fun right =>
        fs ++ [left, right]

/-! ### Zones -/

/-- Type 1 of `PrintMesh` (postprocessing.cpp:601-606, 1739-1750). -/
def polyhedronZone (m : Mesh) : Res Zone :=
  (volCoords m m.verts.length []).bind fun nodal =>
    (volValues m m.volus.length []).bind fun cell =>
      (volFaceMap m m.surfs.length).map fun fm =>
        ⟨.polyhedron, m.verts.length, m.volus.length, m.surfs.length, totFaceNodes m, nodal, cell, fm⟩

/-- Type 2 of `PrintMesh` (postprocessing.cpp:607-612, 242-266, 1752-1763). -/
def polygonZone (m : Mesh) : Res Zone :=
  (coordLines m m.verts.length).bind fun nodal =>
    (valueLines m.surfs m.surfs.length Surf.fill Surf.target Surf.error).bind fun cell =>
      (surfFaceMap m m.edges.length).map fun fm =>
        ⟨.polygon, m.verts.length, m.surfs.length, m.edges.length, 2 * m.edges.length, nodal, cell, fm⟩

/-- Type 3 of `PrintMesh` (postprocessing.cpp:613-618, 268-285, 377-391, 1765-1773). -/
def lineZone (m : Mesh) : Res Zone :=
  (coordLines m m.verts.length).bind fun nodal =>
    (edgeLines m m.edges.length).map fun fm =>
      ⟨.line, m.verts.length, m.edges.length, m.edges.length, 0, nodal,
        List.replicate 3 (List.replicate m.edges.length 0), fm⟩

/-- The coordinates printed by `VertDataBlock` (postprocessing.cpp:287-329).  The second branch of the code is for an
empty list equal in size to the number of vertices. -/
def pointCoords (m : Mesh) (nVert : Nat) (nCoord : Nat) (vertList : List Int) : Res (List (List ℚ)) :=
  (List.range nCoord).mapM (m := Except Fault) fun j : Nat =>
    if 0 < vertList.length then
      (List.range nVert).mapM (m := Except Fault) fun i : Nat => (vecGet vertList (i : Int)).bind fun k =>
        (isearch Vert.index m.verts k).bind fun v => vecGet v.coord (j : Int)
    else if vertList.length = m.verts.length then
      ((List.range nVert).mapM (m := Except Fault) fun i : Nat => (vecGet vertList (i : Int)).bind fun k =>
        if k ≠ 0 then (elemAt m.verts (i : Int)).bind fun v => (vecGet v.coord (j : Int)).map some
        else .ok none).map (List.filterMap id)
    else lineOf m.verts nVert fun v => vecGet v.coord (j : Int)

/-- The number of points of the header (postprocessing.cpp:621-632). -/
def pointCount (m : Mesh) (vertList : List Int) : Int :=
  if vertList.length = m.verts.length then vertList.sum
  else if 0 < vertList.length then vertList.length
  else m.verts.length

/-- Type 4 of `PrintMesh` (postprocessing.cpp:619-636, 287-348, 1816-1822).  All lines are declared at the nodes. -/
def pointZone (m : Mesh) (vertList : List Int) : Res Zone :=
  (elemAt m.verts 0).bind fun v0 =>
    (pointCoords m (pointCount m vertList).toNat v0.coord.length vertList).map fun rows =>
      ⟨.ordered, pointCount m vertList, 0, 0, 0,
        rows ++ List.replicate (3 - v0.coord.length) (List.replicate (pointCount m vertList).toNat 0) ++
          List.replicate 3 (List.replicate (pointCount m vertList).toNat 0), [], []⟩

/-- Type 5 of `PrintMesh` (postprocessing.cpp:637-671). -/
def cellsZone (m : Mesh) (voluList : List Int) : Res Zone :=
  if voluList.length = 0 then .error .throws
  else
    (concatField m.volus Volu.surfind (posList Volu.index m.volus voluList)).bind fun ss =>
      (concatField m.surfs Surf.edgeind (posList Surf.index m.surfs (sortUnique ss))).bind fun es =>
        (concatField m.edges Edge.vertind (posList Edge.index m.edges es)).bind fun vs =>
          ((sortUnique ss).mapM (m := Except Fault) fun j =>
            (isearch Surf.index m.surfs j).map fun s => (s.edgeind.length : Int)).bind fun ns =>
              (volCoords m (sortUnique vs).length (sortUnique vs)).bind fun nodal =>
                (volValues m voluList.length voluList).bind fun cell =>
                  (volFaceMapOf m (sortUnique ss) voluList (sortUnique vs)).map fun fm =>
                    ⟨.polyhedron, (sortUnique vs).length, voluList.length, (sortUnique ss).length, ns.sum, nodal, cell, fm⟩

/-- The choice of the type of output (postprocessing.cpp:581-599). -/
def outType (m : Mesh) (force : Int) : Int :=
  if force = 0 then
    if 0 < m.volus.length then 1
    else if 0 < m.surfs.length then 2
    else if 0 < m.edges.length then 3
    else 4
  else force

/-- `tecplotfile::PrintMesh` on an open file (postprocessing.cpp:550-673); `none`: no zone with data is printed (no
vertex, or a type which is not known). -/
def printMesh (m : Mesh) (force : Int) (vertList : List Int) : Res (Option Zone) :=
  if m.verts.length = 0 then .ok none
  else if outType m force = 1 then (polyhedronZone m).map some
  else if outType m force = 2 then (polygonZone m).map some
  else if outType m force = 3 then (lineZone m).map some
  else if outType m force = 4 then (pointZone m vertList).map some
  else if outType m force = 5 then (cellsZone m vertList).map some
  else .ok none

/-- The list of vertices of `PrintSnakeInternalPts` (postprocessing.cpp:879-892). -/
def internalList (m : Mesh) (isIn : List Bool) : Res (List Int) :=
  ((List.range isIn.length).mapM (m := Except Fault) fun j : Nat => (vecGet isIn (j : Int)).bind fun b =>
    if b = true then (elemAt m.verts (j : Int)).map fun v => some v.index else .ok none).bind fun l =>
      if isIn.length = 0 then (elemAt m.verts 0).map fun v => l.filterMap id ++ [v.index]
      else .ok (l.filterMap id)

/-- `tecplotfile::PrintSnakeInternalPts` (postprocessing.cpp:872-894). -/
def printInternal (m : Mesh) (isIn : List Bool) : Res (Option Zone) :=
  (internalList m isIn).bind fun l => printMesh m 4 l

end RSVS.Tecplot
