import Verif.Model.Flood

/-!
# Removing the parts of a snake which are spawned in given cells (rsvs/RSVSalgorithm.cpp)

`RemoveSnakeInVolu` and `RemoveSnakeInSurf` delete the connected parts of the snake which pass
through given cells of the snaking mesh, or all the other parts.  They are modelled up to
`TightenConnectivity`; the rehash, the connectivity report, `PrepareForUse`, `Flip` and
`AssignInternalVerts` after it are modelled elsewhere.
-/

namespace RSVS.SpawnRemove

open RSVS.Mesh

/-- The parts of `class snake` (snake.hpp:440-540) which are touched: `snakeconn` and the three
containers beside it.  Of a `snax` only the index is kept; of a `snaxedge` the index and `surfind`;
of a `snaxsurf` the index and `voluind` (the keys of their `hashParent`). -/
structure Snake where
  conn : Mesh
  snaxs : List Int
  snaxedges : List (Int × Int)
  snaxsurfs : List (Int × Int)
  deriving DecidableEq, Repr

/-- The first loop of `RemoveSnakeInVolu` (RSVSalgorithm.cpp:206-220): the vertices of the edges of
the surfaces of the given volumes.  `sibs c` is what `findsiblings(c)` gives: the positions of the
`snaxsurfs` with parent `c` (the positions are those of `snakeconn.surfs` too). -/
def touchVolu (m : Mesh) (sibs : Int → List Nat) (cells : List Int) : Res (List Int) :=
  cells.foldlM (fun acc c =>
    (concatField m.surfs Surf.edgeind ((sibs c).map fun p : Nat => (p : Int))).bind fun te =>
      (concatField m.edges Edge.vertind (posList Edge.index m.edges te)).map fun ts => acc ++ ts) []

/-- The first loop of `RemoveSnakeInSurf` (RSVSalgorithm.cpp:310-324): the vertices of the edges of
the given surfaces; `sibs c` are the positions of the `snaxedges` with parent `c`. -/
def touchSurf (m : Mesh) (sibs : Int → List Nat) (cells : List Int) : Res (List Int) :=
  cells.foldlM (fun acc c =>
    (concatField m.edges Edge.vertind ((sibs c).map fun p : Nat => (p : Int))).map fun ts => acc ++ ts) []

/-- A write through `std::vector::operator[]`: undefined out of range. -/
def vecSet {α : Type} (v : List α) (i : Int) (a : α) : Res (List α) :=
  if i < 0 then .error .ub
  else if i.toNat < v.length then .ok (v.set i.toNat a)
  else .error .ub

/-- The loop which marks the blocks (RSVSalgorithm.cpp:226-231 and 330-335):
`isBlockDel[vertBlocks[verts.find(delSnax[ii])] - 1] = delVertInVolu`. -/
def markBlocks (m : Mesh) (blocks : List Int) (b : Bool) (touched : List Int) (isDel : List Bool) :
    Res (List Bool) :=
  touched.foldlM (fun isDel t =>
    (vecGet blocks (posOf Vert.index m.verts t)).bind fun l => vecSet isDel (l - 1) b) isDel

/-- The elements to delete. -/
structure Lists where
  snax : List Int
  edge : List Int
  surf : List Int
  deriving DecidableEq, Repr

/-- One turn of the loop which collects the elements to delete (RSVSalgorithm.cpp:238-259; 342-358,
where the surfaces are not collected). -/
def collectStep (withSurf : Bool) (s : Snake) (blocks : List Int) (isDel : List Bool) (a : Lists) (ii : Nat) :
    Res Lists :=
  (vecGet blocks ii).bind fun l =>
  (vecGet isDel (l - 1)).bind fun del =>
  if del then
    (elemAt s.snaxs ii).bind fun x =>
    (elemAt s.conn.verts ii).bind fun v =>
    (if withSurf then concatField s.conn.edges Edge.surfind (posList Edge.index s.conn.edges v.edgeind)
     else .ok []).map fun ts =>
      { snax := a.snax ++ [x], edge := a.edge ++ v.edgeind, surf := a.surf ++ ts }
  else .ok a

/-- The middle of both functions (RSVSalgorithm.cpp:223-259 and 327-358): the blocks, their marks
and the elements of the marked ones. -/
def collect (withSurf : Bool) (s : Snake) (outerBorder : Int) (touched : List Int) : Res Lists :=
  (s.conn.connectedVertex []).bind fun bn =>
  (markBlocks s.conn bn.1 (decide (outerBorder > 0)) touched
    (List.replicate bn.2.toNat (!decide (outerBorder > 0)))).bind fun isDel =>
  (List.range bn.1.length).foldlM (collectStep withSurf s bn.1 isDel) { snax := [], edge := [], surf := [] }

/-- `RemoveSnakeInVolu` (RSVSalgorithm.cpp:194-282). -/
def removeInVolu (s : Snake) (sibs : Int → List Nat) (cells : List Int) (outerBorder : Int) : Res Snake :=
  (touchVolu s.conn sibs cells).bind fun touched =>
  (collect true s outerBorder touched).bind fun d =>
  (d.surf.foldlM (m := Except Fault) Mesh.removeSurf s.conn).bind fun m =>
  (Mesh.tighten
    { m with
      verts := removeIdx Vert.index m.verts (sortUnique d.snax)
      edges := removeIdx Edge.index m.edges (sortUnique d.edge)
      surfs := removeIdx Surf.index m.surfs (sortUnique d.surf) }).map fun m =>
    { conn := m
      snaxs := removeIdx (fun i => i) s.snaxs (sortUnique d.snax)
      snaxedges := removeIdx Prod.fst s.snaxedges (sortUnique d.edge)
      snaxsurfs := removeIdx Prod.fst s.snaxsurfs (sortUnique d.surf) }

/-- `RemoveSnakeInSurf` (RSVSalgorithm.cpp:298-385): the surfaces stay. -/
def removeInSurf (s : Snake) (sibs : Int → List Nat) (cells : List Int) (outerBorder : Int) : Res Snake :=
  (touchSurf s.conn sibs cells).bind fun touched =>
  (collect false s outerBorder touched).bind fun d =>
  (d.edge.foldlM (m := Except Fault) Mesh.removeEdge s.conn).bind fun m =>
  (Mesh.tighten
    { m with
      verts := removeIdx Vert.index m.verts (sortUnique d.snax)
      edges := removeIdx Edge.index m.edges (sortUnique d.edge) }).map fun m =>
    { conn := m
      snaxs := removeIdx (fun i => i) s.snaxs (sortUnique d.snax)
      snaxedges := removeIdx Prod.fst s.snaxedges (sortUnique d.edge)
      snaxsurfs := s.snaxsurfs }

end RSVS.SpawnRemove
