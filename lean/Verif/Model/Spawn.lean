import Verif.Model.SnakeJoin

/-!
# Spawning a snake around a vertex

Model of `SpawnAtVertex` and the functions it calls (SRCC/src/snake/snakeengine.cpp:23-216).  Indices of the new
elements are given in their final form: `PopulateIndices` numbers from 1, positions in the lists below are shifted by
`ChangeIndices` (snakeengine.cpp:109, 148, 184).
-/

namespace RSVS

variable {K : Type}

/-- `FindSubList` (SRCC/incl/arraystructures_incl.cpp:767-795) with a table of the list itself; when a value
occurs twice the first one is taken. -/
def subsIn (keys l : List Int) : List Int := keys.map (posOf id l)

/-- The snaxel and the vertex for edge `e`, number `i` of the vertex (snakeengine.cpp:97-107). -/
def spawnVert [Field K] (m : Mesh) (indVert : Int) (coord : List ℚ) (surfInds : List Int) (e : Int) (i : Nat) :
    Res (Snax K × Vert) :=
  (Mesh.isearch Edge.index m.edges e).bind fun ed =>
  (vecGet ed.vertind 0).bind fun v0 =>
  (vecGet ed.vertind (if v0 = indVert then 1 else 0)).map fun t =>
  ({ index := (i : Int) + 1, d := 0, v := 1 / 2, fromvert := indVert, tovert := t, edgeind := e, orderedge := -1 },
    { index := (i : Int) + 1, edgeind := (subsIn ed.surfind surfInds).map (· + 1), coord := coord })

/-- `vertind` after the loop over the positions found (snakeengine.cpp:134-141): the vector has two entries. -/
def spawnEnds (l : List Int) : Res (List Int) :=
  if l.length ≤ 2 then .ok (l ++ List.replicate (2 - l.length) 0) else .error .ub

/-- The snaxel edge and the edge for surface `f`, number `i` (snakeengine.cpp:121-153). -/
def spawnEdge (m : Mesh) (edgeInds voluInds : List Int) (is3D : Bool) (f : Int) (i : Nat) : Res (SnaxEdge × Edge) :=
  (Mesh.isearch Surf.index m.surfs f).bind fun sf =>
  (spawnEnds ((subsIn sf.edgeind edgeInds).filter (· ≥ 0))).map fun vs =>
  ({ index := (i : Int) + 1, surfind := f },
    { index := (i : Int) + 1, vertind := vs.map (· + 1)
      surfind := if is3D then (subsIn sf.voluind voluInds).map (· + 1) else [1, 0] })

/-- The snaxel surface and the surface for cell `c`, number `i` (snakeengine.cpp:164-181). -/
def spawnSurf (m : Mesh) (surfInds : List Int) (c : Int) (i : Nat) : Res (SnaxSurf × Surf) :=
  (Mesh.isearch Volu.index m.volus c).map fun vo =>
  ({ index := (i : Int) + 1, voluind := c },
    { index := (i : Int) + 1, edgeind := ((subsIn vo.surfind surfInds).filter (· ≥ 0)).map (· + 1), voluind := [1, 0] })

/-- `SpawnAtVertexSurf2D` (snakeengine.cpp:185-204): only the first surface is filled. -/
def spawnSurf2D (nEdge : Nat) (c : Int) (i : Nat) : SnaxSurf × Surf :=
  ({ index := (i : Int) + 1, voluind := if i = 0 then c else 0 },
    { index := (i : Int) + 1, edgeind := if i = 0 then (List.range nEdge).map fun k : Nat => (k : Int) + 1 else []
      voluind := [0, 0] })

/-- The new snake of `SpawnAtVertex` (snakeengine.cpp:23-80). -/
def spawnNew [Field K] (m : Mesh) (base : Nat) (indVert : Int) : Res (Snake K) :=
  (elemAt m.verts (posOf Vert.index m.verts indVert)).bind fun v =>
  (concatField m.edges Edge.surfind (posList Edge.index m.edges v.edgeind)).bind fun fs =>
  let surfInds := sortUnique fs
  (concatField m.surfs Surf.voluind (posList Surf.index m.surfs surfInds)).bind fun cs =>
  let voluInds := sortUnique cs
  let is3D : Bool := m.volus.length > 0
  (v.edgeind.zipIdx.mapM (m := Except Fault) fun x => spawnVert (K := K) m indVert v.coord surfInds x.1 x.2).bind fun sv =>
  (surfInds.zipIdx.mapM (m := Except Fault) fun x => spawnEdge m v.edgeind voluInds is3D x.1 x.2).bind fun se =>
  (if is3D then voluInds.zipIdx.mapM (m := Except Fault) fun x => spawnSurf m surfInds x.1 x.2
    else if voluInds = [] then .error .throws
    else .ok (voluInds.zipIdx.map fun x => spawnSurf2D surfInds.length x.1 x.2)).map fun sf =>
  { snaxs := sv.map Prod.fst, snaxedges := se.map Prod.fst, snaxsurfs := sf.map Prod.fst
    conn :=
      { verts := sv.map Prod.snd, edges := se.map Prod.snd, surfs := sf.map Prod.snd
        volus := if is3D then [{ index := 1, surfind := (List.range voluInds.length).map fun k : Nat => (k : Int) + 1 }] else [] }
    base := base
    vertIn := (List.replicate m.verts.length false).set (posOf Vert.index m.verts indVert).toNat true
    flipped := false }

/-- `SpawnAtVertex` (snakeengine.cpp:23-86); `m` is the mesh the snake is on. -/
def spawnAtVertex [Field K] (s : Snake K) (m : Mesh) (indVert : Int) : Res (Snake K) :=
  (spawnNew m s.base indVert).bind fun n => s.concatenate (s.makeCompatible n) 0

/-! ### Snaxels that arrive at a vertex -/

/-- `snake::Init` with no elements (snake.cpp:417-433 and 435-441). -/
def emptySnake (m : Mesh) (base : Nat) : Snake K :=
  { snaxs := [], snaxedges := [], snaxsurfs := [], conn := { verts := [], edges := [], surfs := [], volus := [] }
    base := base, vertIn := List.replicate m.verts.length false, flipped := false }

/-- The end of a snaxel that it arrived at: `fromvert` for direction -1, `tovert` for -2 (snakeengine.cpp:333-346). -/
def arrivedAt (dir : Int) (s : Snax K) : Int := if dir = -1 then s.fromvert else s.tovert

/-- The loop over the impacts of `SpawnArrivedSnaxelsDir` (snakeengine.cpp:349-381): the vertices to spawn at and the
snaxels to freeze.  The counts for `reserve` are left out; in a sound mesh their look-ups succeed. -/
def arrivedLoop (snaxs : List (Snax K)) (m : Mesh) (dir : Int) : Impacts → Res (List Int × List Int)
  | [] => .ok ([], [])
  | (a, b) :: l =>
    if b = dir then
      (Mesh.isearch Snax.index snaxs a).bind fun s =>
      (Mesh.isearch Vert.index m.verts (arrivedAt dir s)).bind fun v =>
      (arrivedLoop snaxs m dir l).map fun r =>
      if v.isBorder then (r.1, a :: r.2) else (arrivedAt dir s :: r.1, r.2)
    else arrivedLoop snaxs m dir l

/-- `SpawnArrivedSnaxelsDir` (snakeengine.cpp:319-405) on a part without elements: the part, the snaxels to freeze and
the vertices that are not to be spawned at later. -/
def spawnArrivedDir [Field K] (full : Snake K) (m : Mesh) (impacts : Impacts) (dir : Int) (noSpawn : List Int) :
    Res (Snake K × List Int × List Int) :=
  (arrivedLoop full.snaxs m dir impacts).bind fun r =>
  let vertSpawn := sortUnique r.1
  ((vertSpawn.filter fun u => !noSpawn.contains u).foldlM (m := Except Fault) (fun s u => spawnAtVertex s m u)
    (emptySnake m full.base)).map fun part =>
  (part, r.2, noSpawn ++ vertSpawn)

/-- `snake::Flip` (snake.cpp:2329-2343). -/
def Snake.flip [Field K] (s : Snake K) : Snake K :=
  { s with snaxs := s.snaxs.map flipSnax, flipped := !s.flipped }

/-- `SpawnArrivedSnaxels` (snakeengine.cpp:278-317), without the last `PrepareForUse`: the snake and the snaxels that are
frozen. -/
def spawnArrived [Field K] (full : Snake K) (m : Mesh) (impacts : Impacts) : Res (Snake K × List Int) :=
  (spawnArrivedDir full m impacts (-1) [0]).bind fun bwd =>
  (spawnArrivedDir full m impacts (-2) bwd.2.2).bind fun fwd =>
  let b := bwd.1.flip
  (full.concatenate (full.makeCompatible b) 0).bind fun f1 =>
  (f1.concatenate (f1.makeCompatible fwd.1) 0).map fun f2 =>
  (f2, bwd.2.1 ++ fwd.2.1)

end RSVS
