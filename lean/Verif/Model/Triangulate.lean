import Verif.Model.Order

/-!
# Triangulation of surfaces

Model of SRCC/src/snake/triangulate.cpp:126-400 and 1129-1335.  `GetMaxIndex` is the largest index
in the list (`maxIdx`), which `push_back`, `clear` and `PrepareForUse` keep it to be: every use of
these functions begins with one of the last two (RSVSintegration.cpp:313 and 518,
meshprocessing.cpp:224-226).  The places of siblings come from an unordered map; here they are in
the order of the list.
-/

namespace RSVS.Triang

open RSVS.Mesh RSVS.Order

/-- `triangle` with its `tri2mesh` (SRCC/incl/triangulate.hpp:125-188). -/
structure Triangle where
  index : Int
  pointtype : List Int
  pointind : List Int
  parentsurf : Int
  celltarg : List Int
  influence : List Int
  deriving DecidableEq, Repr

/-- `trianglepoint` (triangulate.hpp:190-226) without its coordinates, which are set later. -/
structure TriPoint where
  index : Int
  parentsurf : Int
  parentType : Int
  deriving DecidableEq, Repr

/-- `trianglesurf` (triangulate.hpp:228-263): points as pairs of type and index. -/
structure TriSurf where
  index : Int
  pts : List (Int × Int)
  voluind : List Int
  parentsurfmesh : Int
  deriving DecidableEq, Repr

/-- What is triangulated: a polygon of points (type and index), the index of its surface and what
the triangles get as `connec`. -/
structure Poly where
  pts : List (Int × Int)
  parent : Int
  celltarg : List Int
  influence : List Int
  deriving DecidableEq, Repr

/-- The polygon of a surface (triangulate.cpp:279-296).  `orderVert` has as many entries as
`edgeind`. -/
def polyOfSurf (m : Mesh) (typeMesh : Int) (s : Surf) : Res Poly :=
  (orderedVerts m s.edgeind).map fun ord =>
    { pts := ord.map fun v => (typeMesh, v)
      parent := s.index
      celltarg := if typeMesh ≠ 2 then s.voluind else []
      influence := if typeMesh ≠ 2 then [-1, 1] else [] }

/-- The polygon of a `trianglesurf` (triangulate.cpp:354-362). -/
def polyOfTriSurf (t : TriSurf) : Poly :=
  { pts := t.pts, parent := t.index, celltarg := t.voluind, influence := [-1, 1] }

/-- The triangle of edge `ii` (triangulate.cpp:281-283 and 314-317, 372-378). -/
def fanTriangle (p : Poly) (centre nextInd : Int) (ii : Nat) : Triangle :=
  let a := p.pts.getD ii (0, 0)
  let b := p.pts.getD ((ii + 1) % p.pts.length) (0, 0)
  { index := nextInd + 1 + ii
    pointtype := [a.1, b.1, 3]
    pointind := [a.2, b.2, centre]
    parentsurf := p.parent
    celltarg := p.celltarg
    influence := p.influence }

/-- `TriangulateSurface` and `TriangulateTriSurface` (triangulate.cpp:262-338 and 340-400) once the
polygon is known. -/
def triangulate (p : Poly) (typeMesh nextInd trivertMaxInd : Int) :
    Res (List Triangle × List TriPoint) :=
  if p.pts.length < 3 then .error .throws
  else if p.pts.length > 3 then
    .ok ((List.range p.pts.length).map (fanTriangle p (trivertMaxInd + 1) nextInd),
      [{ index := trivertMaxInd + 1, parentsurf := p.parent, parentType := typeMesh }])
  else
    .ok ([{ index := nextInd + 1, pointtype := p.pts.map Prod.fst, pointind := p.pts.map Prod.snd,
            parentsurf := p.parent, celltarg := p.celltarg, influence := p.influence }], [])

/-- The loops of `TriangulateContainer` (triangulate.cpp:213-254). -/
def triangulateLoop (typeMesh maxIndVert : Int) : Nat → List (Res Poly) →
    List Triangle × List TriPoint → Res (List Triangle × List TriPoint)
  | _, [], st => .ok st
  | ii, p :: ps, st =>
    p.bind fun p =>
    (triangulate p typeMesh (maxIdx Triangle.index st.1) (maxIndVert + ii + 1)).bind fun r =>
    triangulateLoop typeMesh maxIndVert (ii + 1) ps (st.1 ++ r.1, st.2 ++ r.2)

/-- The last loop of `TriangulateContainer` (triangulate.cpp:255-259). -/
def reindex (nTriS : Nat) (maxIndTriangle : Int) (l : List Triangle) : List Triangle :=
  l.take nTriS ++ (l.drop nTriS).mapIdx fun ii t => { t with index := ii + maxIndTriangle + 1 }

/-- `TriangulateContainer` (triangulate.cpp:186-260) for the polygons of the surfaces chosen. -/
def triangulateContainer (typeMesh : Int) (polys : List (Res Poly))
    (st : List Triangle × List TriPoint) : Res (List Triangle × List TriPoint) :=
  (triangulateLoop typeMesh (maxIdx TriPoint.index st.2) 0 polys st).map fun r =>
    (reindex st.1.length (maxIdx Triangle.index st.1) r.1, r.2)

/-- The surfaces that `TriangulateContainer` chooses: those at the places of `subList`, or all if it
is empty (triangulate.cpp:213-254). -/
def chosen {α : Type} (l : List α) (subList : List Int) : Res (List α) :=
  if subList = [] then .ok l else subList.mapM fun k => elemAt l k

/-- The polygons of the chosen surfaces of a mesh. -/
def meshPolys (m : Mesh) (typeMesh : Int) (subList : List Int) : Res (List (Res Poly)) :=
  (chosen m.surfs subList).map fun l => l.map (polyOfSurf m typeMesh)

/-! ### Keeping the triangulation of the snake up to date -/

/-- `triangulation` (triangulate.hpp:84-123) without what it points to. -/
structure Triangulation where
  acttri : List Int
  stattri : List Triangle
  dynatri : List Triangle
  intertri : List Triangle
  trivert : List TriPoint
  trisurf : List TriSurf
  deriving DecidableEq, Repr

/-- The triangles of which the surface is gone or modified (triangulate.cpp:1134-1146). -/
def staleTri (surfs : List Surf) (isModif : Int → Bool) (t : Triangle) : Bool :=
  !(surfs.any fun s => s.index == t.parentsurf) || isModif t.parentsurf

/-- `CleanDynaTri` (triangulate.cpp:1129-1177); `isModif` is the flag of a surface. -/
def cleanDynaTri (surfs : List Surf) (isModif : Int → Bool) (T : Triangulation) : Triangulation :=
  let del := T.dynatri.filter (staleTri surfs isModif)
  let pDel := (del.flatMap fun t => ((t.pointtype.zip t.pointind).filter fun p => p.1 == 3).map Prod.snd)
    ++ (T.trivert.filter fun p => p.parentType == 3).map TriPoint.index
  { T with
    dynatri := removeIdx Triangle.index T.dynatri (del.map Triangle.index)
    trivert := removeIdx TriPoint.index T.trivert pDel
    intertri := []
    trisurf := [] }

/-- `SetConnectivityDyna` (triangulate.cpp:1317-1335; the factor is `-1 + 2 * jj`) for the triangles
without cells (triangulate.cpp:1293-1300). -/
def connectDyna (snaxVolu : Int → Res Int) (surfVolu : Int → Res (List Int)) (t : Triangle) :
    Res Triangle :=
  if t.celltarg.length = 0 then
    (snaxVolu t.parentsurf).bind fun v => (surfVolu t.parentsurf).bind fun vs =>
    (vecGet vs 0).map fun (v0 : Int) =>
      { t with celltarg := [v], influence := [if v0 = 0 then 1 else -1] }
  else .ok t

/-- `SetConnectivityInter` (triangulate.cpp:1303-1309). -/
def connectInter (trisurf : List TriSurf) (t : Triangle) : Res Triangle :=
  (isearch TriSurf.index trisurf t.parentsurf).map fun s =>
    { t with celltarg := s.voluind, influence := [-1, 1] }

/-- `SetConnectivityStat` (triangulate.cpp:1310-1316) for the triangles without cells
(triangulate.cpp:1277-1284). -/
def connectStat (meshVolu : Int → Res (List Int)) (t : Triangle) : Res Triangle :=
  if t.celltarg.length = 0 then
    (meshVolu t.parentsurf).map fun v => { t with celltarg := v, influence := [-1, 1] }
  else .ok t

/-- What the snake and the mesh give. -/
structure SnakeEnv where
  /-- `snakeconn`. -/
  conn : Mesh
  /-- `returnIsModif` of its surfaces. -/
  isModif : Int → Bool
  /-- `voluind` of `snaxsurfs`. -/
  snaxVolu : Int → Res Int
  /-- `voluind` of the surfaces of `meshDep`. -/
  meshVolu : Int → Res (List Int)
  /-- Whether a vertex of `meshDep` is inside the snake; not defined for a vertex that is not there. -/
  vertIn : Int → Res Bool

/-- The decision for one surface of the mesh (triangulate.cpp:1240-1264), by the first of its
triangles. -/
def activeSurf (E : SnakeEnv) (trisurf : List TriSurf) (t : Triangle) : Res Bool :=
  if trisurf.any fun s => s.parentsurfmesh == t.parentsurf then .ok false
  else match (t.pointtype.zip t.pointind).find? fun p => p.1 == 1 with
    | none => .error .throws
    | some p => E.vertIn p.2

/-- The loop of `SetActiveStaticTri` (triangulate.cpp:1236-1271); `done` are the surfaces seen. -/
def activeLoop (E : SnakeEnv) (trisurf : List TriSurf) (all : List Triangle) :
    List Int → List Triangle → Res (List Int)
  | _, [] => .ok []
  | seen, t :: ts =>
    if t.parentsurf ∈ seen then activeLoop E trisurf all seen ts
    else
      (activeSurf E trisurf t).bind fun b =>
      (activeLoop E trisurf all (t.parentsurf :: seen) ts).map fun r =>
        (if b then (all.filter fun u => u.parentsurf == t.parentsurf).map Triangle.index else []) ++ r

/-- `SetActiveStaticTri` (triangulate.cpp:1226-1272). -/
def setActive (E : SnakeEnv) (T : Triangulation) : Res Triangulation :=
  (activeLoop E T.trisurf T.stattri [] T.stattri).map fun a => { T with acttri := a }

/-- `MaintainTriangulateSnake` (triangulate.cpp:147-184) with a snake; `cut` are the surfaces that
`BuildTriSurfGridSnakeIntersect` pushes.  The coordinates of the points are left out. -/
def maintain (E : SnakeEnv) (cut : List TriSurf) (T : Triangulation) : Res Triangulation :=
  let modif := E.conn.surfs.filter fun s => E.isModif s.index
  let T := cleanDynaTri E.conn.surfs E.isModif T
  (if modif = [] then .ok (T.dynatri, T.trivert)
    else triangulateContainer 2 (modif.map (polyOfSurf E.conn 2)) (T.dynatri, T.trivert)).bind fun d =>
  (triangulateContainer 3 (cut.map fun c => .ok (polyOfTriSurf c)) ([], d.2)).bind fun i =>
  (T.stattri.mapM (connectStat E.meshVolu)).bind fun st =>
  (i.1.mapM (connectInter cut)).bind fun it =>
  (d.1.mapM (connectDyna E.snaxVolu fun s => (isearch Surf.index E.conn.surfs s).map Surf.voluind)).bind
    fun dy =>
  setActive E { T with stattri := st, dynatri := dy, intertri := it, trivert := i.2, trisurf := cut }

end RSVS.Triang
