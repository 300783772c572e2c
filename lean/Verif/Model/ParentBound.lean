import Verif.Model.Border

/-!
# Surfaces between the cells of the parents, and where a snake is spawned

`mesh::SurfInParent`, `mesh::VoluValuesofParents`, `mesh::SurfOnParentBound`,
`mesh::EdgeOnParentBound`, `mesh::ParentElementIndex` (SRCC/src/grid/mesh.cpp:1115-1453) and
`FindSpawnVerts` (SRCC/src/rsvs/RSVSalgorithm.cpp:13-86).  The parents are a list of meshes with the
vector `parentconn[ii]`, which gives for each position of a cell the index of its parent cell
(`HashedVectorSafe::operator[]` throws out of range, arraystructures.hpp:459-470); `nParents` is the
length of the list.  `double` is ℚ and `__DBL_EPSILON__` a parameter.
-/

namespace RSVS.ParentBound

open RSVS.Mesh

/-- A parent mesh with its entry of `parentconn`. -/
structure Parent where
  volus : List Volu
  surfs : List Surf
  conn : List Int
  deriving DecidableEq, Repr

/-- The loop of `mesh::SurfInParent` (mesh.cpp:1125-1136): the first parent which separates the two
positions, or -1. -/
def inParentLoop (kk1 kk2 : Int) : List Parent → Int → Res Int
  | [], _ => .ok (-1)
  | p :: ps, jj =>
    if (kk1 ≠ -1) ∧ ¬ (kk2 ≠ -1) ∨ ¬ (kk1 ≠ -1) ∧ kk2 ≠ -1 then .ok jj
    else if kk1 ≠ -1 then
      (elemAt p.conn kk1).bind fun a => (elemAt p.conn kk2).bind fun b =>
      if a ≠ b then .ok jj else inParentLoop kk1 kk2 ps (jj + 1)
    else inParentLoop kk1 kk2 ps (jj + 1)

/-- `mesh::SurfInParent(int)` (mesh.cpp:1115-1146). -/
def surfInParent (m : Mesh) (ps : List Parent) (s : Int) : Res Int :=
  if posOf Surf.index m.surfs s ≥ 0 then
    (elemAt m.surfs (posOf Surf.index m.surfs s)).bind fun x =>
    (vecGet x.voluind 0).bind fun c => (vecGet x.voluind 1).bind fun d =>
    inParentLoop (posOf Volu.index m.volus c) (posOf Volu.index m.volus d) ps 0
  else .ok (-1)

/-- `mesh::VoluValuesofParents` with `&volu::target` (mesh.cpp:1232-1246). -/
def voluTargets (m : Mesh) (ps : List Parent) (c : Int) : Res (List ℚ) :=
  ps.mapM fun p => (elemAt p.conn (posOf Volu.index m.volus c)).bind fun i =>
    (isearch Volu.index p.volus i).map Volu.target

/-- `mesh::SurfValuesofParents` with `&surf::target` (mesh.cpp:1188-1202). -/
def surfTargets (m : Mesh) (ps : List Parent) (s : Int) : Res (List ℚ) :=
  ps.mapM fun p => (elemAt p.conn (posOf Surf.index m.surfs s)).bind fun i =>
    (isearch Surf.index p.surfs i).map Surf.target

/-- `boundVolume` (mesh.cpp:1271-1278): 0 for the outer volume, 1 otherwise. -/
def boundOf (outer : Bool) : ℚ := if outer then 0 else 1

/-- `fabs(v - boundVolume) < __DBL_EPSILON__`. -/
def near (b eps v : ℚ) : Bool := decide (|v - b| < eps)

/-- The loop over the parents (mesh.cpp:1308-1316): the values of the first parent for which
exactly one of the two is at the bound. -/
def firstBound (b eps : ℚ) (vals0 vals1 : List ℚ) : Option (ℚ × ℚ) :=
  (vals0.zip vals1).find? fun v => near b eps v.1 != near b eps v.2

/-- The lists `listInParent` and `voluInd`. -/
abbrev Found := List Int × List Int

/-- One turn of `mesh::SurfOnParentBound` (mesh.cpp:1285-1336). -/
def surfBoundStep (m : Mesh) (ps : List Parent) (isBorderBound outer : Bool) (eps : ℚ) (a : Found) (x : Surf) : Res Found :=
  (vecGet x.voluind 0).bind fun c => (vecGet x.voluind 1).bind fun d =>
  if c = 0 ∨ d = 0 then
    .ok (if isBorderBound then (a.1 ++ [x.index], a.2 ++ (if c ≠ 0 then [c] else []) ++ (if d ≠ 0 then [d] else [])) else a)
  else
    (surfInParent m ps x.index).bind fun j =>
    if j ≥ 0 then
      (voluTargets m ps c).bind fun vals0 => (voluTargets m ps d).map fun vals1 =>
      match firstBound (boundOf outer) eps vals0 vals1 with
      | none => a
      | some v =>
        (a.1 ++ [x.index],
         a.2 ++ (if near (boundOf outer) eps v.2 then [d] else if near (boundOf outer) eps v.1 then [c] else []))
    else .ok a

/-- `mesh::SurfOnParentBound` (mesh.cpp:1260-1337). -/
def surfOnParentBound (m : Mesh) (ps : List Parent) (isBorderBound outer : Bool) (eps : ℚ) : Res Found :=
  m.surfs.foldlM (surfBoundStep m ps isBorderBound outer eps) ([], [])

/-- The loop over the parents in two dimensions (mesh.cpp:1387-1391). -/
def firstBound2 (b : ℚ) (vals0 vals1 : List ℚ) : Option (ℚ × ℚ) :=
  (vals0.zip vals1).find? fun v => decide (v.1 ≠ v.2 ∧ (v.1 = b ∨ v.2 = b))

/-- The push of a surface which is taken back when it is a border one (mesh.cpp:1393-1408). -/
def pushInner (m : Mesh) (b : ℚ) (c : Bool) (s : Int) (l : List Int) : Res (List Int) :=
  if c then
    if b = 1 then (isearch Surf.index m.surfs s).map fun x => if x.isBorder then l else l ++ [s]
    else .ok (l ++ [s])
  else .ok l

/-- One turn of `mesh::EdgeOnParentBound` (mesh.cpp:1364-1416).  `SurfInParent` is called with the
index of the edge. -/
def edgeBoundStep (m : Mesh) (ps : List Parent) (isBorderBound outer : Bool) (a : Found) (x : Edge) : Res Found :=
  (vecGet x.surfind 0).bind fun c => (vecGet x.surfind 1).bind fun d =>
  if c = 0 ∨ d = 0 then
    .ok (if isBorderBound then (a.1 ++ [x.index], a.2 ++ (if c ≠ 0 then [c] else []) ++ (if d ≠ 0 then [d] else [])) else a)
  else
    (surfInParent m ps x.index).bind fun j =>
    if j ≥ 0 then
      (surfTargets m ps c).bind fun vals0 => (surfTargets m ps d).bind fun vals1 =>
      match firstBound2 (boundOf outer) vals0 vals1 with
      | none => .ok a
      | some v =>
        (pushInner m (boundOf outer) (decide (v.2 = boundOf outer)) d a.2).bind fun l =>
        (pushInner m (boundOf outer) (decide (v.1 = boundOf outer)) c l).map fun l => (a.1 ++ [x.index], l)
    else .ok a

/-- `mesh::EdgeOnParentBound` (mesh.cpp:1339-1417). -/
def edgeOnParentBound (m : Mesh) (ps : List Parent) (isBorderBound outer : Bool) : Res Found :=
  m.edges.foldlM (edgeBoundStep m ps isBorderBound outer) ([], [])

/-- `mesh::ParentElementIndex` (mesh.cpp:1429-1453). -/
def parentElementIndex (m : Mesh) (ps : List Parent) (child parentInd : Int) : Res Int :=
  if parentInd ≥ ps.length ∨ parentInd < 0 then .error .throws
  else (vecGet ps parentInd).bind fun p =>
    if m.meshDim = 3 then elemAt p.conn (posOf Volu.index m.volus child)
    else if m.meshDim = 2 then elemAt p.conn (posOf Surf.index m.surfs child)
    else .error .throws

/-- One side of an edge in the loop of `FindSpawnVerts` (RSVSalgorithm.cpp:51-60). -/
def innerVert (m : Mesh) (v : Int) : Res (List Int) :=
  (isearch Vert.index m.verts v).map fun x => if !x.isBorder then [x.index] else []

/-- The two sides of an edge (RSVSalgorithm.cpp:51-60). -/
def innerVerts (m : Mesh) (e : Int) : Res (List Int) :=
  (isearch Edge.index m.edges e).bind fun x => (vecGet x.vertind 0).bind fun v => (innerVert m v).bind fun l =>
  (vecGet x.vertind 1).bind fun w => (innerVert m w).map fun k => l ++ k

/-- The loop over the surfaces found (RSVSalgorithm.cpp:45-62). -/
def innerLoop (m : Mesh) (ss : List Int) : Res (List Int) :=
  ss.foldlM (fun acc s =>
    (elemAt m.surfs (posOf Surf.index m.surfs s)).bind fun x =>
    x.edgeind.foldlM (fun acc e => (innerVerts m e).map fun l => acc ++ l) acc) []

/-- What `FindSpawnVerts` returns and writes. -/
structure SpawnSites where
  border : List Int
  verts : List Int
  volus : List Int
  deriving DecidableEq, Repr

/-- The target values seen by `GetOffBorderVert3D`; an error of the look-up is left out here. -/
def targetsOf (m : Mesh) (ps : List Parent) (c : Int) : List ℚ :=
  match voluTargets m ps c with
  | .ok l => l
  | .error _ => []

/-- `FindSpawnVerts` in three dimensions (RSVSalgorithm.cpp:13-86). -/
def findSpawnVerts (m : Mesh) (ps : List Parent) (eps : ℚ) (outerBorder : Int) : Res SpawnSites :=
  if outerBorder = 1 ∨ outerBorder = 0 then
    (getOffBorderVert3D m outerBorder eps (targetsOf m ps)).bind fun off =>
    (surfOnParentBound m ps false (decide (outerBorder = 1)) eps).bind fun inn =>
    (innerLoop m inn.1).map fun vs =>
      { border := sortUnique off.1, verts := sortUnique (vs ++ sortUnique off.1), volus := sortUnique (off.2 ++ inn.2) }
  else .error .throws

end RSVS.ParentBound
