import Verif.Model.Mesh
import Verif.Model.SnakeMotion
import Verif.Model.Geometry

/-!
# Smoothing of the spawn step

`FindSnaxInds`, `EquilibrateEdge`, `SmoothStep_planematching`, `SmoothStep_itersmooth`, `SmoothStep` and
`snake::TakeSmoothSpawnStep` (SRCC/src/snake/snake.cpp:1200-1232, 1465-1505, 1844-2126).  `SmoothStep_sphere` is in
`Model/SphereStep.lean`.  `double` is an ordered field and arithmetic is exact.
-/

namespace RSVS.Smooth

open RSVS RSVS.Mesh RSVS.Geo

variable {K : Type} [Field K] [LinearOrder K]

/-- `snax::CloseToVertex` (SRCC/incl/snake.hpp:236-239). -/
def closeTo (s : Snax K) : Int := if s.d < 1 / 2 then s.fromvert else s.tovert

/-- One candidate of `FindSnaxInds` (snake.cpp:1489-1495). -/
def takeNear (snaxs : List (Snax K)) (v : Int) (spawn : K) (acc : List Int) (p : Nat) : Res (List Int) :=
  (elemAt snaxs (p : Int)).map fun s =>
    if closeTo s = v ∧ s.index ∉ acc ∧ (s.d < spawn * (11 / 10) ∨ 1 - spawn * (11 / 10) < s.d) then acc ++ [s.index] else acc

/-- `FindSnaxInds` (snake.cpp:1477-1498); the same loop is in `SmoothStep_planematching` (1848-1868).  `subs` is
`findsiblings`. -/
def findSnaxInds (m : Mesh) (snaxs : List (Snax K)) (subs : Int → List Nat) (v : Int) (spawn : K) : Res (List Int) :=
  (isearch Vert.index m.verts v).bind fun x =>
    x.edgeind.foldlM (m := Except Fault) (fun acc e => (subs e).foldlM (m := Except Fault) (takeNear snaxs v spawn) acc) []

/-- The vertices of `snake::TakeSmoothSpawnStep` (snake.cpp:2105-2117). -/
def spawnVerts (snaxs : List (Snax K)) (minIndex : Int) : List Int :=
  sortUnique ((snaxs.filter fun s => decide (minIndex < s.index)).map closeTo)

/-- The three ways to smooth a step at a vertex: each gives the new snaxels. -/
structure Ways (K : Type) where
  laplacian : Int → List (Snax K) → Res (List (Snax K))
  planar : Int → List (Snax K) → Res (List (Snax K))
  sphere : Int → List (Snax K) → Res (List (Snax K))

/-- `SmoothStep` (snake.cpp:2052-2087); messages are left out. -/
def smoothStep (eps : K) (w : Ways K) (str : String) (spawn : K) (v : Int) (snaxs : List (Snax K)) : Res (List (Snax K)) :=
  if approxEq eps spawn 0 then .ok snaxs
  else if str = "none" ∨ str = "" then .ok snaxs
  else if str = "laplacian" then w.laplacian v snaxs
  else if str = "planar" then w.planar v snaxs
  else if str = "sphere" then w.sphere v snaxs
  else .ok snaxs

/-- `snake::TakeSmoothSpawnStep` (snake.cpp:2103-2126): the new snaxels. -/
def takeSmoothSpawnStep (eps : K) (w : Ways K) (minIndex : Int) (spawn : K) (str : String) (snaxs : List (Snax K)) :
    Res (List (Snax K)) :=
  (spawnVerts snaxs minIndex).foldlM (m := Except Fault) (fun l v => smoothStep eps w str spawn v l) snaxs

/-- `EquilibrateEdge` (snake.cpp:1200-1232) from the points: the two snaxels `a`, `b`, the two vertices `va`, `vb` and the ends
of the edges of the snaxels.  A division by 0 gives a value which is not finite; the model gives 0. -/
def equilibrate (a b va vb fromA toA fromB toB : P3 K) : K × K :=
  let c : P3 K := fun i => (a i + b i) / 2 - vb i
  let vec := cross (fun i => va i - vb i) c
  let d := dot vec va
  ((d - dot vec fromA) / dot vec (fun i => toA i - fromA i), (d - dot vec fromB) / dot vec (fun i => toB i - fromB i))

/-- `EquilibrateEdge` (snake.cpp:1200-1232) of the snaxels with indices `a` and `b`: `coord` are the points of the snake and
`base` those of the mesh. -/
def equilibrateEdge (coord base : Int → P3 K) (snaxs : List (Snax K)) (a b va vb : Int) : Res (K × K) :=
  (isearch Snax.index snaxs a).bind fun sa => (isearch Snax.index snaxs b).map fun sb =>
    equilibrate (coord a) (coord b) (coord va) (coord vb) (base sa.fromvert) (base sa.tovert) (base sb.fromvert) (base sb.tovert)

/-- A link of a snaxel which is smoothed with a vertex which is not: `externalPts` and `externalLinks`. -/
structure Link where
  snax : Int
  edge : Int
  vert : Int
  deriving DecidableEq, Repr

/-- The loops which find the links (snake.cpp:1879-1892). -/
def links (conn : Mesh) (inds : List Int) : Res (List Link) :=
  inds.foldlM (m := Except Fault) (fun acc s => (isearch Vert.index conn.verts s).bind fun x =>
    x.edgeind.foldlM (m := Except Fault) (fun acc e => (isearch Edge.index conn.edges e).map fun y =>
      y.vertind.foldl (fun acc v => if v ∈ inds then acc else acc ++ [⟨s, e, v⟩]) acc) acc) []

/-- The edges between snaxels with links (snake.cpp:1896-1908). -/
def edgeProcess (conn : Mesh) (inds ext : List Int) : Res (List Int) :=
  inds.foldlM (m := Except Fault) (fun acc s => (isearch Vert.index conn.verts s).bind fun x =>
    x.edgeind.foldlM (m := Except Fault) (fun acc e => (isearch Edge.index conn.edges e).bind fun y =>
      (vecGet y.vertind 0).bind fun a => (vecGet y.vertind 1).map fun b =>
        if a ∈ ext ∧ b ∈ ext then acc ++ [e] else acc) acc) []

/-- One edge of the list (snake.cpp:1913-1923); `find` is `externalPts.find` and `eq` `EquilibrateEdge`. -/
def planeEdge (conn : Mesh) (eq : Int → Int → Int → Int → Res (K × K)) (ls : List Link) (find : Int → Int) (newD : List K)
    (e : Int) : Res (List K) :=
  (isearch Edge.index conn.edges e).bind fun y => (vecGet y.vertind 0).bind fun a => (vecGet y.vertind 1).bind fun b =>
    (vecGet ls (find a)).bind fun la => (vecGet ls (find b)).bind fun lb => (eq a b la.vert lb.vert).bind fun r =>
      (vecGet newD (find a)).bind fun x =>
        (vecGet (newD.set (find a).toNat (x + r.1)) (find b)).map fun z =>
          (newD.set (find a).toNat (x + r.1)).set (find b).toNat (z + r.2)

/-- The new distance of one snaxel (snake.cpp:1939). -/
def setD (snaxs : List (Snax K)) (s : Int) (d : K) : Res (List (Snax K)) :=
  modAt snaxs (posOf Snax.index snaxs s) fun x => { x with d := d }

/-- `SmoothStep_planematching` (snake.cpp:1844-1942) after the snaxels have been found.  `find l k` is `HashedVector::find`
in a list `l`. -/
def planeMatching (conn : Mesh) (eq : Int → Int → Int → Int → Res (K × K)) (find : List Int → Int → Int) (inds : List Int)
    (snaxs : List (Snax K)) : Res (List (Snax K)) :=
  if inds.length < 2 then .ok snaxs
  else (links conn inds).bind fun ls => (edgeProcess conn inds (ls.map Link.snax)).bind fun es =>
    (es.foldlM (m := Except Fault) (planeEdge conn eq ls (find (ls.map Link.snax))) (List.replicate ls.length 0)).bind fun newD =>
      (List.zip (ls.map Link.snax) newD).foldlM (m := Except Fault) (fun l p => setD l p.1 (p.2 / 2)) snaxs

/-- The multiplier of the steps (snake.cpp:2006-2008): `maxAbs` from the greatest and the least step; `nIter` is 5. -/
def multiplier (spawn : K) (steps : List K) : K :=
  spawn * (2 / 6) / max (max |steps.foldl (fun a b => max b a) (steps.headD 0)| |steps.foldl (fun a b => min b a) (steps.headD 0)|) spawn

/-- One snaxel of an iteration (snake.cpp:2010-2040): `limit` is the entry of `edgeStepLimit`, `sibs` lists the snaxels of its
edge. -/
def lapOne (limit : Int → Res K) (sibs : List (Snax K) → Int → List (Snax K)) (spawn mult : K) (v : Int) (snaxs : List (Snax K))
    (p : Int × K) : Res (List (Snax K)) :=
  (isearch Snax.index snaxs p.1).bind fun s => (limit s.edgeind).bind fun l =>
    setD snaxs p.1 (
      let d := s.d + (if s.fromvert = v then p.2 else -p.2) * mult * l
      match validateDistance { s with d := d } (sibs snaxs s.edgeind) with
      | .ok d => d
      | .error _ => if d < 1 / 2 then spawn / 5 else 1 - spawn / 5)

/-- One iteration (snake.cpp:1976-2045); `dir` gives the step of a snaxel in the direction of its edge, 0 if it is not
finite. -/
def lapIter (dir : List (Snax K) → Int → Res K) (limit : Int → Res K) (sibs : List (Snax K) → Int → List (Snax K)) (spawn : K)
    (v : Int) (inds : List Int) (snaxs : List (Snax K)) : Res (List (Snax K)) :=
  (inds.mapM (m := Except Fault) (dir snaxs)).bind fun ds =>
    (List.zip inds ds).foldlM (m := Except Fault) (lapOne limit sibs spawn (multiplier spawn ds) v) snaxs

/-- The loop over the iterations. -/
def lapLoop (dir : List (Snax K) → Int → Res K) (limit : Int → Res K) (sibs : List (Snax K) → Int → List (Snax K)) (spawn : K)
    (v : Int) (inds : List Int) : Nat → List (Snax K) → Res (List (Snax K))
  | 0, snaxs => .ok snaxs
  | n + 1, snaxs => (lapIter dir limit sibs spawn v inds snaxs).bind fun l => lapLoop dir limit sibs spawn v inds n l

/-- The loop which orders the edges around the snaxels (snake.cpp:1963-1967): `succesOrdering` is set by each snaxel. -/
def orderingOk (ordered : Int → Res Bool) (inds : List Int) : Res Bool :=
  inds.foldlM (m := Except Fault) (fun _ i => ordered i) true

/-- `SmoothStep_itersmooth` (snake.cpp:1944-2050) after the snaxels have been found: `ordered i` is whether
`OrderVertexEdges` succeeds at snaxel `i`. -/
def iterSmooth (ordered : Int → Res Bool) (dir : List (Snax K) → Int → Res K) (limit : Int → Res K)
    (sibs : List (Snax K) → Int → List (Snax K)) (spawn : K) (v : Int) (inds : List Int) (snaxs : List (Snax K)) :
    Res (List (Snax K)) :=
  if inds.length < 2 then .ok snaxs
  else (orderingOk ordered inds).bind fun b => if b = true then lapLoop dir limit sibs spawn v inds 5 snaxs else .ok snaxs

end RSVS.Smooth
