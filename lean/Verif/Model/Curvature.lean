import Verif.Model.Geometry
import Verif.Model.Mesh

/-!
# Curvature at edges and vertices

`meshhelp::Get3PointsInSurface` (SRCC/src/grid/mesh.cpp:6576-6611), `PlanesDotProduct` (mesh.cpp:530-544),
`PseudoSurfaceAngle` (SRCC/src/grid/meshprocessing.cpp:567-602), `CalculateEdgeCurvature` (meshprocessing.cpp:612-632),
`CalculateVertexCurvature` (meshprocessing.cpp:642-682) and `tetgen::internal::PointCurvature2Metric`
(SRCC/src/interfaces/tetgenrsvs.cpp:159-174).

Simplifications: arithmetic is exact.  The coordinates of the vertices are a function `co` of their indices and the norm is a
function `len`; `near` is the test for a distance below the tolerance (`IsLength0`, `IsVerticesDistance0`).  The ends of all
edges of a surface are read, also those after the third point.  A number that is not finite is `none`.
-/

namespace RSVS.Curv

open RSVS.Mesh RSVS.Geo

variable {K : Type} [Field K] [LinearOrder K]

/-- One edge in the loop of `Get3PointsInSurface` (mesh.cpp:6579-6609) with the points found so far. -/
def pointStep (near : Int → Int → Bool) (pts : List Int) (e : Int × Int) : List Int :=
  if near e.1 e.2 then pts
  else match pts with
    | [] => [e.1, e.2]
    | [a, b] =>
      if e.1 ≠ a ∧ e.1 ≠ b ∧ near e.1 a = false ∧ near e.1 b = false then [a, b, e.1]
      else if e.2 ≠ a ∧ e.2 ≠ b ∧ near e.2 a = false ∧ near e.2 b = false then [a, b, e.2]
      else [a, b]
    | _ => pts

/-- The two ends of an edge of a surface. -/
def endsOf (m : Mesh) (i : Int) : Res (Int × Int) :=
  (isearch Edge.index m.edges i).bind fun e =>
  (vecGet e.vertind 0).bind fun a => (vecGet e.vertind 1).map fun b => (a, b)

/-- `Get3PointsInSurface` (mesh.cpp:6576-6611): the points that are found. -/
def threePoints (m : Mesh) (near : Int → Int → Bool) (s : Int) : Res (List Int) :=
  (isearch Surf.index m.surfs s).bind fun f =>
  (f.edgeind.mapM (m := Except Fault) (endsOf m)).map fun es => es.foldl (pointStep near) []

/-- `PlanesDotProduct` with `normalize` (mesh.cpp:530-544). -/
def planesDot (len : P3 K → K) (p1 p2 p3 p4 p5 p6 : P3 K) : Option K :=
  if len (planeNormal p1 p2 p3) = 0 ∨ len (planeNormal p4 p5 p6) = 0 then none
  else some (dot (fun i => planeNormal p1 p2 p3 i / len (planeNormal p1 p2 p3))
    (fun i => planeNormal p4 p5 p6 i / len (planeNormal p4 p5 p6)))

/-- The two volumes of a surface. -/
def sidesOf (m : Mesh) (s : Int) : Res (Int × Int) :=
  (isearch Surf.index m.surfs s).bind fun f =>
  (vecGet f.voluind 0).bind fun a => (vecGet f.voluind 1).map fun b => (a, b)

/-- `surfOrientSame` (meshprocessing.cpp:591-595). -/
def orientSame (a b : Int × Int) : Bool := (decide (a.1 = 0) && decide (a.1 = b.1)) || (decide (a.2 = 0) && decide (a.2 = b.2))

/-- `PseudoSurfaceAngle` (meshprocessing.cpp:567-602). -/
def pseudoAngle (m : Mesh) (near : Int → Int → Bool) (co : Int → P3 K) (len : P3 K → K) (s t : Int) : Res (Option K) :=
  (sidesOf m s).bind fun a => (sidesOf m t).bind fun b =>
  if (a.1 ≠ 0 ∧ a.2 ≠ 0) ∨ (b.1 ≠ 0 ∧ b.2 ≠ 0) then .ok (some 0)
  else
    (threePoints m near s).bind fun p =>
    if p.length ≠ 3 then .ok (some 0)
    else
      (threePoints m near t).bind fun q =>
      if q.length ≠ 3 then .ok (some 0)
      else .ok ((planesDot len (co (p.getD 0 0)) (co (p.getD 1 0)) (co (p.getD 2 0)) (co (q.getD 0 0))
        (co (q.getD (if orientSame a b then 2 else 1) 0)) (co (q.getD (if orientSame a b then 1 else 2) 0))).map
          fun x => (2 - (x + 1)) / 2)

/-- The pairs of entries in the loops of `CalculateEdgeCurvature` (meshprocessing.cpp:620-627). -/
def pairsOf : List Int → List (Int × Int)
  | [] => []
  | a :: l => l.map (fun b => (a, b)) ++ pairsOf l

/-- A sum with numbers that need not be finite. -/
def addOpt (a b : Option K) : Option K := a.bind fun x => b.map fun y => x + y

/-- `CalculateEdgeCurvature` (meshprocessing.cpp:612-632). -/
def edgeCurvature (m : Mesh) (near : Int → Int → Bool) (co : Int → P3 K) (len : P3 K → K) : Res (List (Option K)) :=
  m.edges.mapM (m := Except Fault) fun e =>
    (pairsOf e.surfind).foldlM (m := Except Fault) (fun s p => (pseudoAngle m near co len p.1 p.2).map (addOpt s)) (some 0)

/-- The curvatures of the edges from those of the vertices (meshprocessing.cpp:657-667). -/
def edgeStep (m : Mesh) (vc : List K) : Res (List K) :=
  m.edges.mapM (m := Except Fault) fun e =>
    (e.vertind.foldlM (m := Except Fault) (fun s v => (vecGet vc (posOf Vert.index m.verts v)).bind fun c =>
      (isearch Vert.index m.verts v).map fun x => s + c / (x.edgeind.length : K)) 0).map fun s => s / 2

/-- The curvatures of the vertices from those of the edges (meshprocessing.cpp:668-678). -/
def vertStep (m : Mesh) (again : Bool) (vc ec : List K) : Res (List K) :=
  (m.verts.zip vc).mapM (m := Except Fault) fun vx =>
    (vx.1.edgeind.foldlM (m := Except Fault) (fun s e => (vecGet ec (posOf Edge.index m.edges e)).map fun c => s + c) vx.2).map
      fun s => if again then s / 2 else s

/-- The later turns of the loop (meshprocessing.cpp:649-680). -/
def smoothLoop (m : Mesh) : Nat → List K → Res (List K)
  | 0, vc => .ok vc
  | n + 1, vc => (edgeStep m vc).bind fun ec => (vertStep m true vc ec).bind (smoothLoop m n)

/-- `CalculateVertexCurvature` (meshprocessing.cpp:642-682) with the curvatures of the edges. -/
def vertexCurvature (m : Mesh) (ec : List K) (smoothing : Int) : Res (List K) :=
  (vertStep m false (List.replicate m.verts.length 0) ec).bind (smoothLoop m (smoothing - 1).toNat)

/-- `PointCurvature2Metric` (tetgenrsvs.cpp:159-174): `s0` and `s1` are `surfedgelengths`. -/
def curvatureMetric (s0 s1 : K) : List K → Res (List (Option K))
  | [] => .error .ub
  | c :: cs =>
    .ok ((c :: cs).map fun x =>
      if cs.foldl max c = 0 then none else some ((s1 - s0) / (cs.foldl max c - 0) * (x - 0) + s0))

end RSVS.Curv
