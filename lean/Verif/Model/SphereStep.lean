import Mathlib.Algebra.Order.Field.Basic
import Mathlib.Algebra.Order.Ring.Abs
import Verif.Model.Geometry

/-!
# Placing spawned snaxels on a sphere

`IntersectLineSphere` (SRCC/src/grid/meshprocessing.cpp:1070-1090) and the second part of `SmoothStep_sphere`
(SRCC/src/snake/snake.cpp:1701-1842), which places the snaxels around a vertex.

Simplifications: arithmetic is exact; `root` stands for `sqrt` and `eps` for `DBL_EPSILON`.  The unit normal and the offset of the
centre of the sphere are given.  Each snaxel is given by the vector from the vertex to the other end of its edge and whether
the vertex is where it comes from; the length of that vector is the length of the edge.  Messages are left out.
-/

namespace RSVS.Sphere

open RSVS.Geo

variable {K : Type} [Field K] [LinearOrder K]

/-- What `IntersectLineSphere` gives: infinities, values that are not numbers, or two parameters. -/
inductive Hits (K : Type) where
  | miss
  | nan
  | two (x y : K)
  deriving DecidableEq

/-- `IntersectLineSphere` (meshprocessing.cpp:1070-1090).  For a line vector of length zero the parameters are `0 / 0`. -/
def intersect (eps : K) (root : K → K) (line off : P3 K) (r : K) : Hits K :=
  let a := dot line line
  let b := 2 * dot line off
  let c := dot off off - r * r
  let det := b * b - 4 * a * c
  if det < 0 then .miss
  else if a = 0 then .nan
  else if |det - 0| < eps then .two (-b * (1 / (2 * a))) (-b * (1 / (2 * a)))
  else .two ((-b - root det) * (1 / (2 * a))) ((-b + root det) * (1 / (2 * a)))

/-- `rsvs3d::sign` (SRCC/incl/warning.hpp:215-218). -/
def sgn (x : K) : Int := (if 0 < x then 1 else 0) - (if x < 0 then 1 else 0)

/-- A new distance: minus infinity, a value, or a value with the mark that both parameters were negative. -/
inductive Pick (K : Type) where
  | inf
  | val (x : K)
  | neg (x : K)
  deriving DecidableEq

/-- The choice between the parameters (snake.cpp:1746-1794); `err` is the value of `errValFunc`. -/
def pick (err : K) : Hits K → Res (Pick K)
  | .miss => .ok .inf
  | .nan => .error .throws
  | .two x y =>
    if sgn x = sgn y then (if sgn x = -1 then .ok (.neg err) else .ok (.val err))
    else if (sgn y + 1).tdiv 2 = 0 then .ok (.val (if |x| ≤ |y| then x else err))
    else .ok (.val (if |y| ≤ |x| then y else err))

/-- The length of a vector. -/
def norm (root : K → K) (l : P3 K) : K := root (dot l l)

/-- `minEdgeLength`, the largest length of an edge (snake.cpp:1707-1713). -/
def maxEdge (root : K → K) (lines : List (P3 K)) : K := lines.foldl (fun a l => max (norm root l) a) 0

/-- `newD` before scaling (snake.cpp:1732-1800). -/
def picks (eps : K) (root : K → K) (spawn offset : K) (n : P3 K) (lines : List (P3 K)) : Res (List (Pick K)) :=
  lines.mapM (m := Except Fault) fun l => pick (spawn * maxEdge root lines / norm root l)
    (intersect eps root l (fun i => n i * offset) (offset + maxEdge root lines * spawn))

/-- `maxNew` (snake.cpp:1736, 1799). -/
def maxNew (ps : List (Pick K)) : K := ps.foldl (fun a p => match p with
  | .inf => a
  | .val x => max a x
  | .neg x => max a x) 0

/-- `allNegErr` (snake.cpp:1738, 1776). -/
def allNeg (ps : List (Pick K)) : Bool := ps.any fun p => match p with
  | .neg _ => true
  | _ => false

/-- The scaled distance (snake.cpp:1811-1830); `s` is the scale of the edge. -/
def scaled (spawn mx s : K) (p : Pick K) : K :=
  max (spawn / 10 * s) (match p with
    | .inf => 10 * spawn * s
    | .val x => if mx = 0 then 10 * spawn * s else spawn / mx * x
    | .neg x => if mx = 0 then 10 * spawn * s else spawn / mx * x)

/-- The distances from the vertex, `none` when the step is given up (snake.cpp:1806-1831). -/
def rawStep (eps : K) (root : K → K) (spawn offset : K) (n : P3 K) (lines : List (P3 K)) : Res (Option (List K)) :=
  (picks eps root spawn offset n lines).map fun ps =>
    if allNeg ps then none
    else some (List.zipWith (fun l p => scaled spawn (maxNew ps) (maxEdge root lines / norm root l) p) lines ps)

/-- The value of `d` from the distance from the vertex (snake.cpp:1837) and the check of its range by `ValidateDistance`
(snake.cpp:2197-2202; for other snaxels of the edge see C39). -/
def place (from' : Bool) (x : K) : Res K :=
  let d := if from' then x else 1 - x
  if d < 0 ∨ d > 1 then .error .throws else .ok d

/-- The second part of `SmoothStep_sphere` (snake.cpp:1701-1842): `none` when nothing is changed. -/
def sphereStep (eps : K) (root : K → K) (spawn offset : K) (n : P3 K) (snaxs : List (P3 K × Bool)) : Res (Option (List K)) :=
  (rawStep eps root spawn offset n (snaxs.map Prod.fst)).bind fun o => match o with
    | none => .ok none
    | some xs => ((List.zip (snaxs.map Prod.snd) xs).mapM (m := Except Fault) fun p => place p.1 p.2).map some

end RSVS.Sphere
