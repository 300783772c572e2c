import Verif.Model.EdgeMetric
import Verif.Model.Mesh
import Verif.Model.SnakeMotion

/-!
# First step of spawned snaxels

`snax::TakeSpawnStep` (SRCC/src/snake/snake.cpp:2128-2192) and `snake::TakeSpawnStep` (snake.cpp:2089-2100).

Simplifications: arithmetic is exact; the lengths of edges (see C94) are a function `len` of their indices.  A distance that is
not finite is `none`; it arises from an edge of length zero.
-/

namespace RSVS.SpawnStep

open RSVS.Mesh RSVS.Lengths

variable {K : Type} [Field K] [LinearOrder K]

/-- The vertex that the snaxel is near to (snake.cpp:2138-2143). -/
def nearVert (a : Snax K) : Int := if a.d > 1 / 2 then a.tovert else a.fromvert

/-- The step with its sign (snake.cpp:2139-2143). -/
def signedStep (a : Snax K) (step : K) : K := if a.d > 1 / 2 then -step else step

/-- The length of the shortest edge at the vertex, `⊤` when it has none (snake.cpp:2145-2150). -/
def shortest (m : Mesh) (len : Int → K) (v : Int) : Res (WithTop K) :=
  (isearch Vert.index m.verts v).bind fun x =>
    x.edgeind.foldlM (m := Except Fault) (fun a e => (isearch Edge.index m.edges e).map fun _ => minStep a (len e)) ⊤

/-- One snaxel of the edge (snake.cpp:2168-2182). -/
def siblingStep (a : Snax K) (d : K) (t : Snax K) : K :=
  if a.index ≠ t.index then
    if !(xor (decide (t.d < 1 / 2)) (decide (d < 1 / 2))) then
      if |t.d - 1 / 2| > |d| then t.d else d
    else d
  else d

/-- The distance after the step along the edge (snake.cpp:2153-2191); `sibs` are the snaxels of the edge as listed by the hash
table. -/
def checkedStep (sibs : List (Snax K)) (a : Snax K) (d : K) : Res (Option K) :=
  if d < 0 ∨ d > 1 then .error .throws
  else if sibs.length = 1 then .ok (some d)
  else if sibs.length > 1 then .ok (some (sibs.foldl (siblingStep a) d))
  else .error .throws

/-- `snax::TakeSpawnStep` (snake.cpp:2128-2192): the new distance.  With no edge at the vertex the step is infinite and the
distance is refused (snake.cpp:2155-2158). -/
def takeSpawnStep (eps : K) (m : Mesh) (len : Int → K) (step : K) (sibs : List (Snax K)) (a : Snax K) : Res (Option K) :=
  if approxEq eps step 0 then .ok (some a.d)
  else if step < -eps ∨ step ≥ 1 / 2 then .error .throws
  else (shortest m len (nearVert a)).bind fun s => (isearch Edge.index m.edges a.edgeind).bind fun _ =>
    match s with
    | none => .error .throws
    | some s => if len a.edgeind = 0 then .ok none
      else checkedStep sibs a (a.d + signedStep a step * s / len a.edgeind)

/-- The loop of `snake::TakeSpawnStep` (snake.cpp:2094-2099): `l` are the snaxels before and `r` those to come.  A distance that
is not finite stops the model with `ub`. -/
def stepFrom (eps : K) (m : Mesh) (len : Int → K) (step : K) (minIndex : Int) : List (Snax K) → List (Snax K) → Res (List (Snax K))
  | l, [] => .ok l
  | l, a :: r =>
    if a.index > minIndex then
      (takeSpawnStep eps m len step ((l ++ a :: r).filter fun t => t.edgeind = a.edgeind) a).bind fun o =>
        match o with
        | none => .error .ub
        | some d => stepFrom eps m len step minIndex (l ++ [{ a with d := d }]) r
    else stepFrom eps m len step minIndex (l ++ [a]) r

/-- `snake::TakeSpawnStep` (snake.cpp:2089-2100). -/
def takeSpawnSteps (eps : K) (m : Mesh) (len : Int → K) (step : K) (minIndex : Int) (snaxs : List (Snax K)) : Res (List (Snax K)) :=
  stepFrom eps m len step minIndex [] snaxs

end RSVS.SpawnStep
