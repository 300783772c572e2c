import Verif.Model.Basic
import Verif.Model.Hash
import Mathlib.Algebra.Order.Field.Basic
import Mathlib.Algebra.Order.Ring.Abs
import Mathlib.Order.MinMax
import Mathlib.Data.List.Sort

/-!
# Motion of snaxels along mesh edges

Model of the functions of SRCC/src/snake/snake.cpp that move snaxels, limit the time step, detect
contacts and keep the order on an edge.  `double` is an element of a linear ordered field, so there
is no rounding.  `eps` stands for `DBL_EPSILON`.
-/

namespace RSVS

/-- Fields of `snax` used by the motion (SRCC/incl/snake.hpp, class `snax`). -/
structure Snax (K : Type) where
  index : Int
  d : K
  v : K
  fromvert : Int
  tovert : Int
  edgeind : Int
  orderedge : Int
  deriving DecidableEq, Repr

section
variable {K : Type} [Field K] [LinearOrder K]

/-- `rsvs3d::utils::IsAproxEqual` (SRCC/incl/rsvsutils.hpp:19-22). -/
def approxEq (eps a b : K) : Bool := decide (|a - b| < eps)

/-- Step of one snaxel in `snake::UpdateDistance` (snake.cpp:836-847 and 878-889): `lim` is the
maximum step of this snaxel (`maxDstep`, scaled by `SnaxStepLimit` when `scaledStep`). -/
def dStep (v dt lim : K) : K :=
  if v * dt > lim then lim else if v * dt < -lim then -lim else v * dt

/-- New distance of one snaxel in `UpdateDistance` (snake.cpp:848-850, 890-892). -/
def updateD (d v dt lim : K) : K := min (max (d + dStep v dt lim) 0) 1

/-- `snake::UpdateDistance(double,...)` (snake.cpp:818-852).  `lim` gives `SnaxStepLimit` of
each snaxel (1 when `scaledStep` is false). -/
def updateDistance (dt maxDstep : K) (lim : Snax K → K) (l : List (Snax K)) : List (Snax K) :=
  l.map (fun s => { s with d := updateD s.d s.v dt (lim s * (1 * maxDstep)) })

/-- `snake::UpdateDistance(vector<double>,...)` (snake.cpp:854-894): throws when the sizes differ. -/
def updateDistanceVec (dt : List K) (maxDstep : K) (lim : Snax K → K) (l : List (Snax K)) :
    Res (List (Snax K)) :=
  if dt.length ≠ l.length then .error .throws
  else .ok (List.zipWith (fun s t => { s with d := updateD s.d s.v t (lim s * (1 * maxDstep)) }) l dt)

/-- `SnaxImpactDt` (snake.cpp:2345-2365). -/
def impactDt (eps : K) (s1 s2 : Snax K) : K :=
  let diff : K := if s1.fromvert = s2.fromvert then 0 else 1
  let dD := ((1 * diff) + (1 + (-2) * diff) * s2.d) - s1.d
  let dV := (1 + (-2) * diff) * s2.v - s1.v
  if approxEq eps dD 0 then 0
  else if approxEq eps dV 0 then -1
  else -dD / dV

/-- `dt[i] = (dt[i] > t) ? t : dt[i]` (snake.cpp:1155-1156). -/
def limitAt (dt : Nat → K) (i : Nat) (t : K) : Nat → K :=
  fun x => if x = i then (if dt i > t then t else dt i) else dt x

/-- Inner loop of `snaxarray::CalculateTimeStepOnEdge` (snake.cpp:1150-1158). -/
def timeStepInner (eps : K) (at_ : Nat → Snax K) (a : Nat) : List Nat → (Nat → K) → (Nat → K)
  | [], dt => dt
  | b :: r, dt =>
    let t := impactDt eps (at_ a) (at_ b)
    if t ≥ 0 then timeStepInner eps at_ a r (limitAt (limitAt dt a t) b t)
    else timeStepInner eps at_ a r dt

/-- `snaxarray::CalculateTimeStepOnEdge` (snake.cpp:1139-1160) on the list `snaxSubs` of the positions
of the snaxels of the edge. -/
def timeStepOnEdge (eps : K) (at_ : Nat → Snax K) : List Nat → (Nat → K) → (Nat → K)
  | [], dt => dt
  | a :: r, dt => timeStepOnEdge eps at_ r (timeStepInner eps at_ a r dt)

/-- The shape-conserving reduction of the default time step (snake.cpp:2291-2300). The test in the source
is `fabs(v > eps)`: the absolute value is taken of the comparison. -/
def defaultDt (eps dist : K) (dt : K) : List (Snax K) → K
  | [] => dt
  | s :: r =>
    let dt' := if s.v > eps then (if dist / |s.v| < dt then dist / |s.v| else dt) else dt
    defaultDt eps dist dt' r

/-- Main loop of `snake::CalculateTimeStep` (snake.cpp:2306-2326).  `subs e` is the list of positions of
the snaxels with parent edge `e` as stored in the hash table. -/
def timeStepLoop (eps : K) (at_ : Nat → Snax K) (subs : Int → List Nat) :
    List Nat → (Nat → K) → (Nat → Bool) → Res (Nat → K)
  | [], dt, _ => .ok dt
  | i :: r, dt, done =>
    if done i then timeStepLoop eps at_ subs r dt done
    else
      let l := subs (at_ i).edgeind
      if l.length = 1 then timeStepLoop eps at_ subs r dt (fun x => if x = i then true else done x)
      else if l.length > 1 then
        timeStepLoop eps at_ subs r (timeStepOnEdge eps at_ l dt)
          (fun x => if x ∈ l then true else done x)
      else .error .throws

/-- `snake::CalculateTimeStep` (snake.cpp:2279-2327), for a prepared container; `conserve` is
`snaxDistanceLimit_conserveShape`. -/
def calculateTimeStep (eps : K) (conserve : Bool) (dtDefault dist : K) (l : List (Snax K))
    (at_ : Nat → Snax K) (subs : Int → List Nat) : Res (Nat → K) :=
  let dt0 := if conserve then defaultDt eps dist dtDefault l else dtDefault
  timeStepLoop eps at_ subs (List.range l.length) (fun _ => dt0) (fun _ => false)

/-- `snake::Flip` on one snaxel (snake.cpp:2332-2340). -/
def flipSnax (s : Snax K) : Snax K :=
  { s with fromvert := s.tovert, tovert := s.fromvert, d := 1 - s.d, v := -s.v }

/-- `snake::Flip` (snake.cpp:2329-2343): snaxels and the flag `isFlipped`. -/
def flip (l : List (Snax K)) (isFlipped : Bool) : List (Snax K) × Bool :=
  (l.map flipSnax, !isFlipped)

/-- One coordinate of a snaxel in `snake::UpdateCoord` (snake.cpp:990-995). -/
def coordOf (vert : Int → K) (s : Snax K) : K :=
  (vert s.tovert - vert s.fromvert) * s.d + vert s.fromvert

/-- One sibling in `snax::ValidateDistance` (snake.cpp:2215-2250), for `this` with distance `d`. -/
def validateOne (this : Snax K) (d : K) (temp : Snax K) : K :=
  if this.index ≠ temp.index then
    let different := decide (this.fromvert ≠ temp.fromvert)
    let inOrder := decide (temp.fromvert < temp.tovert)
    let tempIsAfter := decide (this.orderedge < temp.orderedge)
    let d1 := if different then 1 - d else d
    let d2 := if (xor inOrder tempIsAfter) && decide (d1 < temp.d) then temp.d
              else if !(xor inOrder tempIsAfter) && decide (d1 > temp.d) then temp.d
              else d1
    if different then 1 - d2 else d2
  else d

/-- `snax::ValidateDistance` (snake.cpp:2194-2257): `siblings` are the snaxels of the edge as listed by the hash
table (`nEdge` is their number).  Returns the new distance. -/
def validateDistance (this : Snax K) (siblings : List (Snax K)) : Res K :=
  if this.d < 0 ∨ this.d > 1 then .error .throws
  else if siblings.length = 1 then .ok this.d
  else if siblings.length > 1 then .ok (siblings.foldl (validateOne this) this.d)
  else .error .throws

/-- Impact reports: (index, other index), or -1 (arrived at `fromvert`) or -2 (arrived at `tovert`) as second. -/
abbrev Impacts := List (Int × Int)

/-- Inner loop of `snaxarray::DetectImpactOnEdge` (snake.cpp:2499-2511). -/
def impactPairs (eps : K) (a : Snax K) : List (Snax K) → Impacts
  | [] => []
  | b :: r =>
    (if (a.orderedge - b.orderedge).natAbs = 1 ∧ approxEq eps (impactDt eps a b) 0 = true then
      [(a.index, b.index), (b.index, a.index)] else []) ++ impactPairs eps a r

/-- End-of-edge test of `DetectImpactOnEdge` (snake.cpp:2513-2524) with `n` snaxels on the edge. -/
def impactEnd (eps : K) (n : Nat) (a : Snax K) : Impacts :=
  if approxEq eps a.d 0 = true ∧ a.v ≤ 0 ∧ a.orderedge = 1 then [(a.index, -1)]
  else if approxEq eps a.d 1 = true ∧ a.v ≥ 0 ∧ a.orderedge = n then [(a.index, -2)]
  else []

/-- `snaxarray::DetectImpactOnEdge` (snake.cpp:2488-2526) on the snaxels of one edge; `n` is their
total number. -/
def detectImpactLoop (eps : K) (n : Nat) : List (Snax K) → Impacts
  | [] => []
  | a :: r => impactPairs eps a r ++ impactEnd eps n a ++ detectImpactLoop eps n r

/-- `DetectImpactOnEdge` (snake.cpp:2488-2526). -/
def detectImpactOnEdge (eps : K) (l : List (Snax K)) : Impacts := detectImpactLoop eps l.length l

/-- Position measured from the lower-index vertex, as computed in `OrderOnEdge` (snake.cpp:1053-1054). -/
def orderPos (s : Snax K) : K := if s.fromvert > s.tovert then 1 - s.d else s.d

/-- `elems[snaxSubs[orderSubs[jj]]].orderedge = jj + 1` for all `jj` (snake.cpp:1061-1064); a negative or
too large `orderSubs[jj]` is undefined behaviour. -/
def assignOrder (snaxSubs : List Nat) : Nat → List Int → List (Snax K) → Res (List (Snax K))
  | _, [], l => .ok l
  | jj, o :: os, l =>
    if o < 0 then .error .ub
    else match snaxSubs[o.toNat]? with
      | none => .error .ub
      | some p => assignOrder snaxSubs (jj + 1) os (l.modify p (fun s => { s with orderedge := (jj : Int) + 1 }))

/-- One edge of `snaxarray::OrderOnEdge` (snake.cpp:1045-1065); `sort` is any sorting function (the sorted list of numbers
is unique); `table` is `hashOrder`, which is declared
outside the loop over the edges and never cleared. -/
def orderOneEdge (subs : List Nat) (l : List (Snax K)) (table : TableOf K) :
    Res (List (Snax K) × TableOf K) :=
  if subs.length > 1 then
    match subs.mapM (fun p => (l[p]?).map orderPos) with
    | none => .error .ub
    | some unorder =>
      match findSubList (unorder.insertionSort (· ≤ ·)) unorder table with
      | .error f => .error f
      | .ok (orderSubs, table') =>
        match assignOrder subs 0 orderSubs l with
        | .error f => .error f
        | .ok l' => .ok (l', table')
  else .ok (l, table)

/-- `snaxarray::OrderOnEdge` (snake.cpp:1032-1069): the edges in increasing order, each once. -/
def orderOnEdges (subs : Int → List Nat) : List Int → List (Snax K) → TableOf K → Res (List (Snax K))
  | [], l, _ => .ok l
  | e :: es, l, table =>
    match orderOneEdge (subs e) l table with
    | .error f => .error f
    | .ok (l', table') => orderOnEdges subs es l' table'

/-- `snaxarray::OrderOnEdge` (snake.cpp:1032-1069). -/
def orderOnEdge (subs : Int → List Nat) (l : List (Snax K)) : Res (List (Snax K)) :=
  orderOnEdges subs ((l.map Snax.edgeind).insertionSort (· ≤ ·)).dedup l []

end

end RSVS

namespace RSVS

/-- `ValidateEquilibrateD` (snake.cpp:1162-1198).  `r` stands for `pow(stepLength, 0.5)` and `r ^ 3`
for `pow(stepLength, 1.5)`, so that `stepLength` is `r ^ 2`; `none` is a value of `newD` that is not finite. -/
def validateEquilibrateD {K : Type} [Field K] [LinearOrder K] (newD : Option K) (oldD r : K) : K :=
  let maxLim := r ^ 3
  let minLim := r
  match newD with
  | none => oldD
  | some x =>
    if oldD < 1 / 2 then
      if x < minLim then minLim else if x > maxLim then maxLim else x
    else
      if x < 1 - maxLim then 1 - maxLim else if x > 1 - minLim then 1 - minLim else x

end RSVS
