import Verif.Model.Centroid
import Verif.Model.MatTools
import Verif.Model.Mesh

/-!
# What a triangle adds to the objective and to the constraints

Model of `RSVScalc::CalcTriangle` and `CalcTriangleFD` (SRCC/src/rsvs/RSVScalc_core.cpp:32-197 and
199-353), of the functions they call (SRCC/src/rsvs/RSVScalctools.cpp:18-337) and of
`CalculateTriangulation` (SRCC/src/rsvs/RSVScalc.cpp:95-136).  Numbers are real, without rounding
and without `nan`, so the lambda `cleanup` (RSVScalctools.cpp:117-120) is left out.  Timers and
`dvCallConstr`, which nothing reads, are left out.  `useSurfCentreHessian` is false as initialised
(SRCC/incl/RSVScalc.hpp:147, its default and the default of the parameter that sets it,
SRCC/src/rsvs/RSVScalc.cpp:589).
-/

namespace RSVS.Calc

open RSVS.Math

/-- `triangle` (SRCC/incl/triangulate.hpp:133-188) with its `tri2mesh` (125-131). -/
structure Tri where
  pointtype : Fin 3 → Int
  pointind : Fin 3 → Int
  celltarg : List Int
  influence : List ℝ

/-- `trianglepoint` (triangulate.hpp:190-226). -/
structure TriVert where
  coord : Fin 3 → ℝ
  parentType : Int
  parentSurf : Int

/-- What the calculation reads from the triangulation, by index; a search that finds nothing
throws. -/
structure Env where
  /-- Coordinates in `meshDep`. -/
  meshVert : Int → Res (Fin 3 → ℝ)
  /-- Coordinates in `snakeDep->snakeconn`. -/
  snakeVert : Int → Res (Fin 3 → ℝ)
  /-- `fromvert` and `tovert` of a snaxel. -/
  snax : Int → Res (Int × Int)
  /-- Points of `trivert`. -/
  trivert : Int → Res TriVert
  /-- `indvert` and `typevert` of `trisurf`. -/
  trisurf : Int → Res (List (Int × Int))
  /-- `OrderedVerts` of a surface of the snake (see `Order.orderedVerts`). -/
  snakeSurf : Int → Res (List Int)
  /-- `ConnVertFromConnEdge` of a surface of the snake (see `Order.connVert`). -/
  snakeConn : Int → Res (List Int)

/-- `TrianglePointerCoordinates` (RSVScalctools.cpp:18-41), one point.  A point of another type adds
nothing to the vector, which is then read past its end (RSVScalc_core.cpp:65). -/
def coordOf (E : Env) (ty ind : Int) : Res (Fin 3 → ℝ) :=
  if ty = 1 then E.meshVert ind
  else if ty = 2 then E.snakeVert ind
  else if ty = 3 then (E.trivert ind).map TriVert.coord
  else .error .ub

/-- `TriangleActiveDesignVariables` (RSVScalctools.cpp:50-95), the variables pushed for one point. -/
def candidates (E : Env) (dvMap : List Int) (useDeriv : Bool) (ty ind : Int) : Res (List Int) :=
  if ty = 2 ∧ ind ∈ dvMap then .ok [ind]
  else if ty = 3 ∧ useDeriv = true then
    (E.trivert ind).bind fun v =>
    if v.parentType = 3 then
      (E.trisurf v.parentSurf).map fun l =>
        (l.filter fun p => p.2 = 2 ∧ p.1 ∈ dvMap).map Prod.fst
    else if v.parentType = 2 then
      (E.snakeSurf v.parentSurf).map fun l => l.filter (· ∈ dvMap)
    else .ok []
  else .ok []

/-- `TriangleActiveDesignVariables` (RSVScalctools.cpp:43-102). -/
def activeDvs (E : Env) (dvMap : List Int) (useDeriv : Bool) (t : Tri) : Res (List Int) :=
  (candidates E dvMap useDeriv (t.pointtype 0) (t.pointind 0)).bind fun a =>
  (candidates E dvMap useDeriv (t.pointtype 1) (t.pointind 1)).bind fun b =>
  (candidates E dvMap useDeriv (t.pointtype 2) (t.pointind 2)).map fun c =>
    sortUnique (a ++ b ++ c)

/-- End minus beginning of the edge of a snaxel (e.g. RSVScalctools.cpp:139-145). -/
def direction (E : Env) (s : Int) : Res (Fin 3 → ℝ) :=
  (E.snax s).bind fun ft => (E.meshVert ft.1).bind fun f => (E.meshVert ft.2).map fun t =>
    fun k => t k - f k

/-- Coordinates of the points of a `trisurf`, as far as they have a known type
(triangulate.cpp:485-495). -/
def hybridCoords (E : Env) : List (Int × Int) → Res (List (Fin 3 → ℝ))
  | [] => .ok []
  | (i, ty) :: l =>
    if ty = 1 then (E.meshVert i).bind fun x => (hybridCoords E l).map (x :: ·)
    else if ty = 2 then (E.snakeVert i).bind fun x => (hybridCoords E l).map (x :: ·)
    else hybridCoords E l

/-- `SurfaceCentroid_TriangleSurf` (SRCC/src/snake/triangulate.cpp:476-511): with three points the
first one is repeated. -/
def hybridPoints (E : Env) (l : List (Int × Int)) : Res (List (Fin 3 → ℝ)) :=
  if l.length = 3 then (hybridCoords E l).bind fun c => (hybridCoords E (l.take 1)).map (c ++ ·)
  else hybridCoords E l

/-- Coordinates of points of the snake. -/
def snakeCoords (E : Env) : List Int → Res (List (Fin 3 → ℝ))
  | [] => .ok []
  | i :: l => (E.snakeVert i).bind fun x => (snakeCoords E l).map (x :: ·)

/-- `SurfaceCentroid_SnakeSurf` (triangulate.cpp:435-459) for the points of the edges. -/
def snakePoints (E : Env) (l : List Int) : Res (List (Fin 3 → ℝ)) :=
  if l.length = 3 then .error .throws else snakeCoords E l

/-- Jacobian of the centroid of given points; a row of it has three entries for each point, and
reading `j + count * l` beyond them is undefined. -/
noncomputable def centreJac (pts : List (Fin 3 → ℝ)) (count : Nat) (eps eps2 : ℝ) :
    Res (Fin 3 → ℕ → ℝ) :=
  if pts.length < count then .error .ub
  else (surfCentroid pts.length (fun k => pts.getD k 0) eps eps2).map Prod.snd

/-- The additions for one snaxel of a centroid (RSVScalctools.cpp:168-177 and 199-211): to row `k` and
column `c` of the three rows of the point.  `j` is the position of the snaxel. -/
noncomputable def centreAdd (J : Fin 3 → ℕ → ℝ) (count : Nat) (dvs : List Int) (s : Int) (j : Nat)
    (dir : Fin 3 → ℝ) (k : Fin 3) (c : Nat) : ℝ :=
  if s ∈ dvs ∧ dvs.idxOf s = c then
    J k (j + count * 0) * dir 0 + J k (j + count * 1) * dir 1 + J k (j + count * 2) * dir 2
  else 0

/-- The loop over the points of a `trisurf` (RSVScalctools.cpp:159-179). -/
noncomputable def hybridAdds (E : Env) (J : Fin 3 → ℕ → ℝ) (count : Nat) (dvs : List Int) :
    Nat → List (Int × Int) → Res (Fin 3 → Nat → ℝ)
  | _, [] => .ok fun _ _ => 0
  | j, (s, ty) :: l =>
    if s ∈ dvs ∧ ty = 2 then
      (direction E s).bind fun dir => (hybridAdds E J count dvs (j + 1) l).map fun r k c =>
        centreAdd J count dvs s j dir k c + r k c
    else hybridAdds E J count dvs (j + 1) l

/-- The loop over the points of a surface of the snake (RSVScalctools.cpp:192-212): the snaxel is
searched even if it is not active. -/
noncomputable def snakeAdds (E : Env) (J : Fin 3 → ℕ → ℝ) (count : Nat) (dvs : List Int) :
    Nat → List Int → Res (Fin 3 → Nat → ℝ)
  | _, [] => .ok fun _ _ => 0
  | j, s :: l =>
    (direction E s).bind fun dir => (snakeAdds E J count dvs (j + 1) l).map fun r k c =>
      centreAdd J count dvs s j dir k c + r k c

/-- The three rows of `dPos` of one point (RSVScalctools.cpp:134-279). -/
noncomputable def pointRows (E : Env) (dvs : List Int) (useDeriv : Bool) (eps eps2 : ℝ) (ty ind : Int) :
    Res (Fin 3 → Nat → ℝ) :=
  if ty = 2 ∧ ind ∈ dvs then
    (direction E ind).map fun dir k c => if dvs.idxOf ind = c then dir k else 0
  else if ty = 3 ∧ useDeriv = true then
    (E.trivert ind).bind fun v =>
    if v.parentType = 3 then
      (E.trisurf v.parentSurf).bind fun l => (hybridPoints E l).bind fun pts =>
      (centreJac pts l.length eps eps2).bind fun J => hybridAdds E J l.length dvs 0 l
    else if v.parentType = 2 then
      (E.snakeConn v.parentSurf).bind fun l => (snakePoints E l).bind fun pts =>
      (centreJac pts l.length eps eps2).bind fun J => snakeAdds E J l.length dvs 0 l
    else .ok fun _ _ => 0
  else .ok fun _ _ => 0

/-- `dPos` of `TrianglePositionDerivatives` (RSVScalctools.cpp:110-287): nine rows, three for each
point. -/
noncomputable def dPos (E : Env) (dvs : List Int) (useDeriv : Bool) (eps eps2 : ℝ) (t : Tri) :
    Res (DMat ℝ) :=
  (pointRows E dvs useDeriv eps eps2 (t.pointtype 0) (t.pointind 0)).bind fun r0 =>
  (pointRows E dvs useDeriv eps eps2 (t.pointtype 1) (t.pointind 1)).bind fun r1 =>
  (pointRows E dvs useDeriv eps eps2 (t.pointtype 2) (t.pointind 2)).map fun r2 =>
    { rows := 9, cols := dvs.length,
      val := fun i c => (![r0, r1, r2] (Fin.ofNat 3 (i / 3))) (Fin.ofNat 3 i) c }

/-- `HPos` without `useSurfCentreHessian` (RSVScalctools.cpp:131). -/
def hPos (n : Nat) : DMat ℝ := { rows := n, cols := n * 9, val := fun _ _ => 0 }

/-- A row of nine as a matrix (`ArrayVec2MatrixXd`, see `DMat.ofArrayVec` and C51). -/
def rowMat (g : Fin 9 → ℝ) : DMat ℝ := { rows := 1, cols := 9, val := fun _ j => g (Fin.ofNat 9 j) }

/-- Nine rows of nine as a matrix. -/
def sqMat (h : Fin 9 → Fin 9 → ℝ) : DMat ℝ :=
  { rows := 9, cols := 9, val := fun i j => h (Fin.ofNat 9 i) (Fin.ofNat 9 j) }

/-- Value, gradient and Hessian by the chain rule (RSVScalc_core.cpp:77-80 and 131-134). -/
def chain (c : ℝ × (Fin 9 → ℝ) × (Fin 9 → Fin 9 → ℝ)) (dP hP : DMat ℝ) : Res (ℝ × DMat ℝ × DMat ℝ) :=
  (DMat.deriv1st (rowMat c.2.1) dP).bind fun g =>
  (DMat.deriv2nd (rowMat c.2.1) dP (sqMat c.2.2) hP).map fun h => (c.1, g, h)

/-- How the volume is calculated: by `Calc` or, in `CalcTriangleFD`, by `CalcFD`. -/
inductive Method
  | exact
  | differences (fdStep : ℝ)

/-- Volume of a new `Volume` object, of which the Hessian is zero at first. -/
noncomputable def volumeBy : Method → (Fin 3 → ℝ) → (Fin 3 → ℝ) → (Fin 3 → ℝ) →
    ℝ × (Fin 9 → ℝ) × (Fin 9 → Fin 9 → ℝ)
  | .exact, p, q, r => volumeCalc p q r fun _ _ => 0
  | .differences h, p, q, r => volumeCalcFD p q r (fun _ _ => 0) h

/-- What a triangle has to add. -/
structure Part where
  dvs : List Int
  vol : ℝ × DMat ℝ × DMat ℝ
  area : ℝ × DMat ℝ × DMat ℝ

/-- The calculations of `CalcTriangle` (RSVScalc_core.cpp:53-56, 65-66, 75-80 and 129-134) and
`CalcTriangleFD`. -/
noncomputable def trianglePart (E : Env) (dvMap : List Int) (useDeriv : Bool) (m : Method)
    (epsS eps eps2 : ℝ) (t : Tri) : Res Part :=
  (coordOf E (t.pointtype 0) (t.pointind 0)).bind fun p0 =>
  (coordOf E (t.pointtype 1) (t.pointind 1)).bind fun p1 =>
  (coordOf E (t.pointtype 2) (t.pointind 2)).bind fun p2 =>
  (activeDvs E dvMap useDeriv t).bind fun dvs =>
  (dPos E dvs useDeriv eps eps2 t).bind fun dP =>
  (chain (volumeBy m p0 p1 p2) dP (hPos dvs.length)).bind fun v =>
  (chain (areaCalc p0 p1 p2 epsS) dP (hPos dvs.length)).map fun a =>
    { dvs := dvs, vol := v, area := a }

/-- The fields of `RSVScalc` that are added to, for `nDv` variables and `nConstr` constraints. -/
structure Acc where
  obj : ℝ
  constr : Nat → ℝ
  dObj : Nat → ℝ
  dConstr : Nat → Nat → ℝ
  hObj : Nat → Nat → ℝ
  hConstr : Nat → Nat → ℝ
  isDvAct : Nat → Bool
  isConstrAct : Nat → Bool

/-- `BuildMathArrays` (RSVScalc.cpp:443-486): zero. -/
def Acc.zero : Acc :=
  { obj := 0, constr := fun _ => 0, dObj := fun _ => 0, dConstr := fun _ _ => 0,
    hObj := fun _ _ => 0, hConstr := fun _ _ => 0, isDvAct := fun _ => false,
    isConstrAct := fun _ => false }

/-- `v[i] += x`. -/
def addAt (v : Nat → ℝ) (i : Nat) (x : ℝ) : Nat → ℝ := fun j => if j = i then v j + x else v j

/-- `m(i, j) += x`. -/
def addAt2 (m : Nat → Nat → ℝ) (i j : Nat) (x : ℝ) : Nat → Nat → ℝ :=
  fun a => if a = i then addAt (m a) j x else m a

/-- Position in `dvMap` of the `k`th active variable (e.g. RSVScalctools.cpp:297). -/
def place (dvMap dvs : List Int) (k : Nat) : Nat := dvMap.idxOf (dvs.getD k 0)

/-- Adds `w * g k` at the places of the variables, if `g k` is to be kept. -/
def addGrad (keep : ℝ → Prop) [DecidablePred keep] (dvMap dvs : List Int) (w : ℝ) (g : Nat → ℝ)
    (v : Nat → ℝ) : Nat → ℝ :=
  (List.range dvs.length).foldl
    (fun v k => if keep (g k) then addAt v (place dvMap dvs k) (w * g k) else v) v

/-- Adds `w * h l k` at row and column of the variables, if `h l k` is to be kept. -/
def addHess (keep : ℝ → Prop) [DecidablePred keep] (dvMap dvs : List Int) (w : ℝ) (h : Nat → Nat → ℝ)
    (m : Nat → Nat → ℝ) : Nat → Nat → ℝ :=
  (List.range dvs.length).foldl (fun m k => (List.range dvs.length).foldl
    (fun m l => if keep (h l k) then addAt2 m (place dvMap dvs l) (place dvMap dvs k) (w * h l k) else m)
      m) m

/-- The constraints of a triangle, with their factors: `constrMap.findall` of its cells
(RSVScalc_core.cpp:87-92); `constrMap` holds cells and positions.  A missing factor is read past
the end of its vector. -/
def targets (constrMap : List (Int × Int)) : List Int → List ℝ → Res (List (Int × ℝ))
  | [], _ => .ok []
  | c :: cs, w :: ws => (targets constrMap cs ws).map
      (((constrMap.filter (·.1 = c)).map fun p => (p.2, w)) ++ ·)
  | _ :: _, [] => .error .ub

/-- What a calculation is given: `dvMap`, `constrMap`, the numbers of constraints, the multipliers,
and which numbers are added (`UseFullMath`, RSVScalc.hpp:215-218: all of them; otherwise
RSVScalctools.cpp:320 and 329 for the constraints, RSVScalc_core.cpp:159 for the objective). -/
structure Setup where
  dvMap : List Int
  constrMap : List (Int × Int)
  nConstr : Nat
  lagMult : Nat → ℝ
  keepC : ℝ → Prop
  keepO : ℝ → Prop
  decC : DecidablePred keepC
  decO : DecidablePred keepO

/-- `IsAproxEqual(x, 0.0)` is false (SRCC/incl/rsvsutils.hpp:19-22; `tol` is `DBL_EPSILON`). -/
def notZero (tol x : ℝ) : Prop := ¬ |x - 0| < tol

/-- The constraints (RSVScalc_core.cpp:87-116 with RSVScalctools.cpp:289-337). -/
def addConstrs (S : Setup) (isDeriv : Bool) (p : Part) : List (Int × ℝ) → Acc → Res Acc
  | [], a => .ok a
  | (q, w) :: l, a =>
    if q = -1 then addConstrs S isDeriv p l a
    else if q < 0 ∨ (S.nConstr : Int) ≤ q then .error .ub
    else
      haveI := S.decC
      let n := q.toNat
      let a := { a with constr := addAt a.constr n (w * p.vol.1) }
      addConstrs S isDeriv p l (if isDeriv then
        { a with
          dConstr := fun r => if r = n then
            addGrad S.keepC S.dvMap p.dvs w (p.vol.2.1.val 0) (a.dConstr r) else a.dConstr r
          hConstr := addHess S.keepC S.dvMap p.dvs w
            (fun i j => p.vol.2.2.val i j * S.lagMult n) a.hConstr } else a)

/-- The objective (RSVScalc_core.cpp:127-168). -/
def addObj (S : Setup) (isDeriv : Bool) (p : Part) (a : Acc) : Acc :=
  haveI := S.decO
  let a := { a with obj := a.obj + p.area.1 }
  if isDeriv then
    { a with
      dObj := addGrad (fun _ => True) S.dvMap p.dvs 1 (p.area.2.1.val 0) a.dObj
      hObj := addHess S.keepO S.dvMap p.dvs 1 p.area.2.2.val a.hObj }
  else a

/-- The active variables and constraints (RSVScalc_core.cpp:172-192). -/
def addActive (S : Setup) (p : Part) (ts : List (Int × ℝ)) (a : Acc) : Acc :=
  { a with
    isDvAct := fun i => a.isDvAct i || decide (∃ s ∈ p.dvs, S.dvMap.idxOf s = i)
    isConstrAct := fun i => a.isConstrAct i ||
      (decide (p.dvs ≠ []) && decide (∃ q ∈ ts, q.1 = (i : Int))) }

/-- `CalcTriangle` (RSVScalc_core.cpp:32-197) with `isConstr` (no call has it false). -/
noncomputable def calcTriangle (E : Env) (S : Setup) (useDeriv : Bool) (m : Method) (epsS eps eps2 : ℝ)
    (isObj isDeriv : Bool) (t : Tri) (a : Acc) : Res Acc :=
  (trianglePart E S.dvMap useDeriv m epsS eps eps2 t).bind fun p =>
  (targets S.constrMap t.celltarg t.influence).bind fun ts =>
  (addConstrs S isDeriv p ts a).map fun a =>
    addActive S p ts (if isObj then addObj S isDeriv p a else a)

/-- One of the loops of `CalculateTriangulation`. -/
noncomputable def calcAll (E : Env) (S : Setup) (useDeriv : Bool) (m : Method) (epsS eps eps2 : ℝ)
    (isObj isDeriv : Bool) : List Tri → Acc → Res Acc
  | [], a => .ok a
  | t :: l, a => (calcTriangle E S useDeriv m epsS eps eps2 isObj isDeriv t a).bind
      (calcAll E S useDeriv m epsS eps eps2 isObj isDeriv l)

/-- `CalculateTriangulation` (RSVScalc.cpp:95-136) after `PrepTriangulationCalc`, for `dynatri`,
`intertri` and the triangles of `stattri` listed in `acttri`. -/
noncomputable def calcTriangulation (E : Env) (S : Setup) (useDeriv : Bool) (m : Method)
    (epsS eps eps2 : ℝ) (dyna inter stat : List Tri) : Res Acc :=
  (calcAll E S useDeriv m epsS eps eps2 true true dyna Acc.zero).bind fun a =>
  (calcAll E S useDeriv m epsS eps eps2 false true inter a).bind
    (calcAll E S useDeriv m epsS eps eps2 false false stat)

end RSVS.Calc
