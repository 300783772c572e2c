import Mathlib.Algebra.Order.Field.Basic
import Mathlib.Data.List.FinRange
import Verif.Model.Basic

/-!
# The SQP step

Model of `ResizeLagrangianMultiplier` (SRCC/src/rsvs/SQPstep.cpp), of the step templates of
SRCC/incl/SQPstep.hpp and of the functions of SRCC/src/rsvs/RSVScalc_SQP.cpp around them.

Finite doubles are elements of an ordered field, so arithmetic on them is exact.  What the solvers
of Eigen return when a system cannot be solved, infinities and NaN, is kept apart: `Ext` adds them
with the rules of IEEE 754 for sums, products and comparisons.  The solvers are parameters: nothing
is assumed of them here.
-/

namespace RSVS.Sqp

/-- A `double`: NaN, an infinity (`inf true` is negative) or a finite value. -/
inductive Ext (K : Type) where
  | nan
  | inf (neg : Bool)
  | fin (x : K)
  deriving DecidableEq, Repr

namespace Ext

variable {K : Type} [Field K] [LinearOrder K]

/-- `-a`. -/
def neg : Ext K → Ext K
  | nan => nan
  | inf s => inf (!s)
  | fin x => fin (-x)

/-- `a + b`. -/
def add : Ext K → Ext K → Ext K
  | nan, _ => nan
  | _, nan => nan
  | inf s, inf t => if s = t then inf s else nan
  | inf s, fin _ => inf s
  | fin _, inf t => inf t
  | fin x, fin y => fin (x + y)

/-- `a - b`. -/
def sub (a b : Ext K) : Ext K := add a (neg b)

/-- An infinity times a finite value: NaN for 0. -/
def scaleInf (s : Bool) (x : K) : Ext K :=
  if x = 0 then nan else if x < 0 then inf (!s) else inf s

/-- `a * b`. -/
def mul : Ext K → Ext K → Ext K
  | nan, _ => nan
  | _, nan => nan
  | inf s, inf t => inf (s != t)
  | inf s, fin x => scaleInf s x
  | fin x, inf s => scaleInf s x
  | fin x, fin y => fin (x * y)

/-- `a < b`: false as soon as one of them is NaN. -/
def lt : Ext K → Ext K → Bool
  | nan, _ => false
  | _, nan => false
  | inf s, inf t => s && !t
  | inf s, fin _ => s
  | fin _, inf t => !t
  | fin x, fin y => decide (x < y)

/-- `std::isnan`. -/
def isNan : Ext K → Bool
  | nan => true
  | _ => false

end Ext

open Ext

variable {K : Type} [Field K] [LinearOrder K]

/-- `Eigen::VectorXd` or `RowVectorXd` of a known size. -/
abbrev Vec (K : Type) (n : Nat) := Fin n → Ext K

/-- `Eigen::MatrixXd` of a known size. -/
abbrev Mat (K : Type) (m n : Nat) := Fin m → Fin n → Ext K

/-- Sum of `n` values (the inner loop of a product in Eigen). -/
def sum (n : Nat) (f : Fin n → Ext K) : Ext K :=
  (List.finRange n).foldl (fun s i => add s (f i)) (fin 0)

/-- Matrix times vector. -/
def mulVec {m n : Nat} (a : Mat K m n) (v : Vec K n) : Vec K m :=
  fun i => sum n (fun j => mul (a i j) (v j))

/-- Matrix times matrix. -/
def mulMat {m n p : Nat} (a : Mat K m n) (b : Mat K n p) : Mat K m p :=
  fun i j => sum n (fun k => mul (a i k) (b k j))

/-- `transpose()`. -/
def trans {m n : Nat} (a : Mat K m n) : Mat K n m := fun i j => a j i

/-- The state of the loop of `ResizeLagrangianMultiplier`. -/
structure Limited (K : Type) (m : Nat) where
  lag : Vec K m
  isLarge : Bool
  isNan : Bool

/-- Body of the loop of `ResizeLagrangianMultiplier` (SQPstep.cpp:23-37). -/
def resizeAt {m : Nat} (lim : Ext K) (s : Limited K m) (i : Fin m) : Limited K m :=
  if lt (s.lag i) (neg lim) then
    { s with lag := Function.update s.lag i (neg lim), isLarge := true }
  else if lt lim (s.lag i) then
    { s with lag := Function.update s.lag i lim, isLarge := true }
  else if (s.lag i).isNan then
    { s with lag := Function.update s.lag i (fin 0), isNan := true }
  else s

/-- `ResizeLagrangianMultiplier` (SQPstep.cpp:8-39); `lim` is `calcobj.limLag`. -/
def resize {m : Nat} (lim : Ext K) (v : Vec K m) : Limited K m :=
  (List.finRange m).foldl (resizeAt lim) { lag := v, isLarge := false, isNan := false }

/-- `T(A).solve(b)` of an Eigen decomposition `T`. -/
abbrev Solver (K : Type) := ∀ n : Nat, Mat K n n → Vec K n → Vec K n

/-- `solve` with a matrix on the right: column by column. -/
def solveMat {n p : Nat} (solve : Solver K) (a : Mat K n n) (b : Mat K n p) : Mat K n p :=
  fun i j => solve n a (fun k => b k j) i

/-- Least squares solution: `A.bdcSvd(...).solve(b)` (SQPstep.hpp:179) and
`SparseQR(A).solve(b)` (230-232). -/
abbrev Lsq (K : Type) := ∀ m n : Nat, Mat K m n → Vec K m → Vec K n

/-- What the step templates leave behind. -/
structure Step (K : Type) (m n : Nat) where
  lag : Vec K m
  delta : Vec K n
  isNan : Bool
  isLarge : Bool
  ret : Bool

/-- The multipliers before they are limited (SQPstep.hpp:161-166). -/
def multipliers {m n : Nat} (solve : Solver K) (h : Mat K n n) (j : Mat K m n) (g : Vec K n)
    (c : Vec K m) : Vec K m :=
  let temp1 := solveMat solve h (trans j)
  let temp2 := solve n h g
  solve m (mulMat j temp1) (fun i => sub (c i) (mulVec j temp2 i))

/-- The end of both step templates, from the call that limits the multipliers on
(SQPstep.hpp:168-185, 219-238).  `isLarge` is set to false again at once (169, 220). -/
def finish {m n : Nat} (solve : Solver K) (lsq : Lsq K) (lim : Ext K) (h : Mat K n n)
    (j : Mat K m n) (g : Vec K n) (c : Vec K m) (delta0 : Vec K n) (attempt : Bool)
    (lag : Vec K m) : Step K m n :=
  let r := resize lim lag
  let isLarge := false
  if !attempt && (isLarge || r.isNan) then
    { lag := r.lag, delta := delta0, isNan := r.isNan, isLarge := isLarge,
      ret := isLarge || r.isNan }
  else if isLarge || r.isNan then
    { lag := r.lag, delta := fun i => neg (lsq m n j c i), isNan := r.isNan, isLarge := isLarge,
      ret := isLarge || r.isNan }
  else
    { lag := r.lag,
      delta := fun i => neg (solve n h (fun k => add (g k) (mulVec (trans j) r.lag k)) i),
      isNan := r.isNan, isLarge := isLarge, ret := isLarge || r.isNan }

/-- `SQPstep<T>` (SQPstep.hpp:150-186).  `h` is `calcobj.HLag`, `delta0` the step on entry. -/
def sqpStep {m n : Nat} (solve : Solver K) (lsq : Lsq K) (lim : Ext K) (h : Mat K n n)
    (j : Mat K m n) (g : Vec K n) (c : Vec K m) (delta0 : Vec K n) (attempt : Bool) : Step K m n :=
  finish solve lsq lim h j g c delta0 attempt (multipliers solve h j g c)

/-- `SQPstep_sparse<T>` (SQPstep.hpp:188-239).  `info n a` says whether `T` decomposed `a`;
`large0` is `isLarge` on entry, `none` when it has not been given a value.  When a decomposition
fails `isLarge` is read as it is. -/
def sqpStepSparse {m n : Nat} (info : ∀ n : Nat, Mat K n n → Bool) (solve : Solver K) (lsq : Lsq K)
    (lim : Ext K) (h : Mat K n n) (j : Mat K m n) (g : Vec K n) (c : Vec K m) (lag0 : Vec K m)
    (delta0 : Vec K n) (large0 : Option Bool) (attempt : Bool) : Res (Step K m n) :=
  let failed : Res (Step K m n) :=
    match large0 with
    | none => .error .ub
    | some b => .ok { lag := lag0, delta := delta0, isNan := true, isLarge := b, ret := b || true }
  if info n h = false then failed
  else if info m (mulMat j (solveMat solve h (trans j))) = false then failed
  else .ok (finish solve lsq lim h j g c delta0 attempt (multipliers solve h j g c))

/-- The solver chosen by the `switch` of the dense `ComputeSQPstep` (RSVScalc_SQP.cpp:341-372):
`1` HouseholderQR, `2` ColPivHouseholderQR, `3` LLT, `4` PartialPivLU; anything else is handled by
`default`, which uses the second one. -/
def isCase (method : Int) : Bool := method == 1 || method == 2 || method == 3 || method == 4

/-- The loop of the dense `ComputeSQPstep` (RSVScalc_SQP.cpp:339-381).  The loop ends when
`rerunDefault` is false; `fuel` bounds the number of rounds. -/
def stepLoop {m n : Nat} (solvers : Int → Solver K) (lsq : Lsq K) (lim : Ext K) (h : Mat K n n)
    (j : Mat K m n) (g : Vec K n) (c : Vec K m) (attempt : Bool) :
    Nat → Int → Vec K n → Res (Step K m n)
  | 0, _, _ => .error .diverges
  | fuel + 1, method, delta =>
    let s := if isCase method then sqpStep (solvers method) lsq lim h j g c delta attempt
      else sqpStep (solvers 2) lsq lim h j g c delta true
    let rerun := if isCase method then s.ret else false
    let rerun := if attempt then false else rerun
    if rerun then stepLoop solvers lsq lim h j g c attempt fuel 0 s.delta else .ok s

/-- `v[sub[ii]] = w[ii]` for every `ii` in order (RSVScalc_SQP.cpp:384-387, 400-404).  Positions
outside of the vector are undefined behaviour. -/
def scatter (v : List (Ext K)) : List Nat → List (Ext K) → Res (List (Ext K))
  | [], _ => .ok v
  | _ :: _, [] => .error .ub
  | s :: sub, x :: w => if s < v.length then scatter (v.set s x) sub w else .error .ub

/-- The multipliers stored after the step (RSVScalc_SQP.cpp:389-405, 460-476): all zero, then the
active ones; with `isLarge` the loop runs over all constraints. -/
def storeLag (nConstr : Nat) (isLarge : Bool) (sub : List Nat) (lag : List (Ext K)) :
    Res (List (Ext K)) :=
  if isLarge then
    if sub.length < nConstr then .error .ub
    else scatter (List.replicate nConstr (fin 0)) (sub.take nConstr)
      (List.replicate nConstr (fin 0))
  else scatter (List.replicate nConstr (fin 0)) sub lag

/-- Whether the "constraint only" mode was asked for and the method without the tens
(RSVScalc_SQP.cpp:333-338). -/
def splitMethod (method : Int) : Bool × Int :=
  if method.tmod 10 ≠ method then (true, method.tmod 10) else (false, method)

/-- The dense `ComputeSQPstep` (RSVScalc_SQP.cpp:321-412): the new `deltaDV` and `lagMult`.
`subC` and `subD` are `subConstrAct` and `subDvAct`. -/
def computeStep (solvers : Int → Solver K) (lsq : Lsq K) (lim : Ext K) (nConstr fuel : Nat)
    (method : Int) (subC subD : List Nat) (h : Mat K subD.length subD.length)
    (j : Mat K subC.length subD.length) (g : Vec K subD.length) (c : Vec K subC.length)
    (deltaDV : List (Ext K)) : Res (List (Ext K) × List (Ext K)) :=
  (stepLoop solvers lsq lim h j g c (splitMethod method).1 fuel (splitMethod method).2
      (fun _ => fin 0)).bind fun s =>
  (scatter deltaDV subD (List.ofFn s.delta)).bind fun d =>
  (storeLag nConstr s.isLarge subC (List.ofFn s.lag)).bind fun l => .ok (d, l)

/-- The sparse `ComputeSQPstep` (RSVScalc_SQP.cpp:414-483).  `isLarge` is declared without a value
(419) and every method uses the same solver in "constraint only" mode (436-443). -/
def computeStepSparse (info : ∀ n : Nat, Mat K n n → Bool) (solve : Solver K) (lsq : Lsq K)
    (lim : Ext K) (nConstr : Nat) (subC subD : List Nat) (h : Mat K subD.length subD.length)
    (j : Mat K subC.length subD.length) (g : Vec K subD.length) (c : Vec K subC.length)
    (deltaDV : List (Ext K)) : Res (List (Ext K) × List (Ext K)) :=
  (sqpStepSparse info solve lsq lim h j g c (fun _ => fin 0) (fun _ => fin 0) none true).bind
    fun s =>
  (scatter deltaDV subD (List.ofFn s.delta)).bind fun d =>
  (storeLag nConstr s.isLarge subC (List.ofFn s.lag)).bind fun l => .ok (d, l)

/-- Positions of the active entries (RSVScalc_SQP.cpp:35-45, 47-57), counted from `start`. -/
def activeFrom : Nat → List Bool → List Nat
  | _, [] => []
  | start, b :: l => if b then start :: activeFrom (start + 1) l else activeFrom (start + 1) l

/-- The active objective gradient (RSVScalc_SQP.cpp:59-63). -/
def gradAct (dObj : Nat → Ext K) (subD : List Nat) : Vec K subD.length := fun i => dObj subD[i]

/-- The active constraint residuals (RSVScalc_SQP.cpp:64-68). -/
def constrAct (constr targ : Nat → Ext K) (subC : List Nat) : Vec K subC.length :=
  fun i => sub (constr subC[i]) (targ subC[i])

/-- The active part of a matrix (RSVScalc_SQP.cpp:94-119). -/
def matAct (a : Nat → Nat → Ext K) (rows cols : List Nat) : Mat K rows.length cols.length :=
  fun i j => a rows[i] cols[j]

/-- The Hessian of the Lagrangian over the active variables (RSVScalc_SQP.cpp:104-122). -/
def hLag (hObj hConstr : Nat → Nat → Ext K) (subD : List Nat) : Mat K subD.length subD.length :=
  fun i j => add (matAct hObj subD subD i j) (matAct hConstr subD subD i j)

/-- `PrepareMatricesForSQP` with full maths followed by the step, as in `CheckAndCompute`
(RSVScalc_SQP.cpp:264-293): without active variables the step is zero and the multipliers stay. -/
def checkAndCompute (solvers : Int → Solver K) (lsq : Lsq K) (lim : Ext K) (fuel : Nat)
    (method : Int) (isConstrAct isDvAct : List Bool) (dObj : Nat → Ext K)
    (constr targ : Nat → Ext K) (dConstr hObj hConstr : Nat → Nat → Ext K)
    (deltaDV lagMult : List (Ext K)) : Res (List (Ext K) × List (Ext K)) :=
  let subD := activeFrom 0 isDvAct
  let subC := activeFrom 0 isConstrAct
  if 0 < subD.length then
    computeStep solvers lsq lim isConstrAct.length fuel method subC subD (hLag hObj hConstr subD)
      (matAct dConstr subC subD) (gradAct dObj subD) (constrAct constr targ subC) deltaDV
  else .ok (List.replicate isDvAct.length (fin 0), lagMult)

/-- The matrix of the sensitivity system (RSVScalc_SQP.cpp:197-201, 228-250):
`[H, Jᵀ; J, 0]`. -/
def sensInv {m n : Nat} (h : Mat K n n) (j : Mat K m n) : Mat K (n + m) (n + m) :=
  fun a b => Fin.addCases
    (fun i => Fin.addCases (fun k => h i k) (fun l => j l i) b)
    (fun i => Fin.addCases (fun k => j i k) (fun _ => fin 0) b) a

/-- The right hand side of the sensitivity system (RSVScalc_SQP.cpp:203-207, 252-256): the active
multipliers on the diagonal of the lower block.  `lag i` is `lagMult[subConstrAct[i]]`. -/
def sensMult {m n : Nat} (lag : Vec K m) : Mat K (n + m) m :=
  fun a i => Fin.addCases (fun _ => fin 0) (fun l => if l = i then lag i else fin 0) a

/-- The solution kept by `ComputeSQPsens` (SQPstep.hpp:252, RSVScalc_SQP.cpp:509-519): the rows of
the active variables of `-solve(sensMult)`.  Rows and columns of `sensDv` that are not active are
zero. -/
def sensRes {m n : Nat} (solve : Solver K) (h : Mat K n n) (j : Mat K m n) (lag : Vec K m) :
    Mat K n m :=
  fun a i => neg (solveMat solve (sensInv h j) (sensMult lag) (Fin.castAdd m a) i)

end RSVS.Sqp
