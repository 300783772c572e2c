import Mathlib.Algebra.Ring.Defs
import Verif.Model.Basic

/-!
# Chain rule with matrices

Model of SRCC/src/rsvs/matrixtools.cpp:16-115.  Sizes are natural numbers, entries are elements of
a commutative ring (no rounding).
-/

namespace RSVS

/-- `Eigen::MatrixXd`: the sizes, and the entries as a function that is used inside of them only. -/
structure DMat (K : Type) where
  rows : Nat
  cols : Nat
  val : Nat → Nat → K

namespace DMat

variable {K : Type} [CommRing K]

/-- Sum of `n` values in order. -/
def sumTo (n : Nat) (f : Nat → K) : K := (List.range n).foldl (fun s k => s + f k) 0

/-- Product of matrices; Eigen asserts that the sizes match. -/
def mul (a b : DMat K) : Res (DMat K) :=
  if a.cols = b.rows then
    .ok { rows := a.rows, cols := b.cols,
          val := fun i j => sumTo a.cols (fun k => a.val i k * b.val k j) }
  else .error .ub

/-- `transpose()`. -/
def transpose (a : DMat K) : DMat K :=
  { rows := a.cols, cols := a.rows, val := fun i j => a.val j i }

/-- Sum of matrices; Eigen asserts that the sizes match. -/
def add (a b : DMat K) : Res (DMat K) :=
  if a.rows = b.rows ∧ a.cols = b.cols then
    .ok { rows := a.rows, cols := a.cols, val := fun i j => a.val i j + b.val i j }
  else .error .ub

/-- `ArrayVec2MatrixXd` (matrixtools.cpp:16-29) of an array given by its rows; the number of columns
is that of the first row (`ArrayVec::size`, SRCC/incl/vectorarray.hpp:58-65), the access within a
row is not checked (vectorarray.hpp:92-103). -/
def ofArrayVec (l : List (List K)) : Res (DMat K) :=
  let nC := (l.headD []).length
  if ∀ r ∈ l, nC ≤ r.length then
    .ok { rows := l.length, cols := nC, val := fun i j => ((l[i]?).bind (·[j]?)).getD 0 }
  else .error .ub

/-- `VecBy3DimArray` (matrixtools.cpp:31-78). -/
def vecBy3Dim (vec arr : DMat K) : Res (DMat K) :=
  if vec.cols = 0 then .error .ub
  else if vec.cols * (arr.cols / vec.cols) ≠ arr.cols then .error .throws
  else if vec.rows = 0 ∧ 0 < arr.rows ∧ 0 < arr.cols then .error .ub
  else .ok { rows := arr.rows, cols := arr.cols / vec.cols,
             val := fun i j => sumTo vec.cols
               (fun k => arr.val i (j + k * (arr.cols / vec.cols)) * vec.val 0 k) }

/-- `Deriv1stChainScalar` (matrixtools.cpp:80-83). -/
def deriv1st (dSdc dcdd : DMat K) : Res (DMat K) := mul dSdc dcdd

/-- `Deriv2ndChainScalar` (matrixtools.cpp:85-115). -/
def deriv2nd (dSdc dcdd hSc hcd : DMat K) : Res (DMat K) :=
  (vecBy3Dim dSdc hcd).bind fun hSd =>
  if dcdd.rows ≠ hSc.cols ∨ dcdd.cols ≠ hSd.cols ∨ hSd.rows ≠ hSd.cols then .error .throws
  else (mul dcdd.transpose hSc).bind fun a => (mul a dcdd).bind fun b => add hSd b

end DMat

end RSVS
