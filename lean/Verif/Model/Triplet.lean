import Mathlib.Algebra.Ring.Defs
import Verif.Model.Hash
import Verif.Model.Sqp

/-!
# Sparse matrices held as triplets

Model of `SparseMatrixTriplet` (SRCC/incl/RSVScalc.hpp:73-120, SRCC/src/rsvs/RSVScalc.cpp:610-650)
and of `PrepareMatricesForSQPSparse` (SRCC/src/rsvs/RSVScalc_SQP.cpp:124-182).

The number of rows and columns are natural numbers (negative sizes are not modelled).  `int`
arithmetic that leaves the range of 32 bits is undefined behaviour.
-/

namespace RSVS

open RSVS

/-- `SparseMatrixTriplet` (RSVScalc.hpp:73-76): a map from `row + nRow * column` to values. -/
structure Triplet (S : Type) where
  nRow : Nat
  nCol : Nat
  map : HashedPair S

namespace Triplet

variable {S : Type}

/-- `setZero` and `resize` of a new or used object (RSVScalc.hpp:104-112, RSVScalc.cpp:475-484). -/
def empty (nRow nCol : Nat) : Triplet S := { nRow := nRow, nCol := nCol, map := HashedPair.fresh }

/-- The key computed by both `operator()` (RSVScalc.hpp:79-98): throws out of range; the sum and
product are computed as `int`. -/
def key (t : Triplet S) (a b : Int) : Res Int :=
  if a < 0 ∨ (t.nRow : Int) ≤ a ∨ b < 0 ∨ (t.nCol : Int) ≤ b then .error .throws
  else if (2 : Int) ^ 31 ≤ a + t.nRow * b then .error .ub
  else .ok (a + t.nRow * b)

/-- Reading through the constant `operator()` (RSVScalc.hpp:89-98). -/
def get [Zero S] (t : Triplet S) (a b : Int) : Res S :=
  (t.key a b).bind fun k => t.map.get 0 k

/-- `coeffRef(a, b) += x` (RSVScalc.hpp:79-88, 100-103; used in RSVScalctools.cpp:322, 332): the
reference is to the value found or to a new zero. -/
def addAt [Zero S] [Add S] (t : Triplet S) (a b : Int) (x : S) : Res (Triplet S) :=
  (t.key a b).bind fun k =>
  (t.map.get 0 k).bind fun v =>
  (t.map.put 0 k (v + x)).bind fun m => .ok { t with map := m }

/-- `nonZeros` (RSVScalc.hpp:113-116). -/
def nonZeros (t : Triplet S) : Nat := t.map.hv.vec.length

/-- `operator[]` with the constructor of the element (RSVScalc.cpp:640-650, RSVScalc.hpp:47-58):
row, column and value of the `k`-th entry.  Remainder and quotient are those of C++, division by
zero is undefined. -/
def entry (t : Triplet S) (k : Nat) : Res (Nat × Nat × S) :=
  match t.map.hv.vec[k]? with
  | none => .error .throws
  | some v =>
    if t.nRow = 0 then .error .ub
    else if v.tmod t.nRow < 0 ∨ v.tdiv t.nRow < 0 then .error .throws
    else match t.map.targ[k]? with
      | none => .error .ub
      | some x => .ok ((v.tmod t.nRow).toNat, (v.tdiv t.nRow).toNat, x)

/-- The entries `[0]` to `[nonZeros - 1]` in order, as visited by the loops over them. -/
def entries (t : Triplet S) : Res (List (Nat × Nat × S)) :=
  (List.range t.nonZeros).mapM t.entry

/-- Writes one entry of a dense matrix; a position outside of the matrix is undefined. -/
def writeDense (nRow nCol : Nat) (a : Nat → Nat → S) (e : Nat × Nat × S) : Res (Nat → Nat → S) :=
  if e.1 < nRow ∧ e.2.1 < nCol then
    .ok (fun i j => if i = e.1 ∧ j = e.2.1 then e.2.2 else a i j)
  else .error .ub

/-- `SetEqual(MatrixXd)` (RSVScalc.cpp:623-633). -/
def setEqual [Zero S] (t : Triplet S) : Res (Nat → Nat → S) :=
  t.entries.bind fun es => es.foldlM (writeDense t.nRow t.nCol) (fun _ _ => 0)

end Triplet

/-- An `Eigen::SparseMatrix` as the list of its stored coefficients. -/
abbrev SparseMat (S : Type) := List ((Int × Int) × S)

namespace SparseMat

variable {S : Type}

/-- `insert(i, j) = x`: the coefficient must not be stored yet and the position must be in range. -/
def insert (nRow nCol : Nat) (m : SparseMat S) (i j : Int) (x : S) : Res (SparseMat S) :=
  if 0 ≤ i ∧ i < nRow ∧ 0 ≤ j ∧ j < nCol ∧ ∀ e ∈ m, e.1 ≠ (i, j) then .ok (((i, j), x) :: m)
  else .error .ub

/-- `coeff(i, j)`: 0 for coefficients that are not stored. -/
def coeff [Zero S] (m : SparseMat S) (i j : Int) : S :=
  match m.find? (fun e => e.1 == (i, j)) with
  | some e => e.2
  | none => 0

end SparseMat

variable {S : Type}

/-- Body of the loops that fill the active sparse matrices (RSVScalc_SQP.cpp:136-149, 157-163,
171-177).  `check` is true for the constraint Jacobian, where positions that are not found throw;
for the Hessians they would be passed on as -1. -/
def sparseActStep (check : Bool) (actR actC : List Bool) (subR subC : HashedVector)
    (m : SparseMat S) (e : Nat × Nat × S) : Res (SparseMat S) :=
  match actR[e.1]?, actC[e.2.1]? with
  | some r, some c =>
    if r && c then
      let ii := subR.find e.1
      let jj := subC.find e.2.1
      if check && (ii == -1 || jj == -1) then .error .throws
      else m.insert subR.vec.length subC.vec.length ii jj e.2.2
    else .ok m
  | some r, none => if r then .error .ub else .ok m
  | none, _ => .error .ub

/-- The active positions as a hashed vector (RSVScalc_SQP.cpp:35-57, 71-72): cleared, filled with
`push_back` and hashed again. -/
def activeHashed (act : List Bool) : HashedVector :=
  (((Sqp.activeFrom 0 act).map (fun (n : Nat) => (n : Int))).foldl HashedVector.pushBack
    HashedVector.fresh).generate

/-- One matrix of `PrepareMatricesForSQPSparse` (RSVScalc_SQP.cpp:131-178). -/
def sparseAct (check : Bool) (actR actC : List Bool) (t : Triplet S) : Res (SparseMat S) :=
  t.entries.bind fun es =>
    es.foldlM (sparseActStep check actR actC (activeHashed actR) (activeHashed actC)) []

end RSVS
