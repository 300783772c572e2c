import Verif.Model.Mesh
import Verif.Model.Triplet

/-!
# Design variables

Model of SRCC/src/rsvs/RSVScalc.cpp:35-93, 143-295, 443-529.  `HashedVector::find` is the first position
(C06).  Dense matrices are lists of rows; an `Eigen` access out of range is undefined.
-/

namespace RSVS.Calc

open RSVS.Mesh

/-- `snax` (SRCC/incl/snake.hpp:191-242): what is read and written here. -/
structure DvSnax (K : Type) where
  index : Int
  isfreeze : Bool
  v : K
  deriving DecidableEq, Repr

variable {K : Type}

/-- The loop of `SnakDVcond` (RSVScalc.cpp:81-90). -/
def neighFrozen (snaxs : List (DvSnax K)) (conn : Mesh) : List Int → Res Bool
  | [] => .ok true
  | e :: l =>
    (isearch Edge.index conn.edges e).bind fun ed =>
    (vecGet ed.vertind 0).bind fun v0 => (isearch DvSnax.index snaxs v0).bind fun s0 =>
    (vecGet ed.vertind 1).bind fun v1 => (isearch DvSnax.index snaxs v1).bind fun s1 =>
    if s0.isfreeze && s1.isfreeze then neighFrozen snaxs conn l else .ok false

/-- `SnakDVcond` (RSVScalc.cpp:73-93). -/
def dvCond (snaxs : List (DvSnax K)) (conn : Mesh) (ii : Nat) : Res Bool :=
  (elemAt conn.verts (ii : Int)).bind fun v => (neighFrozen snaxs conn v.edgeind).map not

/-- The loop of `PrepTriangulationCalc` (RSVScalc.cpp:57-67): `vecin`. -/
def dvList (snaxs : List (DvSnax K)) (conn : Mesh) : Nat → List (DvSnax K) → Res (List Int)
  | _, [] => .ok []
  | ii, s :: l =>
    (if s.isfreeze = false then .ok true else dvCond snaxs conn ii).bind fun c =>
    (dvList snaxs conn (ii + 1) l).map fun r => if c then s.index :: r else r

/-- `BuildDVMap` (RSVScalc.cpp:522-529) with the list of `PrepTriangulationCalc` (35-71): `dvMap.vec`. -/
def dvMap (snaxs : List (DvSnax K)) (conn : Mesh) : Res (List Int) :=
  (dvList snaxs conn 0 snaxs).map sortUnique

/-- `ReturnVelocities` (RSVScalc.cpp:143-154). -/
def returnVelocities [Zero K] (vec : List Int) (delta : List K) (snaxs : List (DvSnax K)) : Res (List (DvSnax K)) :=
  snaxs.mapM (m := Except Fault) fun s =>
    let p := posOf id vec s.index
    (if p ≠ -1 then vecGet delta p else .ok 0).map fun v => { s with v := v }

/-- The arrays of `RSVScalc` (SRCC/incl/RSVScalc.hpp:160-187) that are exported. -/
structure Arrays (K : Type) where
  nDv : Nat
  nConstr : Nat
  /-- `sparseDVcutoff`. -/
  cutoff : Nat
  dObj : List K
  lagMult : List K
  deltaDV : List K
  dConstr : List (List K)
  HObj : List (List K)
  HConstr : List (List K)
  HObjSparse : Triplet K
  HConstrSparse : Triplet K

/-- `UseFullMath` (RSVScalc.hpp:215-218). -/
def Arrays.full (A : Arrays K) : Bool := A.nDv < A.cutoff

/-- An access to a dense matrix. -/
def matGet (m : List (List K)) (i j : Int) : Res K := (vecGet m i).bind fun r => vecGet r j

/-- `BuildMathArrays` (RSVScalc.cpp:443-486): the sparse Jacobian, which is not exported, is left out. -/
def Arrays.build [Zero K] (A : Arrays K) (nDv nConstr : Nat) : Arrays K :=
  let B : Arrays K :=
    { A with
      nDv := nDv, nConstr := nConstr, dObj := List.replicate nDv 0
      lagMult := if nConstr ≠ A.lagMult.length then List.replicate nConstr 0 else A.lagMult
      deltaDV := List.replicate nDv 0 }
  if B.full then
    { B with
      dConstr := List.replicate nConstr (List.replicate nDv 0)
      HConstr := List.replicate nDv (List.replicate nDv 0), HObj := List.replicate nDv (List.replicate nDv 0) }
  else { B with HConstrSparse := .empty nDv nDv, HObjSparse := .empty nDv nDv }

/-- One entry of `lagMult.transpose() * dConstr`: the sum over the rows. -/
def lagSum [Zero K] [Add K] [Mul K] (p : Int) : List K → List (List K) → Res K
  | [], [] => .ok 0
  | a :: l, r :: m => (vecGet r p).bind fun x => (lagSum p l m).map fun y => a * x + y
  | _, _ => .error .ub

/-- What `ReturnGradient` reads for the variable in place `p` (RSVScalc.cpp:189-294). -/
def gradEntry [Zero K] [Add K] [Mul K] (A : Arrays K) (c p : Int) : Res K :=
  if c = -6 then vecGet A.dObj p
  else if c = -5 then (vecGet A.dObj p).bind fun x => (lagSum p A.lagMult A.dConstr).map fun y => x + y
  else if c = -4 then (if A.full then matGet A.HObj p p else A.HObjSparse.get p p)
  else if c = -3 then (if A.full then matGet A.HConstr p p else A.HConstrSparse.get p p)
  else if c = -2 then
    (if A.full then (matGet A.HConstr p p).bind fun x => (matGet A.HObj p p).map fun y => x + y
    else (A.HConstrSparse.get p p).bind fun x => (A.HObjSparse.get p p).map fun y => x + y)
  else if c = -1 then vecGet A.deltaDV p
  else matGet A.dConstr c p

/-- `ReturnGradient` (RSVScalc.cpp:173-295).  `scale` is `SignedLogScale` (C52). -/
def returnGradient [Zero K] [Add K] [Mul K] (scale : K → K) (A : Arrays K) (vec : List Int) (snaxs : List (DvSnax K))
    (c : Int) : Res (List K) :=
  if c ≥ A.nConstr ∨ c < -6 then .error .throws
  else if c = -1 ∧ A.full = false then .ok (snaxs.map fun _ => 0)
  else snaxs.mapM (m := Except Fault) fun s =>
    let p := posOf id vec s.index
    (if p ≠ -1 then gradEntry A c p else .ok 0).map scale

end RSVS.Calc
