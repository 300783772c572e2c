import Mathlib.Algebra.BigOperators.Fin
import Mathlib.Algebra.Order.BigOperators.Group.Finset
import Mathlib.Data.Finset.Range
import Mathlib.Algebra.Order.Field.Basic
import Verif.Model.Sqp

/-!
# What an SQP step is

Plain sums over an ordered field; only the type `Ext` of doubles and the types of the solvers come
from the model.
-/

namespace RSVS.Spec

open RSVS.Sqp

variable {K : Type} [Field K] [LinearOrder K] [IsStrictOrderedRing K]

/-- The conditions for a step `d` with multipliers `l`: the linearised constraints are met and the
gradient of the Lagrangian of the quadratic model vanishes. -/
def IsKkt {m n : Nat} (H : Fin n → Fin n → K) (J : Fin m → Fin n → K) (g : Fin n → K)
    (c : Fin m → K) (d : Fin n → K) (l : Fin m → K) : Prop :=
  (∀ i, ∑ k, J i k * d k = - c i) ∧
  ∀ k, ∑ a, H k a * d a + g k + ∑ i, J i k * l i = 0

/-- The quadratic model of the objective. -/
def quadModel {n : Nat} (H : Fin n → Fin n → K) (g : Fin n → K) (d : Fin n → K) : K :=
  ∑ k, g k * d k + (∑ k, ∑ a, d k * H k a * d a) / 2

/-- A vector of finite doubles. -/
def finVec {n : Nat} (v : Fin n → K) : Fin n → Ext K := fun i => .fin (v i)

/-- A matrix of finite doubles. -/
def finMat {m n : Nat} (a : Fin m → Fin n → K) : Fin m → Fin n → Ext K := fun i j => .fin (a i j)

/-- The solver solves every system with the matrix `A`. -/
def Solves {n : Nat} (solve : Solver K) (A : Fin n → Fin n → K) : Prop :=
  ∀ b : Fin n → K, ∃ x : Fin n → K,
    solve n (finMat A) (finVec b) = finVec x ∧ ∀ i, ∑ k, A i k * x k = b i

/-- The solver is one for invertible matrices. -/
def SolvesAll (solve : Solver K) : Prop :=
  ∀ (n : Nat) (A B : Fin n → Fin n → K),
    (∀ i j, ∑ k, A i k * B k j = if i = j then 1 else 0) → Solves solve A

/-- `W` is `H⁻¹ Jᵀ`. -/
def IsInvTrans {m n : Nat} (H : Fin n → Fin n → K) (J : Fin m → Fin n → K)
    (W : Fin n → Fin m → K) : Prop :=
  ∀ i j, ∑ k, H i k * W k j = J j i

/-- The least squares solver meets the normal equations of `A x = b`. -/
def IsLsq {m n : Nat} (lsq : Lsq K) (A : Fin m → Fin n → K) (b : Fin m → K) : Prop :=
  ∃ x : Fin n → K, lsq m n (finMat A) (finVec b) = finVec x ∧
    ∀ k, ∑ i, A i k * (∑ a, A i a * x a - b i) = 0

/-- Positions of the `true` entries, in increasing order. -/
def IsActiveList (act : List Bool) (sub : List Nat) : Prop :=
  sub.Pairwise (· < ·) ∧ ∀ p, p ∈ sub ↔ act[p]? = some true

/-- The conditions on vectors of full length: linearised constraints for the active constraints and
a stationary Lagrangian in the active variables, where the variables that are not active do not
move and the constraints that are not active do not count. -/
def IsActiveKkt (actC actD : List Bool) (H J : Nat → Nat → K) (g c d l : Nat → K) : Prop :=
  (∀ i : Nat, actC[i]? = some true →
    ∑ k ∈ Finset.range actD.length with actD[k]? = some true, J i k * d k = - c i) ∧
  (∀ k : Nat, actD[k]? = some true →
    ∑ a ∈ Finset.range actD.length with actD[a]? = some true, H k a * d a + g k
      + ∑ i ∈ Finset.range actC.length with actC[i]? = some true, J i k * l i = 0)

/-- `s` is the change of the step per unit by which the target of constraint `i` is raised: the
residual `c i` falls by `t`. -/
def IsSens {m n : Nat} (H : Fin n → Fin n → K) (J : Fin m → Fin n → K) (i : Fin m)
    (s : Fin n → K) : Prop :=
  ∀ (g : Fin n → K) (c : Fin m → K) (t : K) (d d' : Fin n → K) (l l' : Fin m → K),
    IsKkt H J g c d l → IsKkt H J g (fun a => if a = i then c a - t else c a) d' l' →
    ∀ k, d' k - d k = t * s k

/-- `v` is in `[-lim, lim]`, both possibly infinite. -/
def InLimit (lim : Ext K) (v : Ext K) : Prop :=
  match lim, v with
  | .fin L, .fin x => -L ≤ x ∧ x ≤ L
  | .inf false, .fin _ => True
  | .inf false, .inf _ => True
  | _, _ => False

/-- A limit that is a number or infinite, and not negative. -/
def IsLimit (lim : Ext K) : Prop :=
  match lim with
  | .fin L => 0 ≤ L
  | .inf false => True
  | _ => False

/-- What one multiplier becomes. -/
inductive LimitedTo (lim : Ext K) : Ext K → Ext K → Prop
  | keep {v} : InLimit lim v → LimitedTo lim v v
  | nan : LimitedTo lim .nan (.fin 0)
  | above {L x : K} : lim = .fin L → L < x → LimitedTo lim (.fin x) (.fin L)
  | below {L x : K} : lim = .fin L → x < -L → LimitedTo lim (.fin x) (.fin (-L))
  | top {L : K} : lim = .fin L → LimitedTo lim (.inf false) (.fin L)
  | bot {L : K} : lim = .fin L → LimitedTo lim (.inf true) (.fin (-L))

end RSVS.Spec
