import Verif.Model.DesignVars
import Verif.Spec.Mesh

/-!
# Which snaxels are design variables
-/

namespace RSVS.Spec

open RSVS.Calc

variable {K : Type}

/-- Vertices `a` and `b` are ends of the same edge. -/
def OnOneEdge (m : Mesh) (a b : Int) : Prop := ∃ e ∈ m.edges, a ∈ e.vertind ∧ b ∈ e.vertind

/-- A snaxel that is free, or that has an edge to one that is. -/
def CanMove (snaxs : List (DvSnax K)) (conn : Mesh) (s : DvSnax K) : Prop :=
  s.isfreeze = false ∨ ∃ t ∈ snaxs, t.isfreeze = false ∧ OnOneEdge conn s.index t.index

/-- The value of the derivatives of number `c` with respect to the variable in place `p`: gradient of the objective
(-6) and of the Lagrangian (-5), diagonals of the Hessians (-4 objective, -3 constraints, -2 both), step (-1), gradient of
constraint `c`. -/
inductive IsEntry [Zero K] [Add K] [Mul K] (A : Arrays K) (p : Nat) : Int → K → Prop
  | obj {x} : A.dObj[p]? = some x → IsEntry A p (-6) x
  | lag {y ys} : A.dObj[p]? = some y → List.Forall₂ (fun r z => r[p]? = some z) A.dConstr ys →
      IsEntry A p (-5) (y + (List.zipWith (· * ·) A.lagMult ys).foldr (· + ·) 0)
  | hObj {r x} : A.HObj[p]? = some r → r[p]? = some x → IsEntry A p (-4) x
  | hConstr {r x} : A.HConstr[p]? = some r → r[p]? = some x → IsEntry A p (-3) x
  | both {r r' y z} : A.HConstr[p]? = some r → r[p]? = some y → A.HObj[p]? = some r' → r'[p]? = some z →
      IsEntry A p (-2) (y + z)
  | step {x} : A.deltaDV[p]? = some x → IsEntry A p (-1) x
  | constr {k : Nat} {r x} : A.dConstr[k]? = some r → r[p]? = some x → IsEntry A p k x

/-- The dense arrays have their sizes. -/
structure Sized (A : Arrays K) : Prop where
  dObj : A.dObj.length = A.nDv
  deltaDV : A.deltaDV.length = A.nDv
  lagMult : A.lagMult.length = A.nConstr
  dConstr : A.dConstr.length = A.nConstr ∧ ∀ r ∈ A.dConstr, r.length = A.nDv
  HObj : A.HObj.length = A.nDv ∧ ∀ r ∈ A.HObj, r.length = A.nDv
  HConstr : A.HConstr.length = A.nDv ∧ ∀ r ∈ A.HConstr, r.length = A.nDv

end RSVS.Spec
