import Verif.Spec.Geometry

/-!
# Specification of placing spawned snaxels on a sphere
-/

namespace RSVS.Spec

variable {K : Type} [Field K] [LinearOrder K]

/-- The point at parameter `s` of the line is on the sphere of radius `r`; `off` goes from the centre to the start of the line. -/
def OnSphere (off : Fin 3 → K) (r : K) (line : Fin 3 → K) (s : K) : Prop :=
  inner (fun i => off i + s * line i) (fun i => off i + s * line i) = r * r

/-- `root` gives square roots. -/
def IsRoot (root : K → K) : Prop := ∀ x, 0 ≤ x → 0 ≤ root x ∧ root x * root x = x

end RSVS.Spec
