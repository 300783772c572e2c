import Mathlib.LinearAlgebra.CrossProduct
import Mathlib.Analysis.SpecialFunctions.Pow.Real

/-! # Volumes, areas and lengths -/

namespace RSVS.Spec

open Matrix

/-- Six times the signed volume of the tetrahedron made by the origin and three points. -/
def triple (p q r : Fin 3 → ℝ) : ℝ := p ⬝ᵥ (q ⨯₃ r)

/-- Signed volume between the origin and a triangle. -/
noncomputable def coneVolume (p q r : Fin 3 → ℝ) : ℝ := triple p q r / 6

/-- Squared length. -/
def normSq (p : Fin 3 → ℝ) : ℝ := p ⬝ᵥ p

/-- Distance of two points. -/
noncomputable def dist3 (p q : Fin 3 → ℝ) : ℝ := Real.sqrt (normSq (p - q))

/-- Area of a triangle. -/
noncomputable def triArea (p q r : Fin 3 → ℝ) : ℝ :=
  Real.sqrt (normSq ((q - p) ⨯₃ (r - p))) / 2

/-- The three points of nine coordinates. -/
abbrev q0 (X : Fin 9 → ℝ) : Fin 3 → ℝ := ![X 0, X 1, X 2]

@[inherit_doc q0]
abbrev q1 (X : Fin 9 → ℝ) : Fin 3 → ℝ := ![X 3, X 4, X 5]

@[inherit_doc q0]
abbrev q2 (X : Fin 9 → ℝ) : Fin 3 → ℝ := ![X 6, X 7, X 8]

/-- The two points of six coordinates. -/
abbrev e0 (X : Fin 6 → ℝ) : Fin 3 → ℝ := ![X 0, X 1, X 2]

@[inherit_doc e0]
abbrev e1 (X : Fin 6 → ℝ) : Fin 3 → ℝ := ![X 3, X 4, X 5]

/-- The point at position `d` on the segment from `s` to `e`. -/
def along (s e : Fin 3 → ℝ) (d : ℝ) : Fin 3 → ℝ := s + d • (e - s)

end RSVS.Spec
