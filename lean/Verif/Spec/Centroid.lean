import Verif.Spec.Triangle

/-! # The centroid of the edges of a polygon -/

namespace RSVS.Spec

variable {n : ℕ} [NeZero n]

/-- Length of a closed polygon. -/
noncomputable def perimeter (P : Fin n → Fin 3 → ℝ) : ℝ := ∑ j, dist3 (P j) (P (j + 1))

/-- Centroid of the edges of a closed polygon: the mean of their midpoints, weighted by length. -/
noncomputable def edgeCentroid (P : Fin n → Fin 3 → ℝ) (a : Fin 3) : ℝ :=
  (∑ j, dist3 (P j) (P (j + 1)) * ((P j a + P (j + 1) a) / 2)) / perimeter P

/-- The polygon of which the coordinates are given. -/
def poly (X : Fin n × Fin 3 → ℝ) : Fin n → Fin 3 → ℝ := fun k d => X (k, d)

end RSVS.Spec
