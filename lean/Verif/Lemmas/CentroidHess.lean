import Verif.Lemmas.CentroidAuto
import Verif.Model.CentroidHess

/-! # Second derivatives of the centroid of a polygon -/

namespace RSVS.Math

open RSVS.Spec

/-- Derivative of the unit vector along edge `j`, with the inverses `R` and `R3` of the length and
of its third power. -/
noncomputable def du {n : ℕ} [NeZero n] (P : Fin n → Fin 3 → ℝ) (R R3 : Fin n → ℝ) (j : Fin n)
    (d e : Fin 3) : ℝ :=
  (if d = e then R j else 0) - (P j d - P (j + 1) d) * (P j e - P (j + 1) e) * R3 j

/-- Derivative of the perimeter with respect to coordinate `d` of vertex `k`. -/
noncomputable def dS {n : ℕ} [NeZero n] (P : Fin n → Fin 3 → ℝ) (R : Fin n → ℝ) (k : Fin n)
    (d : Fin 3) : ℝ :=
  (P k d - P (k + 1) d) * R k - (P (k - 1) d - P k d) * R (k - 1)

/-- Derivative of moment `a` with respect to coordinate `d` of vertex `k`. -/
noncomputable def dM {n : ℕ} [NeZero n] (P : Fin n → Fin 3 → ℝ) (L R : Fin n → ℝ) (a : Fin 3)
    (k : Fin n) (d : Fin 3) : ℝ :=
  (if d = a then (L (k - 1) + L k) / 2 else 0)
    + (P k d - P (k + 1) d) * R k * ((P k a + P (k + 1) a) / 2)
    - (P (k - 1) d - P k d) * R (k - 1) * ((P (k - 1) a + P k a) / 2)

/-- Second derivative of coordinate `a` of the centroid with respect to the coordinates `d` and `e`
of vertex `k`. -/
noncomputable def ch {n : ℕ} [NeZero n] (P : Fin n → Fin 3 → ℝ) (L R R3 : Fin n → ℝ) (S : ℝ)
    (M : Fin 3 → ℝ) (a : Fin 3) (k : Fin n) (d e : Fin 3) : ℝ :=
  ((if d = a then dS P R k e / 2 else 0) + (if e = a then dS P R k d / 2 else 0)
      + du P R R3 k d e * ((P k a + P (k + 1) a) / 2)
      + du P R R3 (k - 1) d e * ((P (k - 1) a + P k a) / 2)) / S
    - (dM P L R a k d * dS P R k e + dM P L R a k e * dS P R k d) / S ^ 2
    - M a * (du P R R3 k d e + du P R R3 (k - 1) d e) / S ^ 2
    + 2 * M a * dS P R k d * dS P R k e / S ^ 3

/-- Inverse third powers of edge lengths as used by the generated code. -/
noncomputable def autoR3 {n : ℕ} [NeZero n] (P : Fin n → Fin 3 → ℝ) (j : Fin n) : ℝ :=
  1 / pow32 (sqd (P j) (P (j + 1)))

set_option maxHeartbeats 2000000 in
theorem selfDdf_eq (P : Fin 3 → Fin 3 → ℝ) (S : ℝ) (M : Fin 3 → ℝ) (eps : ℝ) (a d e : Fin 3)
    (h : e.val + 3 * a.val < 9) :
    selfDdf (fun i => P i 0) (fun i => P i 1) (fun i => P i 2) S (M 0) (M 1) (M 2) eps d
      ⟨e.val + 3 * a.val, h⟩ =
      ch P (autoL P 0) (autoR P eps 0) (autoR3 P) S M a 1 d e := by
  simp only [selfDdf, sqd_def, ch, du, dS, dM, autoL, autoR, autoR3, add_zero]
  have e1 : (1 : Fin 3) + 1 = 2 := rfl
  have e2 : (1 : Fin 3) - 1 = 0 := rfl
  have e3 : (0 : Fin 3) + 1 = 1 := rfl
  simp only [e1, e2, e3]
  generalize 1 / pow32 (sqd (P 0) (P 1)) = A3
  generalize 1 / pow32 (sqd (P 1) (P 2)) = B3
  generalize 1 / Real.sqrt (eps + sqd (P 0) (P 1)) = A1
  generalize 1 / Real.sqrt (eps + sqd (P 1) (P 2)) = B1
  generalize Real.sqrt (sqd (P 0) (P 1)) = A
  generalize Real.sqrt (sqd (P 1) (P 2)) = B
  match a, d, e with
  | 0, 0, 0 | 0, 0, 1 | 0, 0, 2 | 0, 1, 0 | 0, 1, 1 | 0, 1, 2 | 0, 2, 0 | 0, 2, 1 | 0, 2, 2
  | 1, 0, 0 | 1, 0, 1 | 1, 0, 2 | 1, 1, 0 | 1, 1, 1 | 1, 1, 2 | 1, 2, 0 | 1, 2, 1 | 1, 2, 2
  | 2, 0, 0 | 2, 0, 1 | 2, 0, 2 | 2, 1, 0 | 2, 1, 1 | 2, 1, 2 | 2, 2, 0 | 2, 2, 1 | 2, 2, 2 =>
    simp
    ring

end RSVS.Math
