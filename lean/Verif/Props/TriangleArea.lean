import Verif.Props.Triangle

/-! # Areas have the derivatives the code returns, apart from `eps` (C75) -/

namespace RSVS.Props

open RSVS.Spec RSVS.Math

/-- The squared double area of a triangle, with `eps` added. -/
def areaSq (p q r : Fin 3 → ℝ) (eps : ℝ) : ℝ :=
  ((p 0 - q 0) * (p 1 - r 1) - (p 0 - r 0) * (p 1 - q 1)) ^ 2 +
  ((p 0 - q 0) * (p 2 - r 2) - (p 0 - r 0) * (p 2 - q 2)) ^ 2 +
  ((p 1 - q 1) * (p 2 - r 2) - (p 1 - r 1) * (p 2 - q 2)) ^ 2 + eps

theorem areaSq_eq (p q r : Fin 3 → ℝ) (eps : ℝ) :
    areaSq p q r eps = normSq (crossProduct (q - p) (r - p)) + eps := by
  simp only [areaSq, normSq, crossProduct]
  simp [Fin.sum_univ_three, dotProduct]
  ring

theorem areaF_eq (p q r : Fin 3 → ℝ) (eps : ℝ) :
    areaF p q r eps = Real.sqrt (areaSq p q r eps) * (1 / 2) := by
  simp only [areaF, areaSq]
  congr 2
  ring

/-- The gradient of the squared double area. -/
def areaSqD (p q r : Fin 3 → ℝ) : Fin 9 → ℝ :=
  let a : Fin 3 → ℝ := p - q
  let b : Fin 3 → ℝ := p - r
  let x := a 0 * b 1 - b 0 * a 1
  let y := a 0 * b 2 - b 0 * a 2
  let z := a 1 * b 2 - b 1 * a 2
  ![2 * (x * (b 1 - a 1) + y * (b 2 - a 2)),
    2 * (x * (a 0 - b 0) + z * (b 2 - a 2)),
    2 * (y * (a 0 - b 0) + z * (a 1 - b 1)),
    2 * (x * -b 1 + y * -b 2),
    2 * (x * b 0 + z * -b 2),
    2 * (y * b 0 + z * b 1),
    2 * (x * a 1 + y * a 2),
    2 * (x * -a 0 + z * a 2),
    2 * (y * -a 0 + z * -a 1)]

theorem areaDf_eq (p q r : Fin 3 → ℝ) (eps : ℝ) :
    areaDf p q r eps = fun i => areaSqD p q r i * (1 / Real.sqrt (areaSq p q r eps)) * (1 / 4) := by
  have h1 : ((p 0 - q 0) * (p 1 - r 1) - (p 0 - r 0) * (p 1 - q 1)) *
        ((p 0 - q 0) * (p 1 - r 1) - (p 0 - r 0) * (p 1 - q 1)) +
      ((p 0 - q 0) * (p 2 - r 2) - (p 0 - r 0) * (p 2 - q 2)) *
        ((p 0 - q 0) * (p 2 - r 2) - (p 0 - r 0) * (p 2 - q 2)) +
      ((p 1 - q 1) * (p 2 - r 2) - (p 1 - r 1) * (p 2 - q 2)) *
        ((p 1 - q 1) * (p 2 - r 2) - (p 1 - r 1) * (p 2 - q 2)) + eps = areaSq p q r eps := by
    unfold areaSq; ring
  have h2 : ((p 0 - q 0) * (p 1 - r 1) - (p 0 - r 0) * (p 1 - q 1)) *
        ((p 0 - q 0) * (p 1 - r 1) - (p 0 - r 0) * (p 1 - q 1)) +
      ((p 0 - q 0) * (p 2 - r 2) - (p 0 - r 0) * (p 2 - q 2)) *
        ((p 0 - q 0) * (p 2 - r 2) - (p 0 - r 0) * (p 2 - q 2)) +
      (-((p 1 - q 1) * (p 2 - r 2)) + (p 1 - r 1) * (p 2 - q 2)) *
        (-((p 1 - q 1) * (p 2 - r 2)) + (p 1 - r 1) * (p 2 - q 2)) + eps = areaSq p q r eps := by
    unfold areaSq; ring
  funext i
  simp only [areaDf, h1, h2]
  generalize Real.sqrt (areaSq p q r eps) = s
  match i with
  | 0 | 1 | 2 | 3 | 4 | 5 | 6 | 7 | 8 =>
    simp only [areaSqD, Matrix.cons_val, Pi.sub_apply]
    ring

theorem areaSqD_grad (X : Fin 9 → ℝ) (eps : ℝ) :
    IsGrad (fun Y => areaSq (q0 Y) (q1 Y) (q2 Y) eps) (areaSqD (q0 X) (q1 X) (q2 X)) X := by
  unfold areaSq
  apply IsGrad.congr
  · simp only [q0, q1, q2, Matrix.cons_val, pow_two]
    grad
  · intro i
    match i with
    | 0 | 1 | 2 | 3 | 4 | 5 | 6 | 7 | 8 =>
      simp only [areaSqD, Matrix.cons_val, Pi.sub_apply]
      simp
      ring

/-- C75: the value is the area. -/
theorem C75_value (p q r : Fin 3 → ℝ) : areaF p q r 0 = triArea p q r := by
  rw [areaF_eq, areaSq_eq, add_zero, triArea]
  ring

theorem C75_grad_partial (X : Fin 9 → ℝ) (eps : ℝ) (h : 0 < areaSq (q0 X) (q1 X) (q2 X) eps) :
    IsGrad (fun Y => areaF (q0 Y) (q1 Y) (q2 Y) eps) (areaDf (q0 X) (q1 X) (q2 X) eps) X := by
  simp only [areaF_eq, areaDf_eq]
  refine (((areaSqD_grad X eps).sqrt h.ne').mul (IsGrad.const (1 / 2))).congr fun i => ?_
  ring

set_option maxHeartbeats 2000000 in
/-- The rows of the Hessian. -/
theorem areaDdf_row (X : Fin 9 → ℝ) (eps : ℝ) (h : 0 < areaSq (q0 X) (q1 X) (q2 X) eps) (i : Fin 9) :
    IsGrad (fun Y => areaDf (q0 Y) (q1 Y) (q2 Y) eps i) (areaDdf (q0 X) (q1 X) (q2 X) eps i) X := by
  have h1 : ∀ p q r : Fin 3 → ℝ, ((p 0 - q 0) * (p 1 - r 1) - (p 0 - r 0) * (p 1 - q 1)) *
        ((p 0 - q 0) * (p 1 - r 1) - (p 0 - r 0) * (p 1 - q 1)) +
      ((p 1 - q 1) * (p 2 - r 2) - (p 2 - q 2) * (p 1 - r 1)) *
        ((p 1 - q 1) * (p 2 - r 2) - (p 2 - q 2) * (p 1 - r 1)) +
      ((p 0 - q 0) * (p 2 - r 2) - (p 0 - r 0) * (p 2 - q 2)) *
        ((p 0 - q 0) * (p 2 - r 2) - (p 0 - r 0) * (p 2 - q 2)) + eps = areaSq p q r eps := by
    intro p q r; unfold areaSq; ring
  have h2 : ∀ p q r : Fin 3 → ℝ, ((p 0 - q 0) * (p 1 - r 1) - (p 0 - r 0) * (p 1 - q 1)) *
        ((p 0 - q 0) * (p 1 - r 1) - (p 0 - r 0) * (p 1 - q 1)) +
      ((p 1 - q 1) * (p 2 - r 2) - (p 2 - q 2) * (p 1 - r 1)) *
        ((p 1 - q 1) * (p 2 - r 2) - (p 2 - q 2) * (p 1 - r 1)) +
      (-((p 0 - q 0) * (p 2 - r 2)) + (p 0 - r 0) * (p 2 - q 2)) *
        (-((p 0 - q 0) * (p 2 - r 2)) + (p 0 - r 0) * (p 2 - q 2)) + eps = areaSq p q r eps := by
    intro p q r; unfold areaSq; ring
  have hs : Real.sqrt (areaSq (q0 X) (q1 X) (q2 X) eps) ≠ 0 := (Real.sqrt_pos.mpr h).ne'
  simp only [areaDf_eq]
  have hr := ((areaSqD_grad X eps).sqrt h.ne').one_div hs
  match i with
  | 0 | 1 | 2 | 3 | 4 | 5 | 6 | 7 | 8 =>
    apply IsGrad.congr
    · apply IsGrad.mul
      · apply IsGrad.mul
        · simp only [areaSqD, q0, q1, q2, Matrix.cons_val, Pi.sub_apply]
          grad
        · exact hr
      · exact IsGrad.const _
    · intro j
      simp only [areaDdf, h1, h2, pow32_eq h.le]
      generalize Real.sqrt (areaSq (q0 X) (q1 X) (q2 X) eps) = s
      simp only [areaSqD, q0, q1, q2, Matrix.cons_val, Pi.sub_apply]
      have g3 : X 3 = X 0 - (X 0 - X 3) := by ring
      have g4 : X 4 = X 1 - (X 1 - X 4) := by ring
      have g5 : X 5 = X 2 - (X 2 - X 5) := by ring
      have g6 : X 6 = X 0 - (X 0 - X 6) := by ring
      have g7 : X 7 = X 1 - (X 1 - X 7) := by ring
      have g8 : X 8 = X 2 - (X 2 - X 8) := by ring
      generalize X 0 - X 3 = a0 at g3
      generalize X 1 - X 4 = a1 at g4
      generalize X 2 - X 5 = a2 at g5
      generalize X 0 - X 6 = b0 at g6
      generalize X 1 - X 7 = b1 at g7
      generalize X 2 - X 8 = b2 at g8
      simp only [g3, g4, g5, g6, g7, g8]
      fin_cases j <;> simp <;> ring

theorem C75_hess_partial (X : Fin 9 → ℝ) (eps : ℝ) (h : 0 < areaSq (q0 X) (q1 X) (q2 X) eps) :
    IsHess (fun Y => areaF (q0 Y) (q1 Y) (q2 Y) eps) (areaDdf (q0 X) (q1 X) (q2 X) eps) X := by
  refine ⟨fun Y => areaDf (q0 Y) (q1 Y) (q2 Y) eps, ?_, areaDdf_row X eps h⟩
  have hc := (areaSqD_grad X eps).continuousAt
  filter_upwards [hc.eventually (lt_mem_nhds h)] with Y hY
  exact C75_grad_partial Y eps hY

/-- C75 for the exact area, the derivatives being taken without `eps`. -/
theorem C75_exact_partial (X : Fin 9 → ℝ) (h : triArea (q0 X) (q1 X) (q2 X) ≠ 0) :
    IsGrad (fun Y => triArea (q0 Y) (q1 Y) (q2 Y)) (areaDf (q0 X) (q1 X) (q2 X) 0) X ∧
    IsHess (fun Y => triArea (q0 Y) (q1 Y) (q2 Y)) (areaDdf (q0 X) (q1 X) (q2 X) 0) X := by
  have hp : 0 < areaSq (q0 X) (q1 X) (q2 X) 0 := by
    by_contra hc
    apply h
    rw [← C75_value, areaF_eq, Real.sqrt_eq_zero_of_nonpos (not_lt.mp hc), zero_mul]
  simp only [← C75_value]
  exact ⟨C75_grad_partial X 0 hp, C75_hess_partial X 0 hp⟩

/-- C75: with the `eps` of the code the gradient of the area is only shortened. -/
theorem C75_shortened (X : Fin 9 → ℝ) {eps : ℝ} (he : 0 ≤ eps)
    (h : triArea (q0 X) (q1 X) (q2 X) ≠ 0) :
    ∃ c : ℝ, 0 < c ∧ c ≤ 1 ∧ IsGrad (fun Y => triArea (q0 Y) (q1 Y) (q2 Y))
      (fun i => c⁻¹ * areaDf (q0 X) (q1 X) (q2 X) eps i) X := by
  have hp : 0 < areaSq (q0 X) (q1 X) (q2 X) 0 := by
    by_contra hc
    apply h
    rw [← C75_value, areaF_eq, Real.sqrt_eq_zero_of_nonpos (not_lt.mp hc), zero_mul]
  have hle : areaSq (q0 X) (q1 X) (q2 X) 0 ≤ areaSq (q0 X) (q1 X) (q2 X) eps := by
    unfold areaSq
    linarith
  have hq := lt_of_lt_of_le hp hle
  have s1 := Real.sqrt_pos.mpr hp
  have s2 := Real.sqrt_pos.mpr hq
  refine ⟨_, div_pos s1 s2, (div_le_one s2).mpr (Real.sqrt_le_sqrt hle), ?_⟩
  refine (C75_exact_partial X h).1.congr fun i => ?_
  rw [areaDf_eq, areaDf_eq]
  field_simp

/-- C75 as stated: what `Area::Calc` computes belongs together. -/
def C75_statement (eps : ℝ) : Prop :=
  ∀ X : Fin 9 → ℝ, triArea (q0 X) (q1 X) (q2 X) ≠ 0 →
    let c := areaCalc (q0 X) (q1 X) (q2 X) eps
    c.1 = triArea (q0 X) (q1 X) (q2 X) ∧
    IsGrad (fun Y => triArea (q0 Y) (q1 Y) (q2 Y)) c.2.1 X ∧
    IsHess (fun Y => triArea (q0 Y) (q1 Y) (q2 Y)) c.2.2 X

/-- A right triangle. -/
def rightTri : Fin 9 → ℝ := ![0, 0, 0, 1, 0, 0, 0, 1, 0]

theorem rightTri_sq (eps : ℝ) : areaSq (q0 rightTri) (q1 rightTri) (q2 rightTri) eps = 1 + eps := by
  simp [areaSq, rightTri]

theorem rightTri_area : triArea (q0 rightTri) (q1 rightTri) (q2 rightTri) = 1 / 2 := by
  rw [← C75_value, areaF_eq, rightTri_sq]
  simp

/-- C75 fails for every positive `eps`, as the value is computed without it. -/
theorem C75_violated {eps : ℝ} (he : 0 < eps) : ¬ C75_statement eps := by
  intro h
  have h1 := (h rightTri (by rw [rightTri_area]; norm_num)).2.1
  have h2 := (C75_exact_partial rightTri (by rw [rightTri_area]; norm_num)).1
  have h3 := congrFun (h1.unique h2) 3
  simp only [areaCalc, areaDf_eq, rightTri_sq] at h3
  have h4 : areaSqD (q0 rightTri) (q1 rightTri) (q2 rightTri) 3 = 2 := by
    simp [areaSqD, rightTri]
  rw [h4, add_zero, Real.sqrt_one] at h3
  have h5 : Real.sqrt (1 + eps) = 1 := by
    have : 0 < Real.sqrt (1 + eps) := Real.sqrt_pos.mpr (by linarith)
    field_simp at h3
    linarith
  rw [Real.sqrt_eq_one] at h5
  linarith

example : 0 < epsSurf := by unfold epsSurf; positivity

example : ∃ X : Fin 9 → ℝ, triArea (q0 X) (q1 X) (q2 X) ≠ 0 := ⟨rightTri, by rw [rightTri_area]; norm_num⟩

end RSVS.Props
