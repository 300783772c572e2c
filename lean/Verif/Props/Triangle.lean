import Mathlib.Tactic.FinCases
import Verif.Lemmas.Calculus
import Verif.Spec.Triangle
import Verif.Model.RsvsMath

/-! # Volumes and lengths have the derivatives the code returns (C74, C76) -/

namespace RSVS.Props

open RSVS.Spec RSVS.Math

/-- C74: the value is minus the signed volume. -/
theorem C74_value (p q r : Fin 3 → ℝ) : volumeF p q r = -coneVolume p q r := by
  simp only [volumeF, coneVolume, triple, crossProduct]
  simp [Fin.sum_univ_three, dotProduct]
  ring

theorem C74_grad (X : Fin 9 → ℝ) :
    IsGrad (fun Y => -coneVolume (q0 Y) (q1 Y) (q2 Y)) (volumeDf (q0 X) (q1 X) (q2 X)) X := by
  simp only [← C74_value]
  unfold volumeF
  apply IsGrad.congr
  ·
    simp only [q0, q1, q2, Matrix.cons_val]
    grad
  ·
    intro i
    fin_cases i <;> simp [volumeDf] <;> ring

theorem C74_hess (X : Fin 9 → ℝ) :
    IsHess (fun Y => -coneVolume (q0 Y) (q1 Y) (q2 Y))
      (volumeDdf (q0 X) (q1 X) (q2 X) (fun _ _ => 0)) X := by
  refine ⟨fun Y => volumeDf (q0 Y) (q1 Y) (q2 Y), .of_forall C74_grad, fun i => ?_⟩
  match i with
  | 0 | 1 | 2 | 3 | 4 | 5 | 6 | 7 | 8 =>
    apply IsGrad.congr
    ·
      simp only [volumeDf, q0, q1, q2, Matrix.cons_val]
      grad
    ·
      intro j
      fin_cases j <;> simp [volumeDdf] <;> ring

theorem C74_edge_value (d : Fin 3 → ℝ) (g0s g1s g2s g0e g1e g2e : Fin 3 → ℝ) :
    volume2F (d 0) (d 1) (d 2) g0s g1s g2s g0e g1e g2e =
      -coneVolume (along g0s g0e (d 0)) (along g1s g1e (d 1)) (along g2s g2e (d 2)) := by
  simp only [volume2F, coneVolume, triple, crossProduct, along]
  simp [Fin.sum_univ_three, dotProduct]
  ring

theorem C74_edge_grad (g0s g1s g2s g0e g1e g2e : Fin 3 → ℝ) (d : Fin 3 → ℝ) :
    IsGrad (fun t => -coneVolume (along g0s g0e (t 0)) (along g1s g1e (t 1)) (along g2s g2e (t 2)))
      (volume2Df (d 0) (d 1) (d 2) g0s g1s g2s g0e g1e g2e) d := by
  simp only [← C74_edge_value]
  unfold volume2F
  apply IsGrad.congr
  ·
    grad
  ·
    intro i
    fin_cases i <;> simp [volume2Df] <;> ring

theorem C74_edge_hess (g0s g1s g2s g0e g1e g2e : Fin 3 → ℝ) (d : Fin 3 → ℝ) :
    IsHess (fun t => -coneVolume (along g0s g0e (t 0)) (along g1s g1e (t 1)) (along g2s g2e (t 2)))
      (volume2Ddf (d 0) (d 1) (d 2) g0s g1s g2s g0e g1e g2e (fun _ _ => 0)) d := by
  refine ⟨fun t => volume2Df (t 0) (t 1) (t 2) g0s g1s g2s g0e g1e g2e,
    .of_forall fun t => C74_edge_grad g0s g1s g2s g0e g1e g2e t, fun i => ?_⟩
  match i with
  | 0 | 1 | 2 =>
    apply IsGrad.congr
    ·
      simp only [volume2Df, Matrix.cons_val]
      grad
    ·
      intro j
      fin_cases j <;> simp [volume2Ddf] <;> ring

/-- C74: what `Volume::Calc` leaves belongs together. -/
theorem C74_calc (X : Fin 9 → ℝ) :
    let c := volumeCalc (q0 X) (q1 X) (q2 X) (fun _ _ => 0)
    c.1 = -coneVolume (q0 X) (q1 X) (q2 X) ∧
    IsGrad (fun Y => -coneVolume (q0 Y) (q1 Y) (q2 Y)) c.2.1 X ∧
    IsHess (fun Y => -coneVolume (q0 Y) (q1 Y) (q2 Y)) c.2.2 X :=
  ⟨C74_value _ _ _, C74_grad X, C74_hess X⟩

/-- C74: what `Volume2::Calc` leaves belongs together; the last three points are the ends of the
edges that begin at the three before them. -/
theorem C74_edge_calc (d : Fin 3 → ℝ) (s e : Fin 3 → Fin 3 → ℝ) :
    let c := volume2Calc ![d, s 0, s 1, s 2, e 0, e 1, e 2] (fun _ _ => 0)
    c.1 = -coneVolume (along (s 0) (e 0) (d 0)) (along (s 1) (e 1) (d 1)) (along (s 2) (e 2) (d 2)) ∧
    IsGrad (fun t => -coneVolume (along (s 0) (e 0) (t 0)) (along (s 1) (e 1) (t 1))
      (along (s 2) (e 2) (t 2))) c.2.1 d ∧
    IsHess (fun t => -coneVolume (along (s 0) (e 0) (t 0)) (along (s 1) (e 1) (t 1))
      (along (s 2) (e 2) (t 2))) c.2.2 d :=
  ⟨C74_edge_value _ _ _ _ _ _ _, C74_edge_grad _ _ _ _ _ _ d, C74_edge_hess _ _ _ _ _ _ d⟩

/-- C74: `Volume::CalcFD` gives what `Volume::Calc` gives, whatever the step, as long as there is no
rounding: the volume is of degree one in each coordinate. -/
theorem C74_differences (p q r : Fin 3 → ℝ) (H : Fin 9 → Fin 9 → ℝ) {h : ℝ} (hh : h ≠ 0) :
    volumeCalcFD p q r H h = volumeCalc p q r H := by
  have hb : ∀ (v : Fin 3 → Fin 3 → ℝ) (i j : Fin 3), bump (bump v i j h) i j (-h) = v := by
    intro v i j
    funext a b
    simp only [bump]
    split <;> ring
  unfold volumeCalcFD volumeCalc
  refine Prod.ext rfl (Prod.ext ?_ rfl)
  funext k
  simp only [volumeFDLoop, hb]
  fin_cases k <;> simp [bump, volumeF, volumeDf] <;> field_simp <;> ring

example : (1 / 10 ^ 6 : ℝ) ≠ 0 := by norm_num

theorem pow32_eq {x : ℝ} (h : 0 ≤ x) : pow32 x = Real.sqrt x ^ 3 := by
  unfold pow32
  rw [Real.sqrt_eq_rpow, ← Real.rpow_natCast, ← Real.rpow_mul h]
  norm_num

/-- C76: the value is the distance. -/
theorem C76_value (p q : Fin 3 → ℝ) : lengthF p q = dist3 p q := by
  simp [lengthF, dist3, normSq, dotProduct, Fin.sum_univ_three]

theorem e_ne {X : Fin 6 → ℝ} (h : e0 X ≠ e1 X) : 0 < (X 0 - X 3) * (X 0 - X 3) +
    (X 1 - X 4) * (X 1 - X 4) + (X 2 - X 5) * (X 2 - X 5) := by
  by_contra hc
  have h0 := mul_self_nonneg (X 0 - X 3)
  have h1 := mul_self_nonneg (X 1 - X 4)
  have h2 := mul_self_nonneg (X 2 - X 5)
  have a0 := mul_self_eq_zero.mp (by linarith : (X 0 - X 3) * (X 0 - X 3) = 0)
  have a1 := mul_self_eq_zero.mp (by linarith : (X 1 - X 4) * (X 1 - X 4) = 0)
  have a2 := mul_self_eq_zero.mp (by linarith : (X 2 - X 5) * (X 2 - X 5) = 0)
  apply h
  simp only [e0, e1]
  rw [sub_eq_zero.mp a0, sub_eq_zero.mp a1, sub_eq_zero.mp a2]

theorem C76_grad_partial (X : Fin 6 → ℝ) (h : e0 X ≠ e1 X) :
    IsGrad (fun Y => dist3 (e0 Y) (e1 Y)) (lengthDf (e0 X) (e1 X)) X := by
  have hp := e_ne h
  simp only [← C76_value]
  unfold lengthF
  apply IsGrad.congr
  · simp only [e0, e1, Matrix.cons_val]
    grad
    exact hp.ne'
  · intro i
    fin_cases i <;> simp [lengthDf] <;> ring

theorem C76_hess_partial (X : Fin 6 → ℝ) (h : e0 X ≠ e1 X) :
    IsHess (fun Y => dist3 (e0 Y) (e1 Y)) (lengthDdf (e0 X) (e1 X)) X := by
  have hp := e_ne h
  refine ⟨fun Y => lengthDf (e0 Y) (e1 Y), ?_, fun i => ?_⟩
  · have hc : Continuous fun Y : Fin 6 → ℝ => (Y 0 - Y 3) * (Y 0 - Y 3) +
        (Y 1 - Y 4) * (Y 1 - Y 4) + (Y 2 - Y 5) * (Y 2 - Y 5) := by fun_prop
    filter_upwards [hc.continuousAt.eventually (lt_mem_nhds hp)] with Y hY
    refine C76_grad_partial Y fun he => ?_
    simp only [e0, e1] at he
    have a0 : Y 0 = Y 3 := by simpa using congrFun he 0
    have a1 : Y 1 = Y 4 := by simpa using congrFun he 1
    have a2 : Y 2 = Y 5 := by simpa using congrFun he 2
    rw [a0, a1, a2] at hY
    simp at hY
  · match i with
    | 0 | 1 | 2 | 3 | 4 | 5 =>
      apply IsGrad.congr
      · simp only [lengthDf, e0, e1, Matrix.cons_val]
        grad
        · exact hp.ne'
        · exact (Real.sqrt_pos.mpr hp).ne'
      · intro j
        fin_cases j <;> simp [lengthDdf, pow32_eq hp.le] <;> ring

/-- C76, for different points: what `LengthEdge::Calc` leaves belongs together. -/
theorem C76_calc_partial (X : Fin 6 → ℝ) (h : e0 X ≠ e1 X) :
    let c := lengthCalc (e0 X) (e1 X)
    c.1 = dist3 (e0 X) (e1 X) ∧ IsGrad (fun Y => dist3 (e0 Y) (e1 Y)) c.2.1 X ∧
    IsHess (fun Y => dist3 (e0 Y) (e1 Y)) c.2.2 X :=
  ⟨C76_value _ _, C76_grad_partial X h, C76_hess_partial X h⟩

example : e0 ![0, 0, 0, 1, 2, 2] ≠ e1 ![0, 0, 0, 1, 2, 2] := by
  intro h
  have := congrFun h 0
  simp at this

end RSVS.Props
