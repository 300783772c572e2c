import Mathlib.Tactic.FinCases
import Mathlib.Tactic.FieldSimp
import Verif.Lemmas.Calculus
import Verif.Spec.Centroid
import Verif.Model.Centroid

/-! # Derivatives of the centroid of a polygon -/

namespace RSVS.Math

open RSVS.Spec

/-- Squared distance as the generated code writes it. -/
def sqd (p q : Fin 3 → ℝ) : ℝ :=
  (p 0 - q 0) * (p 0 - q 0) + (p 1 - q 1) * (p 1 - q 1) + (p 2 - q 2) * (p 2 - q 2)

theorem sqd_comm (p q : Fin 3 → ℝ) : sqd p q = sqd q p := by unfold sqd; ring

theorem sqd_def (p q : Fin 3 → ℝ) :
  (p 0 - q 0) * (p 0 - q 0) + (p 1 - q 1) * (p 1 - q 1) + (p 2 - q 2) * (p 2 - q 2) = sqd p q := rfl

theorem dist3_eq (p q : Fin 3 → ℝ) : dist3 p q = Real.sqrt (sqd p q) := by
  simp [dist3, normSq, dotProduct, Fin.sum_univ_three, sqd]

theorem lengthF_eq (p q : Fin 3 → ℝ) : lengthF p q = dist3 p q := by
  simp [lengthF, dist3, normSq, dotProduct, Fin.sum_univ_three]

theorem sqd_pos {p q : Fin 3 → ℝ} (h : p ≠ q) : 0 < sqd p q := by
  unfold sqd
  by_contra hc
  have h0 := mul_self_nonneg (p 0 - q 0)
  have h1 := mul_self_nonneg (p 1 - q 1)
  have h2 := mul_self_nonneg (p 2 - q 2)
  have a0 := mul_self_eq_zero.mp (by linarith : (p 0 - q 0) * (p 0 - q 0) = 0)
  have a1 := mul_self_eq_zero.mp (by linarith : (p 1 - q 1) * (p 1 - q 1) = 0)
  have a2 := mul_self_eq_zero.mp (by linarith : (p 2 - q 2) * (p 2 - q 2) = 0)
  apply h
  funext i
  fin_cases i
  · exact sub_eq_zero.mp a0
  · exact sub_eq_zero.mp a1
  · exact sub_eq_zero.mp a2

/-- The Jacobian of the centroid from edge lengths `L`, their inverses `R`, the perimeter `S` and
the moments `M`. -/
noncomputable def cj {n : ℕ} [NeZero n] (P : Fin n → Fin 3 → ℝ) (L R : Fin n → ℝ) (S : ℝ)
    (M : Fin 3 → ℝ) (a : Fin 3) (k : Fin n) (d : Fin 3) : ℝ :=
  ((if d = a then (L (k - 1) + L k) / 2 else 0)
    + (P k d - P (k + 1) d) * R k * ((P k a + P (k + 1) a) / 2)
    - (P (k - 1) d - P k d) * R (k - 1) * ((P (k - 1) a + P k a) / 2)) / S
  - M a * ((P k d - P (k + 1) d) * R k - (P (k - 1) d - P k d) * R (k - 1)) / S ^ 2

section Deriv

variable {n : ℕ} [NeZero n]

theorem edge_grad (X : Fin n × Fin 3 → ℝ) (j : Fin n) (h : poly X j ≠ poly X (j + 1)) :
    IsGrad (fun Y => dist3 (poly Y j) (poly Y (j + 1)))
      (fun kd => ((if kd.1 = j then 1 else 0) - (if kd.1 = j + 1 then 1 else 0)) *
        ((X (j, kd.2) - X (j + 1, kd.2)) * (1 / dist3 (poly X j) (poly X (j + 1))))) X := by
  have hp := sqd_pos h
  simp only [dist3_eq]
  apply IsGrad.congr
  · apply IsGrad.sqrt
    · simp only [sqd, poly]
      grad
    · exact hp.ne'
  · rintro ⟨k, d⟩
    fin_cases d <;> simp only [Prod.mk.injEq] <;> simp <;> split_ifs <;> ring

theorem sum_shift (u : Fin n → ℝ) (k : Fin n) :
    ∑ j, ((if k = j then 1 else 0) - (if k = j + 1 then (1 : ℝ) else 0)) * u j = u k - u (k - 1) := by
  have e : ∀ j : Fin n, k = j + 1 ↔ k - 1 = j := fun j => (sub_eq_iff_eq_add).symm
  simp only [e, sub_mul, Finset.sum_sub_distrib, ite_mul, one_mul, zero_mul, Finset.sum_ite_eq,
    Finset.mem_univ, if_true]

theorem sum_shift_add (u : Fin n → ℝ) (k : Fin n) :
    ∑ j, ((if k = j then 1 else 0) + (if k = j + 1 then (1 : ℝ) else 0)) * u j = u k + u (k - 1) := by
  have e : ∀ j : Fin n, k = j + 1 ↔ k - 1 = j := fun j => (sub_eq_iff_eq_add).symm
  simp only [e, add_mul, Finset.sum_add_distrib, ite_mul, one_mul, zero_mul, Finset.sum_ite_eq,
    Finset.mem_univ, if_true]

theorem mid_grad (X : Fin n × Fin 3 → ℝ) (j : Fin n) (a : Fin 3) :
    IsGrad (fun Y => (poly Y j a + poly Y (j + 1) a) / 2)
      (fun kd => if kd.2 = a then
        ((if kd.1 = j then 1 else 0) + (if kd.1 = j + 1 then 1 else 0)) * (1 / 2) else 0) X := by
  simp only [poly, div_eq_mul_inv]
  apply IsGrad.congr
  · grad
  · rintro ⟨k, d⟩
    simp only [Prod.mk.injEq]
    by_cases h : d = a <;> simp [h]

/-- The centroid has the Jacobian `cj`. -/
theorem centroid_grad (X : Fin n × Fin 3 → ℝ) (h : ∀ j, poly X j ≠ poly X (j + 1)) (a : Fin 3) :
    IsGrad (fun Y => edgeCentroid (poly Y) a)
      (fun kd => cj (poly X) (fun j => dist3 (poly X j) (poly X (j + 1)))
        (fun j => 1 / dist3 (poly X j) (poly X (j + 1))) (perimeter (poly X))
        (fun a => ∑ j, dist3 (poly X j) (poly X (j + 1)) * ((poly X j a + poly X (j + 1) a) / 2))
        a kd.1 kd.2) X := by
  have hpos : ∀ j, 0 < dist3 (poly X j) (poly X (j + 1)) := fun j => by
    rw [dist3_eq]
    exact Real.sqrt_pos.mpr (sqd_pos (h j))
  have hS : perimeter (poly X) ≠ 0 := by
    unfold perimeter
    exact (Finset.sum_pos (fun j _ => hpos j) ⟨0, Finset.mem_univ _⟩).ne'
  unfold edgeCentroid
  have gM := IsGrad.sum Finset.univ fun (j : Fin n) _ =>
    (edge_grad X j (h j)).mul (mid_grad X j a)
  have gS := IsGrad.sum Finset.univ fun (j : Fin n) _ => edge_grad X j (h j)
  refine (gM.div gS hS).congr ?_
  rintro ⟨k, d⟩
  simp only
  rw [sum_shift (fun j => (X (j, d) - X (j + 1, d)) * (1 / dist3 (poly X j) (poly X (j + 1))))]
  have e : (∑ j, (dist3 (poly X j) (poly X (j + 1)) * (if d = a then
        ((if k = j then 1 else 0) + (if k = j + 1 then 1 else 0)) * (1 / 2) else 0) +
      ((if k = j then 1 else 0) - (if k = j + 1 then 1 else 0)) *
        ((X (j, d) - X (j + 1, d)) * (1 / dist3 (poly X j) (poly X (j + 1)))) *
        ((poly X j a + poly X (j + 1) a) / 2))) =
      (if d = a then (dist3 (poly X k) (poly X (k + 1)) +
        dist3 (poly X (k - 1)) (poly X (k - 1 + 1))) * (1 / 2) else 0) +
      ((X (k, d) - X (k + 1, d)) * (1 / dist3 (poly X k) (poly X (k + 1))) *
        ((poly X k a + poly X (k + 1) a) / 2) -
      (X (k - 1, d) - X (k - 1 + 1, d)) * (1 / dist3 (poly X (k - 1)) (poly X (k - 1 + 1))) *
        ((poly X (k - 1) a + poly X (k - 1 + 1) a) / 2)) := by
    rw [Finset.sum_add_distrib]
    congr 1
    · by_cases hd : d = a
      · simp only [hd, if_true]
        rw [← sum_shift_add (fun j => dist3 (poly X j) (poly X (j + 1))), Finset.sum_mul]
        exact Finset.sum_congr rfl fun j _ => by ring
      · simp only [hd, if_false, mul_zero, Finset.sum_const_zero]
    · rw [← sum_shift (fun j => (X (j, d) - X (j + 1, d)) *
        (1 / dist3 (poly X j) (poly X (j + 1))) * ((poly X j a + poly X (j + 1) a) / 2))]
      exact Finset.sum_congr rfl fun j _ => by ring
  rw [e]
  have hk : k - 1 + 1 = k := sub_add_cancel k 1
  simp only [cj, hk, poly, perimeter]
  split_ifs <;> ring

end Deriv

end RSVS.Math
