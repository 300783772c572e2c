import Mathlib.Tactic.NormNum
import Mathlib.Tactic.Linarith
import Verif.Model.LogScale

/-! # Properties of the signed logarithmic scale (C52) -/

namespace RSVS.Props

open RSVS RSVS.Sqp

theorem sgn_pos {x : ℝ} (h : 0 < x) : sgn x = 1 := by
  unfold sgn
  rw [if_neg (by linarith), if_pos h]

theorem sgn_neg {x : ℝ} (h : x < 0) : sgn x = -1 := by
  unfold sgn
  rw [if_pos h]

theorem logb_tiny : Real.logb 10 ((10 : ℝ)⁻¹ ^ 16) = -16 := by
  rw [Real.logb_pow, Real.logb_inv, Real.logb_self_eq_one (by norm_num)]
  norm_num

theorem tiny_lt_eps : (10 : ℝ)⁻¹ ^ 16 < (2 : ℝ)⁻¹ ^ 52 := by norm_num

theorem logb_mono {a b : ℝ} (ha : 0 < a) (h : a < b) : Real.logb 10 a < Real.logb 10 b :=
  Real.logb_lt_logb (by norm_num) ha h

theorem logb_large {x : ℝ} (h : (10 : ℝ)⁻¹ ^ 16 < x) : -16 < Real.logb 10 x := by
  rw [← logb_tiny]
  exact logb_mono (by positivity) h

theorem logb_small {x : ℝ} (h0 : 0 < x) (h : x < (10 : ℝ)⁻¹ ^ 16) : Real.logb 10 x < -16 := by
  rw [← logb_tiny]
  exact logb_mono h0 h

/-- Above machine epsilon. -/
theorem scale_large {x : ℝ} (h : (2 : ℝ)⁻¹ ^ 52 < x) :
    signedLogScale x = .fin (Real.logb 10 x + 16) := by
  have hx : 0 < x := lt_trans (by positivity) h
  unfold signedLogScale
  rw [sgn_pos hx, abs_of_pos hx, if_neg one_ne_zero, if_pos h]
  congr 1
  ring

theorem scale_small {x : ℝ} (h0 : 0 < x) (h : x ≤ (2 : ℝ)⁻¹ ^ 52) (h1 : x ≠ (10 : ℝ)⁻¹ ^ 16) :
    signedLogScale x = .fin (-1 / (Real.logb 10 x + 16)) := by
  unfold signedLogScale quot
  rw [sgn_pos h0, abs_of_pos h0, if_neg one_ne_zero, if_neg (not_lt.mpr h), if_neg]
  · congr 1
    ring
  · intro hc
    rcases lt_or_gt_of_ne h1 with h2 | h2
    · linarith [logb_small h0 h2]
    · linarith [logb_large h2]

/-- C52: zero is kept. -/
theorem C52_zero : signedLogScale 0 = .fin 0 := by
  unfold signedLogScale sgn
  simp

/-- C52: the scale is odd, away from the positions where it is infinite. -/
theorem C52_odd (x : ℝ) (h : |x| ≠ (10 : ℝ)⁻¹ ^ 16) :
    signedLogScale (-x) = (signedLogScale x).neg := by
  rcases lt_trichotomy x 0 with hx | rfl | hx
  · by_cases he : (2 : ℝ)⁻¹ ^ 52 < |x|
    · unfold signedLogScale
      rw [abs_neg, sgn_neg hx, sgn_pos (neg_pos.mpr hx), if_neg one_ne_zero, if_pos he,
        if_neg (by norm_num), if_pos he]
      simp only [Ext.neg]
      congr 1
      ring
    · rw [abs_of_neg hx] at he h
      rw [scale_small (neg_pos.mpr hx) (not_lt.mp he) h]
      unfold signedLogScale quot
      rw [sgn_neg hx, abs_of_neg hx, if_neg (by norm_num), if_neg he, if_neg]
      · simp only [Ext.neg]
        congr 1
        ring
      · intro hc
        rcases lt_or_gt_of_ne h with h2 | h2
        · linarith [logb_small (neg_pos.mpr hx) h2]
        · linarith [logb_large h2]
  · rw [neg_zero, C52_zero]
    simp [Ext.neg]
  · by_cases he : (2 : ℝ)⁻¹ ^ 52 < |x|
    · unfold signedLogScale
      rw [abs_neg, sgn_pos hx, sgn_neg (neg_lt_zero.mpr hx), if_neg one_ne_zero, if_pos he,
        if_neg (by norm_num), if_pos he]
      simp only [Ext.neg]
      congr 1
      ring
    · rw [abs_of_pos hx] at he h
      rw [scale_small hx (not_lt.mp he) h]
      unfold signedLogScale quot
      rw [abs_neg, sgn_neg (neg_lt_zero.mpr hx), abs_of_pos hx, if_neg (by norm_num), if_neg he,
        if_neg]
      · simp only [Ext.neg]
        congr 1
        ring
      · intro hc
        rcases lt_or_gt_of_ne h with h2 | h2
        · linarith [logb_small hx h2]
        · linarith [logb_large h2]

/-- The values at which the scale is logarithmic, and zero. -/
def OnLog (x : ℝ) : Prop := x = 0 ∨ (2 : ℝ)⁻¹ ^ 52 < |x|

theorem scale_neg_large {x : ℝ} (h : x < -(2 : ℝ)⁻¹ ^ 52) :
    signedLogScale x = .fin (-(Real.logb 10 (-x) + 16)) := by
  have h1 : (2 : ℝ)⁻¹ ^ 52 < -x := by linarith
  have h2 : |(-x)| ≠ (10 : ℝ)⁻¹ ^ 16 := by
    rw [abs_of_pos (lt_trans (by positivity) h1)]
    have := tiny_lt_eps
    linarith
  have := C52_odd (-x) h2
  rw [neg_neg, scale_large h1] at this
  exact this

/-- C52 outside of machine epsilon: the order is kept, strictly. -/
theorem C52_order_partial {x y : ℝ} (hx : OnLog x) (hy : OnLog y) (h : x < y) :
    ∃ a b : ℝ, signedLogScale x = .fin a ∧ signedLogScale y = .fin b ∧ a < b := by
  have key : ∀ {z : ℝ}, (2 : ℝ)⁻¹ ^ 52 < z → 0 < Real.logb 10 z + 16 := fun hz => by
    linarith [logb_large (lt_trans tiny_lt_eps hz)]
  have e0 : (0 : ℝ) < (2 : ℝ)⁻¹ ^ 52 := by positivity
  rcases hx with rfl | hx
  · rcases hy with rfl | hy
    · exact absurd h (lt_irrefl _)
    · rw [abs_of_pos h] at hy
      exact ⟨0, _, C52_zero, scale_large hy, key hy⟩
  · rcases hy with rfl | hy
    · rw [abs_of_neg h] at hx
      exact ⟨_, 0, scale_neg_large (by linarith), C52_zero, by linarith [key hx]⟩
    · rcases lt_or_ge x 0 with hx0 | hx0
      · rw [abs_of_neg hx0] at hx
        rcases lt_or_ge y 0 with hy0 | hy0
        · rw [abs_of_neg hy0] at hy
          refine ⟨_, _, scale_neg_large (by linarith), scale_neg_large (by linarith), ?_⟩
          have := logb_mono (by linarith : 0 < -y) (by linarith : -y < -x)
          linarith
        · rw [abs_of_nonneg hy0] at hy
          exact ⟨_, _, scale_neg_large (by linarith), scale_large hy, by linarith [key hx, key hy]⟩
      · have hy0 : 0 ≤ y := by linarith
        rw [abs_of_nonneg hx0] at hx
        rw [abs_of_nonneg hy0] at hy
        refine ⟨_, _, scale_large hx, scale_large hy, ?_⟩
        have := logb_mono (by linarith : 0 < x) h
        linarith

/-- C52 near zero: for positive values below 1e-16 the result is positive and the order is kept. -/
theorem C52_near_partial {x y : ℝ} (hx : 0 < x) (h : x < y) (hy : y < (10 : ℝ)⁻¹ ^ 16) :
    ∃ a b : ℝ, signedLogScale x = .fin a ∧ signedLogScale y = .fin b ∧ 0 < a ∧ a < b := by
  have t := tiny_lt_eps
  have hy0 : 0 < y := lt_trans hx h
  have lx := logb_small hx (lt_trans h hy)
  have ly := logb_small hy0 hy
  have lm := logb_mono hx h
  refine ⟨_, _, scale_small hx (by linarith) (by linarith), scale_small hy0 (by linarith)
    (by linarith), ?_, ?_⟩
  · exact div_pos_of_neg_of_neg (by norm_num) (by linarith)
  · have e : ∀ z : ℝ, -1 / z = 1 / (-z) := fun z => by rw [div_neg, neg_div]
    rw [e, e]
    exact one_div_lt_one_div_of_lt (by linarith) (by linarith)

/-- C52 between 1e-16 and machine epsilon: positive values give negative results. -/
theorem C52_between {x : ℝ} (h1 : (10 : ℝ)⁻¹ ^ 16 < x) (h2 : x ≤ (2 : ℝ)⁻¹ ^ 52) :
    ∃ a : ℝ, signedLogScale x = .fin a ∧ a < 0 := by
  have hx : 0 < x := lt_trans (by positivity) h1
  have := logb_large h1
  exact ⟨_, scale_small hx h2 (ne_of_gt h1), div_neg_of_neg_of_pos (by norm_num) (by linarith)⟩

/-- C52 as stated. -/
def C52_statement : Prop :=
  signedLogScale 0 = .fin 0 ∧
    ∀ x y : ℝ, x < y → ∃ a b : ℝ, signedLogScale x = .fin a ∧ signedLogScale y = .fin b ∧ a < b

/-- C52 fails: 2e-16 is mapped below 0. -/
theorem C52_violated : ¬ C52_statement := by
  rintro ⟨h0, h⟩
  obtain ⟨a, b, ha, hb, hab⟩ := h 0 (2 * (10 : ℝ)⁻¹ ^ 16) (by positivity)
  obtain ⟨c, hc, hneg⟩ := C52_between (x := 2 * (10 : ℝ)⁻¹ ^ 16) (by norm_num) (by norm_num)
  rw [h0] at ha
  rw [hc] at hb
  simp only [Ext.fin.injEq] at ha hb
  linarith

example : OnLog (-3) ∧ OnLog (1 / 100) := by
  constructor <;> right <;> norm_num [abs_of_pos, abs_of_neg]

end RSVS.Props
