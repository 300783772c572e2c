import Mathlib.Analysis.SpecialFunctions.Log.Base
import Verif.Model.Sqp

/-! # The signed logarithmic scale

Model of `rsvs3d::SignedLogScale` (SRCC/src/warning.cpp:40-58) on the reals; the result may be
infinite. -/

namespace RSVS

open Sqp

/-- `sign` (SRCC/incl/warning.hpp:215-218) as a factor. -/
noncomputable def sgn (x : ℝ) : ℝ := if x < 0 then -1 else if 0 < x then 1 else 0

/-- Division of finite doubles by a finite double: an infinity or NaN for division by zero (zero
counts as positive). -/
noncomputable def quot (a b : ℝ) : Ext ℝ :=
  if b = 0 then (if a = 0 then .nan else .inf (decide (a < 0))) else .fin (a / b)

/-- `rsvs3d::SignedLogScale` (warning.cpp:40-58).  `__DBL_EPSILON__` is 2⁻⁵². -/
noncomputable def signedLogScale (x : ℝ) : Ext ℝ :=
  if sgn x = 0 then .fin (sgn x)
  else if (2 : ℝ)⁻¹ ^ 52 < |x| then .fin (sgn x * (Real.logb 10 |x| - (-15) + 1))
  else quot (-(sgn x) * 1) (Real.logb 10 |x| - (-15) + 1)

end RSVS
