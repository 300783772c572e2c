import Mathlib.Analysis.SpecialFunctions.Pow.Real
import Mathlib.Data.Fin.VecNotation

/-! # Volumes, areas and lengths with their derivatives

Model of the generated code in SRCC/src/rsvs/RSVSmath_automatic.cpp for the volume of a triangle
seen from the origin, the area of a triangle and the length of an edge, each with its gradient and
Hessian, and of the classes in SRCC/src/rsvs/RSVSmath.cpp that call it.  Points are functions on
`Fin 3`: the sizes of the vectors are not checked by this code (`TriFunc::PreCalc` only prints a
message).  Doubles are numbers of a field, reals where there are square roots. -/

namespace RSVS.Math

section Field

variable {K : Type} [Field K]

/-- `Volume_f` (RSVSmath_automatic.cpp:333-344). -/
def volumeF (p0 p1 p2 : Fin 3 → K) : K :=
  let t2 : K := p0 0 - p1 0
  let t3 : K := p0 0 - p2 0
  let t4 : K := p0 1 - p1 1
  let t5 : K := p0 2 - p2 2
  let t6 : K := p0 2 - p1 2
  let t7 : K := p0 1 - p2 1
  p0 1 * (t2 * t5 - t3 * t6) * (1 / 6) + p0 2 * (t3 * t4 - t2 * t7) * (1 / 6) - p0 0 * (t4 * t5 -
    t6 * t7) * (1 / 6)

/-- `Volume_df` (RSVSmath_automatic.cpp:346-367), the row of the output array. -/
def volumeDf (p0 p1 p2 : Fin 3 → K) : Fin 9 → K :=
  let t2 : K := p1 2 - p2 2
  let t3 : K := p0 2 - p2 2
  let t4 : K := p0 2 - p1 2
  let t5 : K := p1 0 - p2 0
  let t6 : K := p1 1 - p2 1
  let t7 : K := p0 0 - p1 0
  let t8 : K := p0 1 - p2 1
  let t9 : K := p0 1 - p1 1
  let t10 : K := p0 0 - p2 0
  ![p0 1 * t2 * (1 / 6) - p0 2 * t6 * (1 / 6) - t3 * t9 * (1 / 6) + t4 * t8 * (1 / 6),
    p0 0 * t2 * (-1 / 6) + p0 2 * t5 * (1 / 6) + t3 * t7 * (1 / 6) - t4 * t10 * (1 / 6),
    p0 0 * t6 * (1 / 6) - p0 1 * t5 * (1 / 6) - t7 * t8 * (1 / 6) + t9 * t10 * (1 / 6),
    p0 1 * t3 * (-1 / 6) + p0 2 * t8 * (1 / 6),
    p0 0 * t3 * (1 / 6) - p0 2 * t10 * (1 / 6),
    p0 0 * t8 * (-1 / 6) + p0 1 * t10 * (1 / 6),
    p0 1 * t4 * (1 / 6) - p0 2 * t9 * (1 / 6),
    p0 0 * t4 * (-1 / 6) + p0 2 * t7 * (1 / 6),
    p0 1 * t7 * (-1 / 6) + p0 0 * t9 * (1 / 6)]

/-- `Volume_ddf` (RSVSmath_automatic.cpp:369-417), from the array `A0` as it was before. -/
def volumeDdf (p0 p1 p2 : Fin 3 → K) (A0 : Fin 9 → Fin 9 → K) : Fin 9 → Fin 9 → K :=
  let t2 : K := p1 2 * (1 / 6)
  let t3 : K := p2 1 * (1 / 6)
  let t4 : K := p1 0 * (1 / 6)
  let t5 : K := p2 2 * (1 / 6)
  let t6 : K := p2 0 * (1 / 6)
  let t7 : K := p0 1 * (1 / 6)
  let t8 : K := p1 1 * (1 / 6)
  let t9 : K := p0 2 * (1 / 6)
  let t10 : K := p0 0 * (1 / 6)
  ![![A0 0 0, A0 0 1, A0 0 2, A0 0 3, p2 2 * (-1 / 6), t3, A0 0 6, t2, p1 1 * (-1 / 6)],
    ![A0 1 0, A0 1 1, A0 1 2, t5, A0 1 4, p2 0 * (-1 / 6), -t2, A0 1 7, t4],
    ![A0 2 0, A0 2 1, A0 2 2, -t3, t6, A0 2 5, t8, -t4, A0 2 8],
    ![A0 3 0, t5, -t3, A0 3 3, A0 3 4, A0 3 5, A0 3 6, p0 2 * (-1 / 6), t7],
    ![-t5, A0 4 1, t6, A0 4 3, A0 4 4, A0 4 5, t9, A0 4 7, p0 0 * (-1 / 6)],
    ![t3, -t6, A0 5 2, A0 5 3, A0 5 4, A0 5 5, -t7, t10, A0 5 8],
    ![A0 6 0, -t2, t8, A0 6 3, t9, -t7, A0 6 6, A0 6 7, A0 6 8],
    ![t2, A0 7 1, -t4, -t9, A0 7 4, t10, A0 7 6, A0 7 7, A0 7 8],
    ![-t8, t4, A0 8 2, t7, -t10, A0 8 5, A0 8 6, A0 8 7, A0 8 8]]

/-- `Volume2_f` (RSVSmath_automatic.cpp:12-37). -/
def volume2F (d0 d1 d2 : K) (g0s g1s g2s g0e g1e g2e : Fin 3 → K) : K :=
  let t2 : K := g0e 1 - g0s 1
  let t3 : K := d0 * t2
  let t4 : K := g0e 0 - g0s 0
  let t5 : K := d0 * t4
  let t6 : K := g1e 0 - g1s 0
  let t7 : K := g0s 0 - g1s 0 + t5 - d1 * t6
  let t8 : K := g0e 2 - g0s 2
  let t9 : K := d0 * t8
  let t10 : K := g2e 0 - g2s 0
  let t11 : K := g0s 0 - g2s 0 + t5 - d2 * t10
  let t12 : K := g1e 1 - g1s 1
  let t13 : K := g0s 1 - g1s 1 + t3 - d1 * t12
  let t14 : K := g2e 2 - g2s 2
  let t15 : K := g0s 2 - g2s 2 + t9 - d2 * t14
  let t16 : K := g1e 2 - g1s 2
  let t17 : K := g0s 2 - g1s 2 + t9 - d1 * t16
  let t18 : K := g2e 1 - g2s 1
  let t19 : K := g0s 1 - g2s 1 + t3 - d2 * t18
  (g0s 1 + t3) * (t7 * t15 - t11 * t17) * (1 / 6) + (g0s 2 + t9) * (t11 * t13 - t7 * t19) * (1 /
    6) - (g0s 0 + t5) * (t13 * t15 - t17 * t19) * (1 / 6)

/-- `Volume2_df` (RSVSmath_automatic.cpp:39-81), the row of the output array. -/
def volume2Df (d0 d1 d2 : K) (g0s g1s g2s g0e g1e g2e : Fin 3 → K) : Fin 3 → K :=
  let t2 : K := g0e 0 - g0s 0
  let t3 : K := g0e 1 - g0s 1
  let t4 : K := d0 * t2
  let t5 : K := d0 * t3
  let t6 : K := g0e 2 - g0s 2
  let t7 : K := g1e 0 - g1s 0
  let t20 : K := d1 * t7
  let t8 : K := g0s 0 - g1s 0 + t4 - t20
  let t9 : K := d0 * t6
  let t10 : K := g2e 0 - g2s 0
  let t23 : K := d2 * t10
  let t11 : K := g0s 0 - g2s 0 + t4 - t23
  let t12 : K := g1e 1 - g1s 1
  let t22 : K := d1 * t12
  let t13 : K := g0s 1 - g1s 1 + t5 - t22
  let t14 : K := g1e 2 - g1s 2
  let t25 : K := d1 * t14
  let t15 : K := g0s 2 - g1s 2 + t9 - t25
  let t16 : K := g2e 1 - g2s 1
  let t21 : K := d2 * t16
  let t17 : K := g0s 1 - g2s 1 + t5 - t21
  let t18 : K := g2e 2 - g2s 2
  let t24 : K := d2 * t18
  let t19 : K := g0s 2 - g2s 2 + t9 - t24
  let t26 : K := g0s 2 + t9
  let t27 : K := g0s 1 + t5
  let t28 : K := g0s 0 + t4
  ![t26 * (t3 * t8 - t3 * t11 - t2 * t13 + t2 * t17) * (-1 / 6) + t27 * (t6 * t8 - t2 * t15 -
      t6 * t11 + t2 * t19) * (1 / 6) + t28 * (t3 * t15 - t6 * t13 - t3 * t19 + t6 * t17) *
      (1 / 6) + t6 * (t11 * t13 - t8 * t17) * (1 / 6) - t3 * (t11 * t15 - t8 * t19) * (1 /
      6) - t2 * (t13 * t19 - t15 * t17) * (1 / 6),
    t26 * (t11 * t12 - t7 * t17) * (-1 / 6) + t27 * (t11 * t14 - t7 * t19) * (1 / 6) + t28 *
      (t12 * t19 - t14 * t17) * (1 / 6),
    t26 * (t10 * t13 - t8 * t16) * (-1 / 6) + t27 * (t10 * t15 - t8 * t18) * (1 / 6) + t28 *
      (t13 * t18 - t15 * t16) * (1 / 6)]

/-- `Volume2_ddf` (RSVSmath_automatic.cpp:83-162), from the array `A0` as it was before. -/
def volume2Ddf (d0 d1 d2 : K) (g0s g1s g2s g0e g1e g2e : Fin 3 → K) (A0 : Fin 3 → Fin 3 → K) :
    Fin 3 → Fin 3 → K :=
  let t2 : K := g0e 0 - g0s 0
  let t3 : K := g0e 1 - g0s 1
  let t4 : K := d0 * t2
  let t5 : K := d0 * t3
  let t6 : K := g0e 2 - g0s 2
  let t7 : K := g1e 0 - g1s 0
  let t23 : K := d1 * t7
  let t8 : K := g0s 0 - g1s 0 + t4 - t23
  let t9 : K := g2e 0 - g2s 0
  let t20 : K := d2 * t9
  let t10 : K := g0s 0 - g2s 0 + t4 - t20
  let t11 : K := d0 * t6
  let t12 : K := g1e 1 - g1s 1
  let t24 : K := d1 * t12
  let t13 : K := g0s 1 - g1s 1 + t5 - t24
  let t14 : K := g1e 2 - g1s 2
  let t25 : K := d1 * t14
  let t15 : K := g0s 2 - g1s 2 + t11 - t25
  let t16 : K := g2e 1 - g2s 1
  let t21 : K := d2 * t16
  let t17 : K := g0s 1 - g2s 1 + t5 - t21
  let t18 : K := g2e 2 - g2s 2
  let t22 : K := d2 * t18
  let t19 : K := g0s 2 - g2s 2 + t11 - t22
  let t26 : K := g0s 2 + t11
  let t27 : K := g0s 1 + t5
  let t28 : K := g0s 0 + t4
  let t29 : K := t10 * t12
  let t30 : K := t29 - t7 * t17
  let t31 : K := t10 * t14
  let t32 : K := t31 - t7 * t19
  let t33 : K := t3 * t32 * (1 / 6)
  let t34 : K := t12 * t19
  let t35 : K := t2 * (t34 - t14 * t17) * (1 / 6)
  let t36 : K := t3 * t7
  let t37 : K := t26 * (t36 - t2 * t12) * (1 / 6)
  let t38 : K := t6 * t7
  let t39 : K := t38 - t2 * t14
  let t40 : K := t3 * t14
  let t41 : K := t40 - t6 * t12
  let t42 : K := t33 + t35 + t37 - t6 * t30 * (1 / 6) - t27 * t39 * (1 / 6) - t28 * t41 * (1 / 6)
  let t43 : K := t9 * t13
  let t44 : K := t43 - t8 * t16
  let t45 : K := t9 * t15
  let t46 : K := t3 * (t45 - t8 * t18) * (1 / 6)
  let t47 : K := t13 * t18
  let t48 : K := t47 - t15 * t16
  let t49 : K := t2 * t48 * (1 / 6)
  let t50 : K := t3 * t9
  let t51 : K := t50 - t2 * t16
  let t52 : K := t6 * t9
  let t53 : K := t27 * (t52 - t2 * t18) * (1 / 6)
  let t54 : K := t3 * t18
  let t55 : K := t54 - t6 * t16
  let t56 : K := t28 * t55 * (1 / 6)
  let t57 : K := t46 + t49 + t53 + t56 - t6 * t44 * (1 / 6) - t26 * t51 * (1 / 6)
  let t58 : K := t9 * t12
  let t59 : K := t26 * (t58 - t7 * t16) * (1 / 6)
  let t60 : K := t9 * t14
  let t61 : K := t60 - t7 * t18
  let t62 : K := t12 * t18
  let t63 : K := t62 - t14 * t16
  let t64 : K := t59 - t27 * t61 * (1 / 6) - t28 * t63 * (1 / 6)
  ![![t6 * (t3 * t8 - t3 * t10 - t2 * t13 + t2 * t17) * (-1 / 3) + t3 * (t6 * t8 - t6 * t10 -
        t2 * t15 + t2 * t19) * (1 / 3) + t2 * (t3 * t15 - t6 * t13 - t3 * t19 + t6 * t17) *
        (1 / 3), t42, t57],
    ![t42, A0 1 1, t64],
    ![t57, t64, A0 2 2]]

end Field

/-- `pow(x, 3.0 / 2.0)`. -/
noncomputable def pow32 (x : ℝ) : ℝ := x ^ (3 / 2 : ℝ)

/-- `Area_f` (RSVSmath_automatic.cpp:419-433). -/
noncomputable def areaF (p0 p1 p2 : Fin 3 → ℝ) (eps : ℝ) : ℝ :=
  let t3 : ℝ := p0 0 - p1 0
  let t4 : ℝ := p0 0 - p2 0
  let t6 : ℝ := p0 1 - p1 1
  let t9 : ℝ := p0 1 - p2 1
  let t2 : ℝ := -t4 * t6 + t3 * t9
  let t7 : ℝ := p0 2 - p2 2
  let t8 : ℝ := p0 2 - p1 2
  let t5 : ℝ := -t3 * t7 + t4 * t8
  let t10 : ℝ := t6 * t7 - t8 * t9
  Real.sqrt (t2 * t2 + t5 * t5 + t10 * t10 + eps) * (1 / 2)

/-- `Area_df` (RSVSmath_automatic.cpp:435-474), the row of the output array. -/
noncomputable def areaDf (p0 p1 p2 : Fin 3 → ℝ) (eps : ℝ) : Fin 9 → ℝ :=
  let t2 : ℝ := p0 0 - p1 0
  let t3 : ℝ := p0 0 - p2 0
  let t4 : ℝ := p0 1 - p2 1
  let t5 : ℝ := t2 * t4
  let t6 : ℝ := p0 1 - p1 1
  let t13 : ℝ := t3 * t6
  let t7 : ℝ := t5 - t13
  let t8 : ℝ := p0 2 - p2 2
  let t9 : ℝ := t2 * t8
  let t10 : ℝ := p0 2 - p1 2
  let t18 : ℝ := t3 * t10
  let t11 : ℝ := t9 - t18
  let t14 : ℝ := t6 * t8
  let t15 : ℝ := t4 * t10
  let t12 : ℝ := -t14 + t15
  let t16 : ℝ := p1 2 - p2 2
  let t17 : ℝ := t7 * t7
  let t19 : ℝ := t11 * t11
  let t20 : ℝ := t14 - t15
  let t21 : ℝ := p1 0 - p2 0
  let t22 : ℝ := p1 1 - p2 1
  let t23 : ℝ := t20 * t20
  let t24 : ℝ := t17 + t19 + t23
  let t25 : ℝ := 1 / Real.sqrt (t24 + eps)
  ![(t11 * t16 * 2 + t7 * t22 * 2) * 1 / Real.sqrt (t17 + t19 + t12 * t12 + eps) * (1 / 4),
    t25 * (t7 * t21 * 2 - t16 * t20 * 2) * (-1 / 4),
    t25 * (t11 * t21 * 2 + t20 * t22 * 2) * (-1 / 4),
    t25 * (t4 * t7 * 2 + t8 * t11 * 2) * (-1 / 4),
    t25 * (t3 * t7 * 2 - t8 * t20 * 2) * (1 / 4),
    t25 * (t3 * t11 * 2 + t4 * t20 * 2) * (1 / 4),
    t25 * (t6 * t7 * 2 + t10 * t11 * 2) * (1 / 4),
    t25 * (t2 * t7 * 2 - t10 * t20 * 2) * (-1 / 4),
    t25 * (t2 * t11 * 2 + t6 * t20 * 2) * (-1 / 4)]

/-- `Area_ddf` (RSVSmath_automatic.cpp:476-745); every entry is assigned. -/
noncomputable def areaDdf (p0 p1 p2 : Fin 3 → ℝ) (eps : ℝ) : Fin 9 → Fin 9 → ℝ :=
  let t2 : ℝ := p1 1 - p2 1
  let t3 : ℝ := p1 2 - p2 2
  let t5 : ℝ := p0 0 - p1 0
  let t6 : ℝ := p0 0 - p2 0
  let t8 : ℝ := p0 1 - p1 1
  let t11 : ℝ := p0 1 - p2 1
  let t13 : ℝ := t5 * t11
  let t14 : ℝ := t6 * t8
  let t4 : ℝ := t13 - t14
  let t9 : ℝ := p0 2 - p2 2
  let t10 : ℝ := p0 2 - p1 2
  let t15 : ℝ := t5 * t9
  let t16 : ℝ := t6 * t10
  let t7 : ℝ := -t15 + t16
  let t20 : ℝ := t8 * t9
  let t21 : ℝ := t10 * t11
  let t12 : ℝ := t20 - t21
  let t19 : ℝ := t15 - t16
  let t23 : ℝ := t2 * t4 * 2
  let t24 : ℝ := t3 * t19 * 2
  let t17 : ℝ := t23 + t24
  let t18 : ℝ := t4 * t4
  let t22 : ℝ := t12 * t12
  let t25 : ℝ := t19 * t19
  let t26 : ℝ := t18 + t22 + t25
  let t27 : ℝ := 1 / pow32 (t26 + eps)
  let t28 : ℝ := p1 0 - p2 0
  let t29 : ℝ := 1 / Real.sqrt (t26 + eps)
  let t30 : ℝ := t5 * t11 * 2
  let t31 : ℝ := t5 * t9 * 2
  let t32 : ℝ := t3 * t12 * 2
  let t37 : ℝ := t4 * t28 * 2
  let t33 : ℝ := t32 - t37
  let t34 : ℝ := t2 * t28 * t29 * (-1 / 2) - t17 * t27 * t33 * (1 / 8)
  let t35 : ℝ := t3 * t3
  let t36 : ℝ := t35 * 2
  let t38 : ℝ := t32 - t37
  let t39 : ℝ := t19 * t28 * 2
  let t40 : ℝ := t2 * t12 * 2
  let t41 : ℝ := t39 + t40
  let t42 : ℝ := t4 * t11 * 2
  let t43 : ℝ := t9 * t19 * 2
  let t44 : ℝ := t42 + t43
  let t45 : ℝ := t3 * t9 * 2
  let t46 : ℝ := t4 * t6 * 2
  let t70 : ℝ := t9 * t12 * 2
  let t47 : ℝ := t46 - t70
  let t48 : ℝ := t6 * t19 * 2
  let t49 : ℝ := t11 * t12 * 2
  let t50 : ℝ := t48 + t49
  let t51 : ℝ := t6 * t8 * 2
  let t52 : ℝ := t4 * t8 * 2
  let t53 : ℝ := t10 * t19 * 2
  let t54 : ℝ := t52 + t53
  let t55 : ℝ := t3 * t10 * 2
  let t56 : ℝ := t4 * t5 * 2
  let t75 : ℝ := t10 * t12 * 2
  let t57 : ℝ := t56 - t75
  let t58 : ℝ := t8 * t9 * 2
  let t59 : ℝ := t5 * t19 * 2
  let t60 : ℝ := t8 * t12 * 2
  let t61 : ℝ := t59 + t60
  let t62 : ℝ := t17 * t27 * t41 * (1 / 8)
  let t63 : ℝ := t62 - t3 * t28 * t29 * (1 / 2)
  let t64 : ℝ := t27 * t41 * (t32 - t37) * (1 / 8)
  let t65 : ℝ := t64 - t2 * t3 * t29 * (1 / 2)
  let t66 : ℝ := t28 * t28
  let t67 : ℝ := t66 * 2
  let t68 : ℝ := t2 * t2
  let t69 : ℝ := t68 * 2
  let t71 : ℝ := t6 * t28 * 2
  let t72 : ℝ := t2 * t11 * 2
  let t73 : ℝ := t6 * t10 * 2
  let t74 : ℝ := t10 * t11 * 2
  let t76 : ℝ := t5 * t28 * 2
  let t77 : ℝ := t2 * t8 * 2
  let t78 : ℝ := t45 + t72
  let t79 : ℝ := t17 * t27 * t44 * (1 / 8)
  let t80 : ℝ := t79 - t29 * t78 * (1 / 4)
  let t81 : ℝ := t11 * t28 * 2
  let t82 : ℝ := -t30 + t51 + t81
  let t83 : ℝ := t29 * t82 * (1 / 4)
  let t84 : ℝ := t27 * t44 * (t32 - t37) * (1 / 8)
  let t85 : ℝ := t83 + t84
  let t86 : ℝ := t9 * t28 * 2
  let t87 : ℝ := -t31 + t73 + t86
  let t88 : ℝ := t29 * t87 * (1 / 4)
  let t89 : ℝ := t88 - t27 * t41 * t44 * (1 / 8)
  let t90 : ℝ := t2 * t6 * 2
  let t91 : ℝ := t45 + t71
  let t92 : ℝ := t29 * t91 * (-1 / 4) - t27 * t33 * t47 * (1 / 8)
  let t93 : ℝ := t2 * t9 * 2
  let t94 : ℝ := -t58 + t74 + t93
  let t95 : ℝ := t29 * t94 * (1 / 4)
  let t96 : ℝ := t27 * t41 * t47 * (1 / 8)
  let t97 : ℝ := t95 + t96
  let t98 : ℝ := t27 * t44 * t47 * (1 / 8)
  let t99 : ℝ := t98 - t6 * t11 * t29 * (1 / 2)
  let t100 : ℝ := t9 * t9
  let t101 : ℝ := t100 * 2
  let t102 : ℝ := t9 * t10 * 2
  let t103 : ℝ := t3 * t6 * 2
  let t104 : ℝ := t3 * t11 * 2
  let t105 : ℝ := t71 + t72
  let t106 : ℝ := t27 * t41 * t50 * (1 / 8)
  let t107 : ℝ := t106 - t29 * t105 * (1 / 4)
  let t108 : ℝ := t27 * t44 * t50 * (1 / 8)
  let t109 : ℝ := t108 - t6 * t9 * t29 * (1 / 2)
  let t110 : ℝ := t9 * t11 * t29 * (-1 / 2) - t27 * t47 * t50 * (1 / 8)
  let t111 : ℝ := t6 * t6
  let t112 : ℝ := t111 * 2
  let t113 : ℝ := t11 * t11
  let t114 : ℝ := t113 * 2
  let t115 : ℝ := t5 * t6 * 2
  let t116 : ℝ := t8 * t11 * 2
  let t117 : ℝ := t55 + t77
  let t118 : ℝ := t29 * t117 * (1 / 4)
  let t119 : ℝ := t118 - t17 * t27 * t54 * (1 / 8)
  let t120 : ℝ := t8 * t28 * 2
  let t121 : ℝ := -t30 + t51 + t120
  let t122 : ℝ := t29 * t121 * (-1 / 4) - t27 * t33 * t54 * (1 / 8)
  let t123 : ℝ := t10 * t28 * 2
  let t124 : ℝ := -t31 + t73 + t123
  let t125 : ℝ := t27 * t41 * t54 * (1 / 8)
  let t126 : ℝ := t125 - t29 * t124 * (1 / 4)
  let t127 : ℝ := t102 + t116
  let t128 : ℝ := t27 * t44 * t54 * (1 / 8)
  let t129 : ℝ := t128 - t29 * t127 * (1 / 4)
  let t130 : ℝ := t30 - t6 * t8 * 4
  let t131 : ℝ := t29 * t130 * (-1 / 4) - t27 * t47 * t54 * (1 / 8)
  let t132 : ℝ := t31 - t6 * t10 * 4
  let t133 : ℝ := t29 * t132 * (-1 / 4) - t27 * t50 * t54 * (1 / 8)
  let t134 : ℝ := t2 * t5 * 2
  let t135 : ℝ := t17 * t27 * t57 * (1 / 8)
  let t136 : ℝ := t55 + t76
  let t137 : ℝ := t29 * t136 * (1 / 4)
  let t138 : ℝ := t27 * t57 * (t32 - t37) * (1 / 8)
  let t139 : ℝ := t137 + t138
  let t140 : ℝ := t2 * t10 * 2
  let t141 : ℝ := -t58 + t74 + t140
  let t142 : ℝ := t29 * t141 * (-1 / 4) - t27 * t41 * t57 * (1 / 8)
  let t143 : ℝ := t51 - t5 * t11 * 4
  let t144 : ℝ := t29 * t143 * (-1 / 4) - t27 * t44 * t57 * (1 / 8)
  let t145 : ℝ := t102 + t115
  let t146 : ℝ := t27 * t47 * t57 * (1 / 8)
  let t147 : ℝ := t146 - t29 * t145 * (1 / 4)
  let t148 : ℝ := t58 - t10 * t11 * 4
  let t149 : ℝ := t27 * t50 * t57 * (1 / 8)
  let t150 : ℝ := t149 - t29 * t148 * (1 / 4)
  let t151 : ℝ := t27 * t54 * t57 * (1 / 8)
  let t152 : ℝ := t151 - t5 * t8 * t29 * (1 / 2)
  let t153 : ℝ := t10 * t10
  let t154 : ℝ := t153 * 2
  let t155 : ℝ := t3 * t5 * 2
  let t156 : ℝ := t17 * t27 * t61 * (1 / 8)
  let t157 : ℝ := t3 * t8 * 2
  let t158 : ℝ := t27 * t61 * (t32 - t37) * (1 / 8)
  let t159 : ℝ := t76 + t77
  let t160 : ℝ := t29 * t159 * (1 / 4)
  let t161 : ℝ := t160 - t27 * t41 * t61 * (1 / 8)
  let t162 : ℝ := t73 - t5 * t9 * 4
  let t163 : ℝ := t29 * t162 * (-1 / 4) - t27 * t44 * t61 * (1 / 8)
  let t164 : ℝ := t74 - t8 * t9 * 4
  let t165 : ℝ := t27 * t47 * t61 * (1 / 8)
  let t166 : ℝ := t165 - t29 * t164 * (1 / 4)
  let t167 : ℝ := t115 + t116
  let t168 : ℝ := t27 * t50 * t61 * (1 / 8)
  let t169 : ℝ := t168 - t29 * t167 * (1 / 4)
  let t170 : ℝ := t27 * t54 * t61 * (1 / 8)
  let t171 : ℝ := t170 - t5 * t10 * t29 * (1 / 2)
  let t172 : ℝ := t8 * t10 * t29 * (-1 / 2) - t27 * t57 * t61 * (1 / 8)
  let t173 : ℝ := t5 * t5
  let t174 : ℝ := t173 * 2
  let t175 : ℝ := t8 * t8
  let t176 : ℝ := t175 * 2
  ![![(t36 + t69) * 1 / Real.sqrt (t18 + t22 + t7 * t7 + eps) * (1 / 4) - (t17 * t17) * t27 *
        (1 / 8), t34, t63, t80, t29 * (t30 + t90 - t6 * t8 * 2) * (1 / 4) - t17 * t27 * t47 *
        (1 / 8), t29 * (t31 + t103 - t6 * t10 * 2) * (1 / 4) - t17 * t27 * t50 * (1 / 8),
        t119, t135 - t29 * (t30 + t134 - t6 * t8 * 2) * (1 / 4), t156 - t29 * (t31 + t155 -
        t6 * t10 * 2) * (1 / 4)],
    ![t34, t29 * (t36 + t67) * (1 / 4) - t27 * (t38 * t38) * (1 / 8), t65, t85, t92, t29 * (t58 +
        t104 - t10 * t11 * 2) * (1 / 4) - t27 * t33 * t50 * (1 / 8), t122, t139, t158 - t29 *
        (t58 + t157 - t10 * t11 * 2) * (1 / 4)],
    ![t63, t65, t29 * (t67 + t69) * (1 / 4) - t27 * (t41 * t41) * (1 / 8), t89, t97, t107, t126,
        t142, t161],
    ![t80, t85, t89, t29 * (t101 + t114) * (1 / 4) - t27 * (t44 * t44) * (1 / 8), t99, t109,
        t129, t144, t163],
    ![t29 * (t30 - t51 + t90) * (1 / 4) - t17 * t27 * t47 * (1 / 8), t92, t97, t99, t29 * (t101 +
        t112) * (1 / 4) - t27 * (t47 * t47) * (1 / 8), t110, t131, t147, t166],
    ![t29 * (t31 - t73 + t103) * (1 / 4) - t17 * t27 * t50 * (1 / 8), t29 * (t58 - t74 + t104) *
        (1 / 4) - t27 * t33 * t50 * (1 / 8), t107, t109, t110, t29 * (t112 + t114) * (1 /
        4) - t27 * (t50 * t50) * (1 / 8), t133, t150, t169],
    ![t119, t122, t126, t129, t131, t133, t29 * (t154 + t176) * (1 / 4) - t27 * (t54 * t54) *
        (1 / 8), t152, t171],
    ![t135 - t29 * (t30 - t51 + t134) * (1 / 4), t139, t142, t144, t147, t150, t152, t29 *
        (t154 + t174) * (1 / 4) - t27 * (t57 * t57) * (1 / 8), t172],
    ![t156 - t29 * (t31 - t73 + t155) * (1 / 4), t158 - t29 * (t58 - t74 + t157) * (1 / 4), t161,
        t163, t166, t169, t171, t172, t29 * (t174 + t176) * (1 / 4) - t27 * (t61 * t61) *
        (1 / 8)]]

/-- `LengthEdge_f` (RSVSmath_automatic.cpp:747-754). -/
noncomputable def lengthF (p0 p1 : Fin 3 → ℝ) : ℝ :=
  let t2 : ℝ := p0 0 - p1 0
  let t3 : ℝ := p0 1 - p1 1
  let t4 : ℝ := p0 2 - p1 2
  Real.sqrt (t2 * t2 + t3 * t3 + t4 * t4)

/-- `LengthEdge_df` (RSVSmath_automatic.cpp:756-785), the row of the output array. -/
noncomputable def lengthDf (p0 p1 : Fin 3 → ℝ) : Fin 6 → ℝ :=
  let t2 : ℝ := p0 0 - p1 0
  let t3 : ℝ := p0 1 - p1 1
  let t4 : ℝ := p0 2 - p1 2
  let t5 : ℝ := t2 * t2
  let t6 : ℝ := t3 * t3
  let t7 : ℝ := t4 * t4
  let t8 : ℝ := t5 + t6 + t7
  let t9 : ℝ := 1 / Real.sqrt (t8)
  let t10 : ℝ := p0 0 * 2
  let t11 : ℝ := p1 0 * 2
  let t12 : ℝ := t10 - t11
  let t13 : ℝ := t9 * t12 * (1 / 2)
  let t14 : ℝ := p0 1 * 2
  let t15 : ℝ := p1 1 * 2
  let t16 : ℝ := t14 - t15
  let t17 : ℝ := t9 * t16 * (1 / 2)
  let t18 : ℝ := p0 2 * 2
  let t19 : ℝ := p1 2 * 2
  let t20 : ℝ := t18 - t19
  let t21 : ℝ := t9 * t20 * (1 / 2)
  ![t13,
    t17,
    t21,
    -t13,
    -t17,
    -t21]

/-- `LengthEdge_ddf` (RSVSmath_automatic.cpp:787-857); every entry is assigned. -/
noncomputable def lengthDdf (p0 p1 : Fin 3 → ℝ) : Fin 6 → Fin 6 → ℝ :=
  let t10 : ℝ := p0 0 * 2
  let t11 : ℝ := p1 0 * 2
  let t2 : ℝ := t10 - t11
  let t3 : ℝ := p0 0 - p1 0
  let t4 : ℝ := p0 1 - p1 1
  let t5 : ℝ := p0 2 - p1 2
  let t6 : ℝ := t3 * t3
  let t7 : ℝ := t4 * t4
  let t8 : ℝ := t5 * t5
  let t9 : ℝ := t6 + t7 + t8
  let t12 : ℝ := 1 / pow32 (t9)
  let t13 : ℝ := t2 * t2
  let t14 : ℝ := 1 / Real.sqrt (t9)
  let t15 : ℝ := p0 1 * 2
  let t16 : ℝ := p1 1 * 2
  let t17 : ℝ := t15 - t16
  let t18 : ℝ := p0 2 * 2
  let t19 : ℝ := p1 2 * 2
  let t20 : ℝ := t18 - t19
  let t21 : ℝ := t2 * t12 * t17 * (1 / 4)
  let t22 : ℝ := t17 * t17
  let t23 : ℝ := t2 * t12 * t20 * (1 / 4)
  let t24 : ℝ := t12 * t17 * t20 * (1 / 4)
  let t25 : ℝ := t20 * t20
  let t26 : ℝ := t12 * t13 * (1 / 4)
  let t27 : ℝ := -t14 + t26
  let t28 : ℝ := t12 * t22 * (1 / 4)
  let t29 : ℝ := -t14 + t28
  let t30 : ℝ := t12 * t25 * (1 / 4)
  let t31 : ℝ := -t14 + t30
  ![![t14 - t12 * t13 * (1 / 4), t2 * t12 * t17 * (-1 / 4), t2 * t12 * t20 * (-1 / 4), t27, t21,
        t23],
    ![-t21, t14 - t12 * t22 * (1 / 4), t12 * t17 * t20 * (-1 / 4), t21, t29, t24],
    ![-t23, -t24, t14 - t12 * t25 * (1 / 4), t23, t24, t31],
    ![t27, t21, t23, t14 - t26, -t21, -t23],
    ![t21, t29, t24, -t21, t14 - t28, -t24],
    ![t23, t24, t31, -t23, -t24, t14 - t30]]

/-- `rsvsmath_automatic_eps_surf` (RSVSmath_automatic.hpp:12) as initialised. -/
noncomputable def epsSurf : ℝ := 1 / 10 ^ 10

/-- What `Volume::Calc` (RSVSmath.cpp:311-344) leaves in `fun`, `jac` and `hes`; `hes` is the array
from before. -/
def volumeCalc {K : Type} [Field K] (p0 p1 p2 : Fin 3 → K) (hes : Fin 9 → Fin 9 → K) :
    K × (Fin 9 → K) × (Fin 9 → Fin 9 → K) :=
  (volumeF p0 p1 p2, volumeDf p0 p1 p2, volumeDdf p0 p1 p2 hes)

/-- One coordinate moved by a step (RSVSmath.cpp:393 and 396). -/
def bump {K : Type} [Field K] (v : Fin 3 → Fin 3 → K) (i j : Fin 3) (h : K) : Fin 3 → Fin 3 → K :=
  fun a b => if a = i ∧ b = j then v a b + h else v a b

/-- The loops of `Volume::CalcFD` (RSVSmath.cpp:389-398): the points as they are kept between the
iterations, and the gradient. -/
def volumeFDLoop {K : Type} [Field K] (f h : K) : List (Fin 3 × Fin 3) → (Fin 3 → Fin 3 → K) →
    (Fin 9 → K) → Fin 9 → K
  | [], _, jac => jac
  | (i, j) :: l, v, jac =>
      let w := bump v i j h
      volumeFDLoop f h l (bump w i j (-h)) fun k =>
        if (k : Nat) = i * 3 + j then (volumeF (w 0) (w 1) (w 2) - f) / h else jac k

/-- `Volume::CalcFD` (RSVSmath.cpp:346-400) with the step `fdStep` (`1e-6` at line 373): as `Calc`,
the gradient being overwritten. -/
def volumeCalcFD {K : Type} [Field K] (p0 p1 p2 : Fin 3 → K) (hes : Fin 9 → Fin 9 → K) (fdStep : K) :
    K × (Fin 9 → K) × (Fin 9 → Fin 9 → K) :=
  let c := volumeCalc p0 p1 p2 hes
  (c.1, volumeFDLoop c.1 fdStep
    [(0, 0), (0, 1), (0, 2), (1, 0), (1, 1), (1, 2), (2, 0), (2, 1), (2, 2)] ![p0, p1, p2] c.2.1, c.2.2)

/-- `Area::Calc` (RSVSmath.cpp:402-435): the default arguments of RSVSmath_automatic.hpp:34-39, zero
for the value and `eps`, the value of `rsvsmath_automatic_eps_surf`, for the derivatives. -/
noncomputable def areaCalc (p0 p1 p2 : Fin 3 → ℝ) (eps : ℝ) :
    ℝ × (Fin 9 → ℝ) × (Fin 9 → Fin 9 → ℝ) :=
  (areaF p0 p1 p2 0, areaDf p0 p1 p2 eps, areaDdf p0 p1 p2 eps)

/-- `LengthEdge::Calc` (RSVSmath.cpp:437-448). -/
noncomputable def lengthCalc (p0 p1 : Fin 3 → ℝ) : ℝ × (Fin 6 → ℝ) × (Fin 6 → Fin 6 → ℝ) :=
  (lengthF p0 p1, lengthDf p0 p1, lengthDdf p0 p1)

/-- `Volume2::Calc` (RSVSmath.cpp:754-768): the coordinates are the three positions along the edges
followed by their start and end points. -/
def volume2Calc {K : Type} [Field K] (c : Fin 7 → Fin 3 → K) (hes : Fin 3 → Fin 3 → K) :
    K × (Fin 3 → K) × (Fin 3 → Fin 3 → K) :=
  (volume2F (c 0 0) (c 0 1) (c 0 2) (c 1) (c 2) (c 3) (c 4) (c 5) (c 6),
    volume2Df (c 0 0) (c 0 1) (c 0 2) (c 1) (c 2) (c 3) (c 4) (c 5) (c 6),
    volume2Ddf (c 0 0) (c 0 1) (c 0 2) (c 1) (c 2) (c 3) (c 4) (c 5) (c 6) hes)

end RSVS.Math
