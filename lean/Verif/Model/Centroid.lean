import Verif.Model.Basic
import Verif.Model.RsvsMath

/-! # The centroid of a polygon and its derivatives

Model of `SurfCentroid::Calc` (SRCC/src/rsvs/RSVSmath.cpp:483-739) up to the Jacobian, and of the
generated code it calls.  The constants `rsvsmath_automatic_eps_centre` and
`rsvsmath_automatic_eps_centre2` are parameters `epsC` and `epsC2`.  The Hessian is not modelled. -/

namespace RSVS.Math

/-- `SurfCentroidSelf_df` (RSVSmath_automatic.cpp:3036-3115): the derivatives with respect
to the middle one of three consecutive points. -/
noncomputable def selfDf (x y z : Fin 3 → ℝ) (totD X_dot_d Y_dot_d Z_dot_d epsC : ℝ) :
    Fin 3 → Fin 3 → ℝ :=
  let t2 : ℝ := x 0 - x 1
  let t3 : ℝ := y 0 - y 1
  let t4 : ℝ := z 0 - z 1
  let t5 : ℝ := x 1 - x 2
  let t6 : ℝ := y 1 - y 2
  let t7 : ℝ := z 1 - z 2
  let t8 : ℝ := t2 * t2
  let t9 : ℝ := t3 * t3
  let t10 : ℝ := t4 * t4
  let t11 : ℝ := t8 + t9 + t10
  let t12 : ℝ := x 1 * (1 / 2)
  let t13 : ℝ := t5 * t5
  let t14 : ℝ := t6 * t6
  let t15 : ℝ := t7 * t7
  let t16 : ℝ := t13 + t14 + t15
  let t17 : ℝ := x 0 * 2
  let t18 : ℝ := x 1 * 2
  let t19 : ℝ := 1 / Real.sqrt (epsC + t11)
  let t35 : ℝ := x 2 * 2
  let t20 : ℝ := t18 - t35
  let t21 : ℝ := 1 / Real.sqrt (epsC + t16)
  let t22 : ℝ := 1 / totD
  let t23 : ℝ := x 0 * (1 / 2)
  let t24 : ℝ := t12 + t23
  let t25 : ℝ := x 2 * (1 / 2)
  let t26 : ℝ := t12 + t25
  let t27 : ℝ := 1 / (totD * totD)
  let t28 : ℝ := y 0 * 2
  let t29 : ℝ := y 1 * 2
  let t46 : ℝ := y 2 * 2
  let t30 : ℝ := t29 - t46
  let t31 : ℝ := z 0 * 2
  let t32 : ℝ := z 1 * 2
  let t52 : ℝ := z 2 * 2
  let t33 : ℝ := t32 - t52
  let t34 : ℝ := t17 - t18
  let t36 : ℝ := y 1 * (1 / 2)
  let t37 : ℝ := t20 * t21 * (1 / 2)
  let t56 : ℝ := t19 * t34 * (1 / 2)
  let t38 : ℝ := t37 - t56
  let t39 : ℝ := Real.sqrt (t11)
  let t40 : ℝ := t39 * (1 / 2)
  let t41 : ℝ := Real.sqrt (t16)
  let t42 : ℝ := t41 * (1 / 2)
  let t43 : ℝ := t28 - t29
  let t44 : ℝ := y 0 * (1 / 2)
  let t45 : ℝ := t36 + t44
  let t47 : ℝ := y 2 * (1 / 2)
  let t48 : ℝ := t36 + t47
  let t49 : ℝ := t21 * t30 * (1 / 2)
  let t61 : ℝ := t19 * t43 * (1 / 2)
  let t50 : ℝ := t49 - t61
  let t51 : ℝ := t31 - t32
  let t53 : ℝ := t21 * t33 * (1 / 2)
  let t62 : ℝ := t19 * t51 * (1 / 2)
  let t54 : ℝ := t53 - t62
  let t55 : ℝ := z 1 * (1 / 2)
  let t57 : ℝ := z 0 * (1 / 2)
  let t58 : ℝ := t55 + t57
  let t59 : ℝ := z 2 * (1 / 2)
  let t60 : ℝ := t55 + t59
  ![![t22 * (t40 + t42 + t20 * t21 * t26 * (1 / 2) - t19 * t24 * (t17 - x 1 * 2) * (1 / 2)) -
        X_dot_d * t27 * t38,
      t22 * (t21 * t26 * t30 * (1 / 2) - t19 * t24 * (t28 - y 1 * 2) * (1 / 2)) - X_dot_d * t27 *
        t50,
      t22 * (t21 * t26 * t33 * (1 / 2) - t19 * t24 * (t31 - z 1 * 2) * (1 / 2)) - X_dot_d * t27 *
        t54],
    ![t22 * (t20 * t21 * t48 * (1 / 2) - t19 * t34 * t45 * (1 / 2)) - Y_dot_d * t27 * t38,
      t22 * (t40 + t42 + t21 * t30 * t48 * (1 / 2) - t19 * t43 * t45 * (1 / 2)) - Y_dot_d * t27 *
        t50,
      t22 * (t21 * t33 * t48 * (1 / 2) - t19 * t45 * t51 * (1 / 2)) - Y_dot_d * t27 * t54],
    ![t22 * (t20 * t21 * t60 * (1 / 2) - t19 * t34 * t58 * (1 / 2)) - Z_dot_d * t27 * t38,
      t22 * (t21 * t30 * t60 * (1 / 2) - t19 * t43 * t58 * (1 / 2)) - Z_dot_d * t27 * t50,
      t22 * (t40 + t42 + t21 * t33 * t60 * (1 / 2) - t19 * t51 * t58 * (1 / 2)) - Z_dot_d * t27 *
        t54]]

/-- `SurfCentroid4_df` (RSVSmath_automatic.cpp:1272-1458), for 4 points. -/
noncomputable def centroid4Df (x y z : Fin 4 → ℝ) (totD X_dot_d Y_dot_d Z_dot_d epsC epsC2 : ℝ) :
    Fin 3 → Fin 12 → ℝ :=
  let t2 : ℝ := x 0 - x 1
  let t3 : ℝ := y 0 - y 1
  let t4 : ℝ := z 0 - z 1
  let t5 : ℝ := x 0 - x 3
  let t6 : ℝ := y 0 - y 3
  let t7 : ℝ := z 0 - z 3
  let t8 : ℝ := t2 * t2
  let t9 : ℝ := t3 * t3
  let t10 : ℝ := t4 * t4
  let t11 : ℝ := t8 + t9 + t10 + epsC2
  let t12 : ℝ := x 0 * 2
  let t13 : ℝ := x 0 * (1 / 2)
  let t14 : ℝ := t5 * t5
  let t15 : ℝ := t6 * t6
  let t16 : ℝ := t7 * t7
  let t17 : ℝ := t14 + t15 + t16 + epsC2
  let t28 : ℝ := x 1 * 2
  let t18 : ℝ := t12 - t28
  let t19 : ℝ := 1 / Real.sqrt (epsC + t11)
  let t49 : ℝ := x 3 * 2
  let t20 : ℝ := t12 - t49
  let t21 : ℝ := 1 / Real.sqrt (epsC + t17)
  let t22 : ℝ := 1 / totD
  let t23 : ℝ := Real.sqrt (t11)
  let t24 : ℝ := t23 * (1 / 2)
  let t25 : ℝ := x 1 - x 2
  let t26 : ℝ := y 1 - y 2
  let t27 : ℝ := z 1 - z 2
  let t29 : ℝ := x 1 * (1 / 2)
  let t30 : ℝ := t13 + t29
  let t31 : ℝ := t18 * t19 * t30 * (1 / 2)
  let t32 : ℝ := t25 * t25
  let t33 : ℝ := t26 * t26
  let t34 : ℝ := t27 * t27
  let t35 : ℝ := t32 + t33 + t34 + epsC2
  let t36 : ℝ := 1 / (totD * totD)
  let t37 : ℝ := t18 * t19 * (1 / 2)
  let t45 : ℝ := x 2 * 2
  let t38 : ℝ := t28 - t45
  let t39 : ℝ := 1 / Real.sqrt (epsC + t35)
  let t40 : ℝ := Real.sqrt (t35)
  let t41 : ℝ := t40 * (1 / 2)
  let t42 : ℝ := x 2 - x 3
  let t43 : ℝ := y 2 - y 3
  let t44 : ℝ := z 2 - z 3
  let t46 : ℝ := x 2 * (1 / 2)
  let t47 : ℝ := t29 + t46
  let t48 : ℝ := t38 * t39 * t47 * (1 / 2)
  let t50 : ℝ := x 3 * (1 / 2)
  let t51 : ℝ := t42 * t42
  let t52 : ℝ := t43 * t43
  let t53 : ℝ := t44 * t44
  let t54 : ℝ := t51 + t52 + t53 + epsC2
  let t55 : ℝ := t45 - t49
  let t56 : ℝ := 1 / Real.sqrt (epsC + t54)
  let t57 : ℝ := Real.sqrt (t17)
  let t58 : ℝ := t57 * (1 / 2)
  let t59 : ℝ := Real.sqrt (t54)
  let t60 : ℝ := t59 * (1 / 2)
  let t61 : ℝ := t13 + t50
  let t62 : ℝ := t20 * t21 * t61 * (1 / 2)
  let t63 : ℝ := t46 + t50
  let t64 : ℝ := t55 * t56 * t63 * (1 / 2)
  let t65 : ℝ := t20 * t21 * (1 / 2)
  let t66 : ℝ := y 0 * 2
  let t69 : ℝ := y 1 * 2
  let t67 : ℝ := t66 - t69
  let t74 : ℝ := y 3 * 2
  let t68 : ℝ := t66 - t74
  let t70 : ℝ := t19 * t30 * t67 * (1 / 2)
  let t71 : ℝ := t19 * t67 * (1 / 2)
  let t73 : ℝ := y 2 * 2
  let t72 : ℝ := t69 - t73
  let t75 : ℝ := t73 - t74
  let t76 : ℝ := t21 * t61 * t68 * (1 / 2)
  let t77 : ℝ := t21 * t68 * (1 / 2)
  let t78 : ℝ := z 0 * 2
  let t81 : ℝ := z 1 * 2
  let t79 : ℝ := t78 - t81
  let t86 : ℝ := z 3 * 2
  let t80 : ℝ := t78 - t86
  let t82 : ℝ := t19 * t30 * t79 * (1 / 2)
  let t83 : ℝ := t19 * t79 * (1 / 2)
  let t85 : ℝ := z 2 * 2
  let t84 : ℝ := t81 - t85
  let t87 : ℝ := t85 - t86
  let t88 : ℝ := t21 * t61 * t80 * (1 / 2)
  let t89 : ℝ := t21 * t80 * (1 / 2)
  let t90 : ℝ := y 0 * (1 / 2)
  let t91 : ℝ := t37 + t65
  let t92 : ℝ := y 1 * (1 / 2)
  let t93 : ℝ := t90 + t92
  let t94 : ℝ := t18 * t19 * t93 * (1 / 2)
  let t95 : ℝ := t38 * t39 * (1 / 2)
  let t96 : ℝ := y 2 * (1 / 2)
  let t97 : ℝ := t92 + t96
  let t98 : ℝ := y 3 * (1 / 2)
  let t99 : ℝ := t55 * t56 * (1 / 2)
  let t100 : ℝ := t90 + t98
  let t101 : ℝ := t20 * t21 * t100 * (1 / 2)
  let t102 : ℝ := t96 + t98
  let t103 : ℝ := t65 + t99
  let t104 : ℝ := t71 + t77
  let t105 : ℝ := t19 * t67 * t93 * (1 / 2)
  let t106 : ℝ := t39 * t72 * (1 / 2)
  let t107 : ℝ := t39 * t72 * t97 * (1 / 2)
  let t108 : ℝ := t56 * t75 * (1 / 2)
  let t109 : ℝ := t21 * t68 * t100 * (1 / 2)
  let t110 : ℝ := t56 * t75 * t102 * (1 / 2)
  let t111 : ℝ := t77 + t108
  let t112 : ℝ := t83 + t89
  let t113 : ℝ := t19 * t79 * t93 * (1 / 2)
  let t114 : ℝ := t39 * t84 * (1 / 2)
  let t115 : ℝ := t56 * t87 * (1 / 2)
  let t116 : ℝ := t21 * t80 * t100 * (1 / 2)
  let t117 : ℝ := t89 + t115
  let t118 : ℝ := z 0 * (1 / 2)
  let t119 : ℝ := z 1 * (1 / 2)
  let t120 : ℝ := t118 + t119
  let t121 : ℝ := t18 * t19 * t120 * (1 / 2)
  let t122 : ℝ := t37 - t95
  let t123 : ℝ := z 2 * (1 / 2)
  let t124 : ℝ := t119 + t123
  let t125 : ℝ := z 3 * (1 / 2)
  let t126 : ℝ := t95 - t99
  let t127 : ℝ := t118 + t125
  let t128 : ℝ := t20 * t21 * t127 * (1 / 2)
  let t129 : ℝ := t123 + t125
  let t130 : ℝ := t19 * t67 * t120 * (1 / 2)
  let t131 : ℝ := t71 - t106
  let t132 : ℝ := t106 - t108
  let t133 : ℝ := t21 * t68 * t127 * (1 / 2)
  let t134 : ℝ := t19 * t79 * t120 * (1 / 2)
  let t135 : ℝ := t83 - t114
  let t136 : ℝ := t39 * t84 * t124 * (1 / 2)
  let t137 : ℝ := t114 - t115
  let t138 : ℝ := t21 * t80 * t127 * (1 / 2)
  let t139 : ℝ := t56 * t87 * t129 * (1 / 2)
  ![![t22 * (t24 + t31 + t58 + t62) - X_dot_d * t36 * t91,
      t22 * (t24 - t31 + t41 + t48) + X_dot_d * t36 * (t37 - t38 * t39 * (1 / 2)),
      t22 * (t41 - t48 + t60 + t64) + X_dot_d * t36 * (t95 - t55 * t56 * (1 / 2)),
      t22 * (t58 + t60 - t62 - t64) + X_dot_d * t36 * t103,
      t22 * (t70 + t76) - X_dot_d * t36 * t104,
      -t22 * (t70 - t39 * t47 * t72 * (1 / 2)) + X_dot_d * t36 * (t71 - t39 * t72 * (1 / 2)),
      -t22 * (t39 * t47 * t72 * (1 / 2) - t56 * t63 * t75 * (1 / 2)) + X_dot_d * t36 * (t106 -
        t56 * t75 * (1 / 2)),
      -t22 * (t76 + t56 * t63 * t75 * (1 / 2)) + X_dot_d * t36 * t111,
      t22 * (t82 + t88) - X_dot_d * t36 * t112,
      -t22 * (t82 - t39 * t47 * t84 * (1 / 2)) + X_dot_d * t36 * (t83 - t39 * t84 * (1 / 2)),
      -t22 * (t39 * t47 * t84 * (1 / 2) - t56 * t63 * t87 * (1 / 2)) + X_dot_d * t36 * (t114 -
        t56 * t87 * (1 / 2)),
      -t22 * (t88 + t56 * t63 * t87 * (1 / 2)) + X_dot_d * t36 * t117],
    ![t22 * (t94 + t101) - Y_dot_d * t36 * t91,
      -t22 * (t94 - t38 * t39 * t97 * (1 / 2)) + Y_dot_d * t36 * t122,
      -t22 * (t38 * t39 * t97 * (1 / 2) - t55 * t56 * t102 * (1 / 2)) + Y_dot_d * t36 * t126,
      -t22 * (t101 + t55 * t56 * t102 * (1 / 2)) + Y_dot_d * t36 * t103,
      t22 * (t24 + t58 + t105 + t109) - Y_dot_d * t36 * t104,
      t22 * (t24 + t41 - t105 + t107) + Y_dot_d * t36 * t131,
      t22 * (t41 + t60 - t107 + t110) + Y_dot_d * t36 * t132,
      t22 * (t58 + t60 - t109 - t110) + Y_dot_d * t36 * t111,
      t22 * (t113 + t116) - Y_dot_d * t36 * t112,
      -t22 * (t113 - t39 * t84 * t97 * (1 / 2)) + Y_dot_d * t36 * t135,
      -t22 * (t39 * t84 * t97 * (1 / 2) - t56 * t87 * t102 * (1 / 2)) + Y_dot_d * t36 * t137,
      -t22 * (t116 + t56 * t87 * t102 * (1 / 2)) + Y_dot_d * t36 * t117],
    ![t22 * (t121 + t128) - Z_dot_d * t36 * t91,
      -t22 * (t121 - t38 * t39 * t124 * (1 / 2)) + Z_dot_d * t36 * t122,
      -t22 * (t38 * t39 * t124 * (1 / 2) - t55 * t56 * t129 * (1 / 2)) + Z_dot_d * t36 * t126,
      -t22 * (t128 + t55 * t56 * t129 * (1 / 2)) + Z_dot_d * t36 * t103,
      t22 * (t130 + t133) - Z_dot_d * t36 * t104,
      -t22 * (t130 - t39 * t72 * t124 * (1 / 2)) + Z_dot_d * t36 * t131,
      -t22 * (t39 * t72 * t124 * (1 / 2) - t56 * t75 * t129 * (1 / 2)) + Z_dot_d * t36 * t132,
      -t22 * (t133 + t56 * t75 * t129 * (1 / 2)) + Z_dot_d * t36 * t111,
      t22 * (t24 + t58 + t134 + t138) - Z_dot_d * t36 * t112,
      t22 * (t24 + t41 - t134 + t136) + Z_dot_d * t36 * t135,
      t22 * (t41 + t60 - t136 + t139) + Z_dot_d * t36 * t137,
      t22 * (t58 + t60 - t138 - t139) + Z_dot_d * t36 * t117]]

/-- `SurfCentroid5_df` (RSVSmath_automatic.cpp:1470-1700), for 5 points. -/
noncomputable def centroid5Df (x y z : Fin 5 → ℝ) (totD X_dot_d Y_dot_d Z_dot_d epsC epsC2 : ℝ) :
    Fin 3 → Fin 15 → ℝ :=
  let t2 : ℝ := x 0 - x 1
  let t3 : ℝ := y 0 - y 1
  let t4 : ℝ := z 0 - z 1
  let t5 : ℝ := x 0 - x 4
  let t6 : ℝ := y 0 - y 4
  let t7 : ℝ := z 0 - z 4
  let t8 : ℝ := t2 * t2
  let t9 : ℝ := t3 * t3
  let t10 : ℝ := t4 * t4
  let t11 : ℝ := t8 + t9 + t10 + epsC2
  let t12 : ℝ := x 0 * 2
  let t13 : ℝ := x 0 * (1 / 2)
  let t14 : ℝ := t5 * t5
  let t15 : ℝ := t6 * t6
  let t16 : ℝ := t7 * t7
  let t17 : ℝ := t14 + t15 + t16 + epsC2
  let t28 : ℝ := x 1 * 2
  let t18 : ℝ := t12 - t28
  let t19 : ℝ := 1 / Real.sqrt (epsC + t11)
  let t64 : ℝ := x 4 * 2
  let t20 : ℝ := t12 - t64
  let t21 : ℝ := 1 / Real.sqrt (epsC + t17)
  let t22 : ℝ := 1 / totD
  let t23 : ℝ := Real.sqrt (t11)
  let t24 : ℝ := t23 * (1 / 2)
  let t25 : ℝ := x 1 - x 2
  let t26 : ℝ := y 1 - y 2
  let t27 : ℝ := z 1 - z 2
  let t29 : ℝ := x 1 * (1 / 2)
  let t30 : ℝ := t13 + t29
  let t31 : ℝ := t18 * t19 * t30 * (1 / 2)
  let t32 : ℝ := t25 * t25
  let t33 : ℝ := t26 * t26
  let t34 : ℝ := t27 * t27
  let t35 : ℝ := t32 + t33 + t34 + epsC2
  let t36 : ℝ := 1 / (totD * totD)
  let t37 : ℝ := t18 * t19 * (1 / 2)
  let t45 : ℝ := x 2 * 2
  let t38 : ℝ := t28 - t45
  let t39 : ℝ := 1 / Real.sqrt (epsC + t35)
  let t40 : ℝ := Real.sqrt (t35)
  let t41 : ℝ := t40 * (1 / 2)
  let t42 : ℝ := x 2 - x 3
  let t43 : ℝ := y 2 - y 3
  let t44 : ℝ := z 2 - z 3
  let t46 : ℝ := x 2 * (1 / 2)
  let t47 : ℝ := t29 + t46
  let t48 : ℝ := t38 * t39 * t47 * (1 / 2)
  let t49 : ℝ := t42 * t42
  let t50 : ℝ := t43 * t43
  let t51 : ℝ := t44 * t44
  let t52 : ℝ := t49 + t50 + t51 + epsC2
  let t60 : ℝ := x 3 * 2
  let t53 : ℝ := t45 - t60
  let t54 : ℝ := 1 / Real.sqrt (epsC + t52)
  let t55 : ℝ := Real.sqrt (t52)
  let t56 : ℝ := t55 * (1 / 2)
  let t57 : ℝ := x 3 - x 4
  let t58 : ℝ := y 3 - y 4
  let t59 : ℝ := z 3 - z 4
  let t61 : ℝ := x 3 * (1 / 2)
  let t62 : ℝ := t46 + t61
  let t63 : ℝ := t53 * t54 * t62 * (1 / 2)
  let t65 : ℝ := x 4 * (1 / 2)
  let t66 : ℝ := t57 * t57
  let t67 : ℝ := t58 * t58
  let t68 : ℝ := t59 * t59
  let t69 : ℝ := t66 + t67 + t68 + epsC2
  let t70 : ℝ := t60 - t64
  let t71 : ℝ := 1 / Real.sqrt (epsC + t69)
  let t72 : ℝ := Real.sqrt (t17)
  let t73 : ℝ := t72 * (1 / 2)
  let t74 : ℝ := Real.sqrt (t69)
  let t75 : ℝ := t74 * (1 / 2)
  let t76 : ℝ := t13 + t65
  let t77 : ℝ := t20 * t21 * t76 * (1 / 2)
  let t78 : ℝ := t61 + t65
  let t79 : ℝ := t70 * t71 * t78 * (1 / 2)
  let t80 : ℝ := t20 * t21 * (1 / 2)
  let t81 : ℝ := y 0 * 2
  let t84 : ℝ := y 1 * 2
  let t82 : ℝ := t81 - t84
  let t91 : ℝ := y 4 * 2
  let t83 : ℝ := t81 - t91
  let t85 : ℝ := t19 * t30 * t82 * (1 / 2)
  let t86 : ℝ := t19 * t82 * (1 / 2)
  let t88 : ℝ := y 2 * 2
  let t87 : ℝ := t84 - t88
  let t90 : ℝ := y 3 * 2
  let t89 : ℝ := t88 - t90
  let t92 : ℝ := t90 - t91
  let t93 : ℝ := t21 * t76 * t83 * (1 / 2)
  let t94 : ℝ := t21 * t83 * (1 / 2)
  let t95 : ℝ := z 0 * 2
  let t98 : ℝ := z 1 * 2
  let t96 : ℝ := t95 - t98
  let t105 : ℝ := z 4 * 2
  let t97 : ℝ := t95 - t105
  let t99 : ℝ := t19 * t30 * t96 * (1 / 2)
  let t100 : ℝ := t19 * t96 * (1 / 2)
  let t102 : ℝ := z 2 * 2
  let t101 : ℝ := t98 - t102
  let t104 : ℝ := z 3 * 2
  let t103 : ℝ := t102 - t104
  let t106 : ℝ := t104 - t105
  let t107 : ℝ := t21 * t76 * t97 * (1 / 2)
  let t108 : ℝ := t21 * t97 * (1 / 2)
  let t109 : ℝ := y 0 * (1 / 2)
  let t110 : ℝ := t37 + t80
  let t111 : ℝ := y 1 * (1 / 2)
  let t112 : ℝ := t109 + t111
  let t113 : ℝ := t18 * t19 * t112 * (1 / 2)
  let t114 : ℝ := t38 * t39 * (1 / 2)
  let t115 : ℝ := y 2 * (1 / 2)
  let t116 : ℝ := t111 + t115
  let t117 : ℝ := t53 * t54 * (1 / 2)
  let t118 : ℝ := y 3 * (1 / 2)
  let t119 : ℝ := t115 + t118
  let t120 : ℝ := y 4 * (1 / 2)
  let t121 : ℝ := t70 * t71 * (1 / 2)
  let t122 : ℝ := t109 + t120
  let t123 : ℝ := t20 * t21 * t122 * (1 / 2)
  let t124 : ℝ := t118 + t120
  let t125 : ℝ := t80 + t121
  let t126 : ℝ := t86 + t94
  let t127 : ℝ := t19 * t82 * t112 * (1 / 2)
  let t128 : ℝ := t39 * t87 * (1 / 2)
  let t129 : ℝ := t39 * t87 * t116 * (1 / 2)
  let t130 : ℝ := t54 * t89 * (1 / 2)
  let t131 : ℝ := t54 * t89 * t119 * (1 / 2)
  let t132 : ℝ := t71 * t92 * (1 / 2)
  let t133 : ℝ := t21 * t83 * t122 * (1 / 2)
  let t134 : ℝ := t71 * t92 * t124 * (1 / 2)
  let t135 : ℝ := t94 + t132
  let t136 : ℝ := t100 + t108
  let t137 : ℝ := t19 * t96 * t112 * (1 / 2)
  let t138 : ℝ := t39 * t101 * (1 / 2)
  let t139 : ℝ := t54 * t103 * (1 / 2)
  let t140 : ℝ := t71 * t106 * (1 / 2)
  let t141 : ℝ := t21 * t97 * t122 * (1 / 2)
  let t142 : ℝ := t108 + t140
  let t143 : ℝ := z 0 * (1 / 2)
  let t144 : ℝ := z 1 * (1 / 2)
  let t145 : ℝ := t143 + t144
  let t146 : ℝ := t18 * t19 * t145 * (1 / 2)
  let t147 : ℝ := t37 - t114
  let t148 : ℝ := z 2 * (1 / 2)
  let t149 : ℝ := t144 + t148
  let t150 : ℝ := t114 - t117
  let t151 : ℝ := z 3 * (1 / 2)
  let t152 : ℝ := t148 + t151
  let t153 : ℝ := z 4 * (1 / 2)
  let t154 : ℝ := t117 - t121
  let t155 : ℝ := t143 + t153
  let t156 : ℝ := t20 * t21 * t155 * (1 / 2)
  let t157 : ℝ := t151 + t153
  let t158 : ℝ := t19 * t82 * t145 * (1 / 2)
  let t159 : ℝ := t86 - t128
  let t160 : ℝ := t128 - t130
  let t161 : ℝ := t130 - t132
  let t162 : ℝ := t21 * t83 * t155 * (1 / 2)
  let t163 : ℝ := t19 * t96 * t145 * (1 / 2)
  let t164 : ℝ := t100 - t138
  let t165 : ℝ := t39 * t101 * t149 * (1 / 2)
  let t166 : ℝ := t138 - t139
  let t167 : ℝ := t54 * t103 * t152 * (1 / 2)
  let t168 : ℝ := t139 - t140
  let t169 : ℝ := t21 * t97 * t155 * (1 / 2)
  let t170 : ℝ := t71 * t106 * t157 * (1 / 2)
  ![![t22 * (t24 + t31 + t73 + t77) - X_dot_d * t36 * t110,
      t22 * (t24 - t31 + t41 + t48) + X_dot_d * t36 * (t37 - t38 * t39 * (1 / 2)),
      t22 * (t41 - t48 + t56 + t63) + X_dot_d * t36 * (t114 - t53 * t54 * (1 / 2)),
      t22 * (t56 - t63 + t75 + t79) + X_dot_d * t36 * (t117 - t70 * t71 * (1 / 2)),
      t22 * (t73 + t75 - t77 - t79) + X_dot_d * t36 * t125,
      t22 * (t85 + t93) - X_dot_d * t36 * t126,
      -t22 * (t85 - t39 * t47 * t87 * (1 / 2)) + X_dot_d * t36 * (t86 - t39 * t87 * (1 / 2)),
      -t22 * (t39 * t47 * t87 * (1 / 2) - t54 * t62 * t89 * (1 / 2)) + X_dot_d * t36 * (t128 -
        t54 * t89 * (1 / 2)),
      -t22 * (t54 * t62 * t89 * (1 / 2) - t71 * t78 * t92 * (1 / 2)) + X_dot_d * t36 * (t130 -
        t71 * t92 * (1 / 2)),
      -t22 * (t93 + t71 * t78 * t92 * (1 / 2)) + X_dot_d * t36 * t135,
      t22 * (t99 + t107) - X_dot_d * t36 * t136,
      -t22 * (t99 - t39 * t47 * t101 * (1 / 2)) + X_dot_d * t36 * (t100 - t39 * t101 * (1 / 2)),
      -t22 * (t39 * t47 * t101 * (1 / 2) - t54 * t62 * t103 * (1 / 2)) + X_dot_d * t36 * (t138 -
        t54 * t103 * (1 / 2)),
      -t22 * (t54 * t62 * t103 * (1 / 2) - t71 * t78 * t106 * (1 / 2)) + X_dot_d * t36 * (t139 -
        t71 * t106 * (1 / 2)),
      -t22 * (t107 + t71 * t78 * t106 * (1 / 2)) + X_dot_d * t36 * t142],
    ![t22 * (t113 + t123) - Y_dot_d * t36 * t110,
      -t22 * (t113 - t38 * t39 * t116 * (1 / 2)) + Y_dot_d * t36 * t147,
      -t22 * (t38 * t39 * t116 * (1 / 2) - t53 * t54 * t119 * (1 / 2)) + Y_dot_d * t36 * t150,
      -t22 * (t53 * t54 * t119 * (1 / 2) - t70 * t71 * t124 * (1 / 2)) + Y_dot_d * t36 * t154,
      -t22 * (t123 + t70 * t71 * t124 * (1 / 2)) + Y_dot_d * t36 * t125,
      t22 * (t24 + t73 + t127 + t133) - Y_dot_d * t36 * t126,
      t22 * (t24 + t41 - t127 + t129) + Y_dot_d * t36 * t159,
      t22 * (t41 + t56 - t129 + t131) + Y_dot_d * t36 * t160,
      t22 * (t56 + t75 - t131 + t134) + Y_dot_d * t36 * t161,
      t22 * (t73 + t75 - t133 - t134) + Y_dot_d * t36 * t135,
      t22 * (t137 + t141) - Y_dot_d * t36 * t136,
      -t22 * (t137 - t39 * t101 * t116 * (1 / 2)) + Y_dot_d * t36 * t164,
      -t22 * (t39 * t101 * t116 * (1 / 2) - t54 * t103 * t119 * (1 / 2)) + Y_dot_d * t36 * t166,
      -t22 * (t54 * t103 * t119 * (1 / 2) - t71 * t106 * t124 * (1 / 2)) + Y_dot_d * t36 * t168,
      -t22 * (t141 + t71 * t106 * t124 * (1 / 2)) + Y_dot_d * t36 * t142],
    ![t22 * (t146 + t156) - Z_dot_d * t36 * t110,
      -t22 * (t146 - t38 * t39 * t149 * (1 / 2)) + Z_dot_d * t36 * t147,
      -t22 * (t38 * t39 * t149 * (1 / 2) - t53 * t54 * t152 * (1 / 2)) + Z_dot_d * t36 * t150,
      -t22 * (t53 * t54 * t152 * (1 / 2) - t70 * t71 * t157 * (1 / 2)) + Z_dot_d * t36 * t154,
      -t22 * (t156 + t70 * t71 * t157 * (1 / 2)) + Z_dot_d * t36 * t125,
      t22 * (t158 + t162) - Z_dot_d * t36 * t126,
      -t22 * (t158 - t39 * t87 * t149 * (1 / 2)) + Z_dot_d * t36 * t159,
      -t22 * (t39 * t87 * t149 * (1 / 2) - t54 * t89 * t152 * (1 / 2)) + Z_dot_d * t36 * t160,
      -t22 * (t54 * t89 * t152 * (1 / 2) - t71 * t92 * t157 * (1 / 2)) + Z_dot_d * t36 * t161,
      -t22 * (t162 + t71 * t92 * t157 * (1 / 2)) + Z_dot_d * t36 * t135,
      t22 * (t24 + t73 + t163 + t169) - Z_dot_d * t36 * t136,
      t22 * (t24 + t41 - t163 + t165) + Z_dot_d * t36 * t164,
      t22 * (t41 + t56 - t165 + t167) + Z_dot_d * t36 * t166,
      t22 * (t56 + t75 - t167 + t170) + Z_dot_d * t36 * t168,
      t22 * (t73 + t75 - t169 - t170) + Z_dot_d * t36 * t142]]

/-- `SurfCentroid6_df` (RSVSmath_automatic.cpp:1712-1986), for 6 points. -/
noncomputable def centroid6Df (x y z : Fin 6 → ℝ) (totD X_dot_d Y_dot_d Z_dot_d epsC epsC2 : ℝ) :
    Fin 3 → Fin 18 → ℝ :=
  let t2 : ℝ := x 0 - x 1
  let t3 : ℝ := y 0 - y 1
  let t4 : ℝ := z 0 - z 1
  let t5 : ℝ := x 0 - x 5
  let t6 : ℝ := y 0 - y 5
  let t7 : ℝ := z 0 - z 5
  let t8 : ℝ := t2 * t2
  let t9 : ℝ := t3 * t3
  let t10 : ℝ := t4 * t4
  let t11 : ℝ := t8 + t9 + t10 + epsC2
  let t12 : ℝ := x 0 * 2
  let t13 : ℝ := x 0 * (1 / 2)
  let t14 : ℝ := t5 * t5
  let t15 : ℝ := t6 * t6
  let t16 : ℝ := t7 * t7
  let t17 : ℝ := t14 + t15 + t16 + epsC2
  let t28 : ℝ := x 1 * 2
  let t18 : ℝ := t12 - t28
  let t19 : ℝ := 1 / Real.sqrt (epsC + t11)
  let t79 : ℝ := x 5 * 2
  let t20 : ℝ := t12 - t79
  let t21 : ℝ := 1 / Real.sqrt (epsC + t17)
  let t22 : ℝ := 1 / totD
  let t23 : ℝ := Real.sqrt (t11)
  let t24 : ℝ := t23 * (1 / 2)
  let t25 : ℝ := x 1 - x 2
  let t26 : ℝ := y 1 - y 2
  let t27 : ℝ := z 1 - z 2
  let t29 : ℝ := x 1 * (1 / 2)
  let t30 : ℝ := t13 + t29
  let t31 : ℝ := t18 * t19 * t30 * (1 / 2)
  let t32 : ℝ := t25 * t25
  let t33 : ℝ := t26 * t26
  let t34 : ℝ := t27 * t27
  let t35 : ℝ := t32 + t33 + t34 + epsC2
  let t36 : ℝ := 1 / (totD * totD)
  let t37 : ℝ := t18 * t19 * (1 / 2)
  let t45 : ℝ := x 2 * 2
  let t38 : ℝ := t28 - t45
  let t39 : ℝ := 1 / Real.sqrt (epsC + t35)
  let t40 : ℝ := Real.sqrt (t35)
  let t41 : ℝ := t40 * (1 / 2)
  let t42 : ℝ := x 2 - x 3
  let t43 : ℝ := y 2 - y 3
  let t44 : ℝ := z 2 - z 3
  let t46 : ℝ := x 2 * (1 / 2)
  let t47 : ℝ := t29 + t46
  let t48 : ℝ := t38 * t39 * t47 * (1 / 2)
  let t49 : ℝ := t42 * t42
  let t50 : ℝ := t43 * t43
  let t51 : ℝ := t44 * t44
  let t52 : ℝ := t49 + t50 + t51 + epsC2
  let t60 : ℝ := x 3 * 2
  let t53 : ℝ := t45 - t60
  let t54 : ℝ := 1 / Real.sqrt (epsC + t52)
  let t55 : ℝ := Real.sqrt (t52)
  let t56 : ℝ := t55 * (1 / 2)
  let t57 : ℝ := x 3 - x 4
  let t58 : ℝ := y 3 - y 4
  let t59 : ℝ := z 3 - z 4
  let t61 : ℝ := x 3 * (1 / 2)
  let t62 : ℝ := t46 + t61
  let t63 : ℝ := t53 * t54 * t62 * (1 / 2)
  let t64 : ℝ := t57 * t57
  let t65 : ℝ := t58 * t58
  let t66 : ℝ := t59 * t59
  let t67 : ℝ := t64 + t65 + t66 + epsC2
  let t75 : ℝ := x 4 * 2
  let t68 : ℝ := t60 - t75
  let t69 : ℝ := 1 / Real.sqrt (epsC + t67)
  let t70 : ℝ := Real.sqrt (t67)
  let t71 : ℝ := t70 * (1 / 2)
  let t72 : ℝ := x 4 - x 5
  let t73 : ℝ := y 4 - y 5
  let t74 : ℝ := z 4 - z 5
  let t76 : ℝ := x 4 * (1 / 2)
  let t77 : ℝ := t61 + t76
  let t78 : ℝ := t68 * t69 * t77 * (1 / 2)
  let t80 : ℝ := x 5 * (1 / 2)
  let t81 : ℝ := t72 * t72
  let t82 : ℝ := t73 * t73
  let t83 : ℝ := t74 * t74
  let t84 : ℝ := t81 + t82 + t83 + epsC2
  let t85 : ℝ := t75 - t79
  let t86 : ℝ := 1 / Real.sqrt (epsC + t84)
  let t87 : ℝ := Real.sqrt (t17)
  let t88 : ℝ := t87 * (1 / 2)
  let t89 : ℝ := Real.sqrt (t84)
  let t90 : ℝ := t89 * (1 / 2)
  let t91 : ℝ := t13 + t80
  let t92 : ℝ := t20 * t21 * t91 * (1 / 2)
  let t93 : ℝ := t76 + t80
  let t94 : ℝ := t85 * t86 * t93 * (1 / 2)
  let t95 : ℝ := t20 * t21 * (1 / 2)
  let t96 : ℝ := y 0 * 2
  let t99 : ℝ := y 1 * 2
  let t97 : ℝ := t96 - t99
  let t108 : ℝ := y 5 * 2
  let t98 : ℝ := t96 - t108
  let t100 : ℝ := t19 * t30 * t97 * (1 / 2)
  let t101 : ℝ := t19 * t97 * (1 / 2)
  let t103 : ℝ := y 2 * 2
  let t102 : ℝ := t99 - t103
  let t105 : ℝ := y 3 * 2
  let t104 : ℝ := t103 - t105
  let t107 : ℝ := y 4 * 2
  let t106 : ℝ := t105 - t107
  let t109 : ℝ := t107 - t108
  let t110 : ℝ := t21 * t91 * t98 * (1 / 2)
  let t111 : ℝ := t21 * t98 * (1 / 2)
  let t112 : ℝ := z 0 * 2
  let t115 : ℝ := z 1 * 2
  let t113 : ℝ := t112 - t115
  let t124 : ℝ := z 5 * 2
  let t114 : ℝ := t112 - t124
  let t116 : ℝ := t19 * t30 * t113 * (1 / 2)
  let t117 : ℝ := t19 * t113 * (1 / 2)
  let t119 : ℝ := z 2 * 2
  let t118 : ℝ := t115 - t119
  let t121 : ℝ := z 3 * 2
  let t120 : ℝ := t119 - t121
  let t123 : ℝ := z 4 * 2
  let t122 : ℝ := t121 - t123
  let t125 : ℝ := t123 - t124
  let t126 : ℝ := t21 * t91 * t114 * (1 / 2)
  let t127 : ℝ := t21 * t114 * (1 / 2)
  let t128 : ℝ := y 0 * (1 / 2)
  let t129 : ℝ := t37 + t95
  let t130 : ℝ := y 1 * (1 / 2)
  let t131 : ℝ := t128 + t130
  let t132 : ℝ := t18 * t19 * t131 * (1 / 2)
  let t133 : ℝ := t38 * t39 * (1 / 2)
  let t134 : ℝ := y 2 * (1 / 2)
  let t135 : ℝ := t130 + t134
  let t136 : ℝ := t53 * t54 * (1 / 2)
  let t137 : ℝ := y 3 * (1 / 2)
  let t138 : ℝ := t134 + t137
  let t139 : ℝ := t68 * t69 * (1 / 2)
  let t140 : ℝ := y 4 * (1 / 2)
  let t141 : ℝ := t137 + t140
  let t142 : ℝ := y 5 * (1 / 2)
  let t143 : ℝ := t85 * t86 * (1 / 2)
  let t144 : ℝ := t128 + t142
  let t145 : ℝ := t20 * t21 * t144 * (1 / 2)
  let t146 : ℝ := t140 + t142
  let t147 : ℝ := t95 + t143
  let t148 : ℝ := t101 + t111
  let t149 : ℝ := t19 * t97 * t131 * (1 / 2)
  let t150 : ℝ := t39 * t102 * (1 / 2)
  let t151 : ℝ := t39 * t102 * t135 * (1 / 2)
  let t152 : ℝ := t54 * t104 * (1 / 2)
  let t153 : ℝ := t54 * t104 * t138 * (1 / 2)
  let t154 : ℝ := t69 * t106 * (1 / 2)
  let t155 : ℝ := t69 * t106 * t141 * (1 / 2)
  let t156 : ℝ := t86 * t109 * (1 / 2)
  let t157 : ℝ := t21 * t98 * t144 * (1 / 2)
  let t158 : ℝ := t86 * t109 * t146 * (1 / 2)
  let t159 : ℝ := t111 + t156
  let t160 : ℝ := t117 + t127
  let t161 : ℝ := t19 * t113 * t131 * (1 / 2)
  let t162 : ℝ := t39 * t118 * (1 / 2)
  let t163 : ℝ := t54 * t120 * (1 / 2)
  let t164 : ℝ := t69 * t122 * (1 / 2)
  let t165 : ℝ := t86 * t125 * (1 / 2)
  let t166 : ℝ := t21 * t114 * t144 * (1 / 2)
  let t167 : ℝ := t127 + t165
  let t168 : ℝ := z 0 * (1 / 2)
  let t169 : ℝ := z 1 * (1 / 2)
  let t170 : ℝ := t168 + t169
  let t171 : ℝ := t18 * t19 * t170 * (1 / 2)
  let t172 : ℝ := t37 - t133
  let t173 : ℝ := z 2 * (1 / 2)
  let t174 : ℝ := t169 + t173
  let t175 : ℝ := t133 - t136
  let t176 : ℝ := z 3 * (1 / 2)
  let t177 : ℝ := t173 + t176
  let t178 : ℝ := t136 - t139
  let t179 : ℝ := z 4 * (1 / 2)
  let t180 : ℝ := t176 + t179
  let t181 : ℝ := z 5 * (1 / 2)
  let t182 : ℝ := t139 - t143
  let t183 : ℝ := t168 + t181
  let t184 : ℝ := t20 * t21 * t183 * (1 / 2)
  let t185 : ℝ := t179 + t181
  let t186 : ℝ := t19 * t97 * t170 * (1 / 2)
  let t187 : ℝ := t101 - t150
  let t188 : ℝ := t150 - t152
  let t189 : ℝ := t152 - t154
  let t190 : ℝ := t154 - t156
  let t191 : ℝ := t21 * t98 * t183 * (1 / 2)
  let t192 : ℝ := t19 * t113 * t170 * (1 / 2)
  let t193 : ℝ := t117 - t162
  let t194 : ℝ := t39 * t118 * t174 * (1 / 2)
  let t195 : ℝ := t162 - t163
  let t196 : ℝ := t54 * t120 * t177 * (1 / 2)
  let t197 : ℝ := t163 - t164
  let t198 : ℝ := t69 * t122 * t180 * (1 / 2)
  let t199 : ℝ := t164 - t165
  let t200 : ℝ := t21 * t114 * t183 * (1 / 2)
  let t201 : ℝ := t86 * t125 * t185 * (1 / 2)
  ![![t22 * (t24 + t31 + t88 + t92) - X_dot_d * t36 * t129,
      t22 * (t24 - t31 + t41 + t48) + X_dot_d * t36 * (t37 - t38 * t39 * (1 / 2)),
      t22 * (t41 - t48 + t56 + t63) + X_dot_d * t36 * (t133 - t53 * t54 * (1 / 2)),
      t22 * (t56 - t63 + t71 + t78) + X_dot_d * t36 * (t136 - t68 * t69 * (1 / 2)),
      t22 * (t71 - t78 + t90 + t94) + X_dot_d * t36 * (t139 - t85 * t86 * (1 / 2)),
      t22 * (t88 + t90 - t92 - t94) + X_dot_d * t36 * t147,
      t22 * (t100 + t110) - X_dot_d * t36 * t148,
      -t22 * (t100 - t39 * t47 * t102 * (1 / 2)) + X_dot_d * t36 * (t101 - t39 * t102 * (1 / 2)),
      -t22 * (t39 * t47 * t102 * (1 / 2) - t54 * t62 * t104 * (1 / 2)) + X_dot_d * t36 * (t150 -
        t54 * t104 * (1 / 2)),
      -t22 * (t54 * t62 * t104 * (1 / 2) - t69 * t77 * t106 * (1 / 2)) + X_dot_d * t36 * (t152 -
        t69 * t106 * (1 / 2)),
      -t22 * (t69 * t77 * t106 * (1 / 2) - t86 * t93 * t109 * (1 / 2)) + X_dot_d * t36 * (t154 -
        t86 * t109 * (1 / 2)),
      -t22 * (t110 + t86 * t93 * t109 * (1 / 2)) + X_dot_d * t36 * t159,
      t22 * (t116 + t126) - X_dot_d * t36 * t160,
      -t22 * (t116 - t39 * t47 * t118 * (1 / 2)) + X_dot_d * t36 * (t117 - t39 * t118 * (1 / 2)),
      -t22 * (t39 * t47 * t118 * (1 / 2) - t54 * t62 * t120 * (1 / 2)) + X_dot_d * t36 * (t162 -
        t54 * t120 * (1 / 2)),
      -t22 * (t54 * t62 * t120 * (1 / 2) - t69 * t77 * t122 * (1 / 2)) + X_dot_d * t36 * (t163 -
        t69 * t122 * (1 / 2)),
      -t22 * (t69 * t77 * t122 * (1 / 2) - t86 * t93 * t125 * (1 / 2)) + X_dot_d * t36 * (t164 -
        t86 * t125 * (1 / 2)),
      -t22 * (t126 + t86 * t93 * t125 * (1 / 2)) + X_dot_d * t36 * t167],
    ![t22 * (t132 + t145) - Y_dot_d * t36 * t129,
      -t22 * (t132 - t38 * t39 * t135 * (1 / 2)) + Y_dot_d * t36 * t172,
      -t22 * (t38 * t39 * t135 * (1 / 2) - t53 * t54 * t138 * (1 / 2)) + Y_dot_d * t36 * t175,
      -t22 * (t53 * t54 * t138 * (1 / 2) - t68 * t69 * t141 * (1 / 2)) + Y_dot_d * t36 * t178,
      -t22 * (t68 * t69 * t141 * (1 / 2) - t85 * t86 * t146 * (1 / 2)) + Y_dot_d * t36 * t182,
      -t22 * (t145 + t85 * t86 * t146 * (1 / 2)) + Y_dot_d * t36 * t147,
      t22 * (t24 + t88 + t149 + t157) - Y_dot_d * t36 * t148,
      t22 * (t24 + t41 - t149 + t151) + Y_dot_d * t36 * t187,
      t22 * (t41 + t56 - t151 + t153) + Y_dot_d * t36 * t188,
      t22 * (t56 + t71 - t153 + t155) + Y_dot_d * t36 * t189,
      t22 * (t71 + t90 - t155 + t158) + Y_dot_d * t36 * t190,
      t22 * (t88 + t90 - t157 - t158) + Y_dot_d * t36 * t159,
      t22 * (t161 + t166) - Y_dot_d * t36 * t160,
      -t22 * (t161 - t39 * t118 * t135 * (1 / 2)) + Y_dot_d * t36 * t193,
      -t22 * (t39 * t118 * t135 * (1 / 2) - t54 * t120 * t138 * (1 / 2)) + Y_dot_d * t36 * t195,
      -t22 * (t54 * t120 * t138 * (1 / 2) - t69 * t122 * t141 * (1 / 2)) + Y_dot_d * t36 * t197,
      -t22 * (t69 * t122 * t141 * (1 / 2) - t86 * t125 * t146 * (1 / 2)) + Y_dot_d * t36 * t199,
      -t22 * (t166 + t86 * t125 * t146 * (1 / 2)) + Y_dot_d * t36 * t167],
    ![t22 * (t171 + t184) - Z_dot_d * t36 * t129,
      -t22 * (t171 - t38 * t39 * t174 * (1 / 2)) + Z_dot_d * t36 * t172,
      -t22 * (t38 * t39 * t174 * (1 / 2) - t53 * t54 * t177 * (1 / 2)) + Z_dot_d * t36 * t175,
      -t22 * (t53 * t54 * t177 * (1 / 2) - t68 * t69 * t180 * (1 / 2)) + Z_dot_d * t36 * t178,
      -t22 * (t68 * t69 * t180 * (1 / 2) - t85 * t86 * t185 * (1 / 2)) + Z_dot_d * t36 * t182,
      -t22 * (t184 + t85 * t86 * t185 * (1 / 2)) + Z_dot_d * t36 * t147,
      t22 * (t186 + t191) - Z_dot_d * t36 * t148,
      -t22 * (t186 - t39 * t102 * t174 * (1 / 2)) + Z_dot_d * t36 * t187,
      -t22 * (t39 * t102 * t174 * (1 / 2) - t54 * t104 * t177 * (1 / 2)) + Z_dot_d * t36 * t188,
      -t22 * (t54 * t104 * t177 * (1 / 2) - t69 * t106 * t180 * (1 / 2)) + Z_dot_d * t36 * t189,
      -t22 * (t69 * t106 * t180 * (1 / 2) - t86 * t109 * t185 * (1 / 2)) + Z_dot_d * t36 * t190,
      -t22 * (t191 + t86 * t109 * t185 * (1 / 2)) + Z_dot_d * t36 * t159,
      t22 * (t24 + t88 + t192 + t200) - Z_dot_d * t36 * t160,
      t22 * (t24 + t41 - t192 + t194) + Z_dot_d * t36 * t193,
      t22 * (t41 + t56 - t194 + t196) + Z_dot_d * t36 * t195,
      t22 * (t56 + t71 - t196 + t198) + Z_dot_d * t36 * t197,
      t22 * (t71 + t90 - t198 + t201) + Z_dot_d * t36 * t199,
      t22 * (t88 + t90 - t200 - t201) + Z_dot_d * t36 * t167]]

/-- The length of the edge from a point to the next (RSVSmath.cpp:523-524). -/
noncomputable def cEdge (n : ℕ) (C : ℕ → Fin 3 → ℝ) (j : ℕ) : ℝ := lengthF (C j) (C ((j + 1) % n))

/-- `edgeLength` after the loop (RSVSmath.cpp:519-530). -/
noncomputable def cLength (n : ℕ) (C : ℕ → Fin 3 → ℝ) : ℝ :=
  (List.range n).foldl (fun s j => s + cEdge n C j) 0

/-- `centroid` after the loop (RSVSmath.cpp:519-530). -/
noncomputable def cMoment (n : ℕ) (C : ℕ → Fin 3 → ℝ) (a : Fin 3) : ℝ :=
  (List.range n).foldl (fun s j => s + cEdge n C j * (C j a + C ((j + 1) % n) a) / 2) 0

/-- The Jacobian of `SurfCentroid::Calc` (RSVSmath.cpp:551-615) from the values of `edgeLength` and
`centroid`: an entry for each row and column.  For seven points and more the loop over the points
fills the columns of each point once (RSVSmath.cpp:595-614). -/
noncomputable def cJac (n : ℕ) (C : ℕ → Fin 3 → ℝ) (totD : ℝ) (M : Fin 3 → ℝ) (epsC epsC2 : ℝ) :
    Fin 3 → ℕ → ℝ := fun a col =>
  if n = 4 then
    if h : col < 12 then centroid4Df (fun i => C i 0) (fun i => C i 1) (fun i => C i 2) totD
      (M 0) (M 1) (M 2) epsC epsC2 a ⟨col, h⟩ else 0
  else if n = 5 then
    if h : col < 15 then centroid5Df (fun i => C i 0) (fun i => C i 1) (fun i => C i 2) totD
      (M 0) (M 1) (M 2) epsC epsC2 a ⟨col, h⟩ else 0
  else if n = 6 then
    if h : col < 18 then centroid6Df (fun i => C i 0) (fun i => C i 1) (fun i => C i 2) totD
      (M 0) (M 1) (M 2) epsC epsC2 a ⟨col, h⟩ else 0
  else
    let jj := (col % n + n - 1) % n
    if h : col / n < 3 then
      selfDf (fun i => C ((jj + i) % n) 0) (fun i => C ((jj + i) % n) 1)
        (fun i => C ((jj + i) % n) 2) totD (M 0) (M 1) (M 2) epsC a ⟨col / n, h⟩
    else 0

/-- `SurfCentroid::Calc` (RSVSmath.cpp:483-739): `funA` and `jac` for the points `C 0 … C (n-1)`.
Without points the first of them is read (undefined behaviour). -/
noncomputable def surfCentroid (n : ℕ) (C : ℕ → Fin 3 → ℝ) (epsC epsC2 : ℝ) :
    Res ((Fin 3 → ℝ) × (Fin 3 → ℕ → ℝ)) :=
  if n = 0 then .error .ub
  else
    let small := cLength n C < 1 / 10 ^ 15
    let f : Fin 3 → ℝ := fun a => if small then C 0 a else cMoment n C a / cLength n C
    let l : ℝ := if small then 1 / 10 ^ 7 else cLength n C
    if n < 4 then .error .throws
    else .ok (f, cJac n C l (cMoment n C) epsC epsC2)

end RSVS.Math
