import Verif.Model.Centroid

/-! # The Hessian of the centroid of a polygon

Model of the second half of `SurfCentroid::Calc` (SRCC/src/rsvs/RSVSmath.cpp:617-738) and of the
generated code it calls. -/

namespace RSVS.Math

/-- `SurfCentroidSelf_ddf` (RSVSmath_automatic.cpp:3117-3352): second derivatives with respect to the
middle one of three consecutive points. -/
noncomputable def selfDdf (x y z : Fin 3 → ℝ) (totD X_dot_d Y_dot_d Z_dot_d epsC : ℝ)
    : Fin 3 → Fin 9 → ℝ :=
  let t2 : ℝ := x 0 - x 1
  let t3 : ℝ := y 0 - y 1
  let t4 : ℝ := z 0 - z 1
  let t5 : ℝ := t2 * t2
  let t6 : ℝ := t3 * t3
  let t7 : ℝ := t4 * t4
  let t8 : ℝ := t5 + t6 + t7
  let t9 : ℝ := 1 / Real.sqrt (epsC + t8)
  let t10 : ℝ := x 1 - x 2
  let t11 : ℝ := y 1 - y 2
  let t12 : ℝ := z 1 - z 2
  let t13 : ℝ := x 1 * (1 / 2)
  let t14 : ℝ := t10 * t10
  let t15 : ℝ := t11 * t11
  let t16 : ℝ := t12 * t12
  let t17 : ℝ := t14 + t15 + t16
  let t18 : ℝ := 1 / Real.sqrt (epsC + t17)
  let t19 : ℝ := x 0 * 2
  let t20 : ℝ := x 1 * 2
  let t21 : ℝ := t19 - t20
  let t22 : ℝ := x 0 * (1 / 2)
  let t23 : ℝ := t13 + t22
  let t27 : ℝ := x 2 * 2
  let t24 : ℝ := t20 - t27
  let t25 : ℝ := x 2 * (1 / 2)
  let t26 : ℝ := t13 + t25
  let t28 : ℝ := t18 * t24 * (1 / 2)
  let t35 : ℝ := t9 * t21 * (1 / 2)
  let t29 : ℝ := t28 - t35
  let t30 : ℝ := t21 * t21
  let t31 : ℝ := 1 / pow32 (t8)
  let t32 : ℝ := t24 * t24
  let t33 : ℝ := 1 / pow32 (t17)
  let t34 : ℝ := 1 / (totD * totD)
  let t36 : ℝ := 1 / totD
  let t37 : ℝ := y 0 * 2
  let t38 : ℝ := y 1 * 2
  let t41 : ℝ := y 2 * 2
  let t39 : ℝ := t38 - t41
  let t40 : ℝ := t37 - t38
  let t42 : ℝ := Real.sqrt (t8)
  let t43 : ℝ := t42 * (1 / 2)
  let t44 : ℝ := Real.sqrt (t17)
  let t45 : ℝ := t44 * (1 / 2)
  let t46 : ℝ := t18 * t24 * t26 * (1 / 2)
  let t56 : ℝ := t9 * t21 * t23 * (1 / 2)
  let t47 : ℝ := t43 + t45 + t46 - t56
  let t48 : ℝ := 1 / (totD * totD * totD)
  let t49 : ℝ := t9 * t40 * (1 / 2)
  let t66 : ℝ := t18 * t39 * (1 / 2)
  let t50 : ℝ := t49 - t66
  let t51 : ℝ := z 0 * 2
  let t52 : ℝ := z 1 * 2
  let t55 : ℝ := z 2 * 2
  let t53 : ℝ := t52 - t55
  let t54 : ℝ := t51 - t52
  let t57 : ℝ := t9 * t54 * (1 / 2)
  let t72 : ℝ := t18 * t53 * (1 / 2)
  let t58 : ℝ := t57 - t72
  let t59 : ℝ := y 1 * (1 / 2)
  let t60 : ℝ := y 0 * (1 / 2)
  let t61 : ℝ := t59 + t60
  let t62 : ℝ := y 2 * (1 / 2)
  let t63 : ℝ := t59 + t62
  let t64 : ℝ := t28 - t35
  let t83 : ℝ := t30 * t31 * (1 / 4)
  let t84 : ℝ := t32 * t33 * (1 / 4)
  let t65 : ℝ := t9 + t18 - t83 - t84
  let t67 : ℝ := t9 * t21 * t61 * (1 / 2)
  let t73 : ℝ := t18 * t24 * t63 * (1 / 2)
  let t68 : ℝ := t67 - t73
  let t69 : ℝ := t21 * t31 * t40 * (1 / 4)
  let t70 : ℝ := t24 * t33 * t39 * (1 / 4)
  let t71 : ℝ := t69 + t70
  let t74 : ℝ := t21 * t31 * t54 * (1 / 4)
  let t75 : ℝ := t24 * t33 * t53 * (1 / 4)
  let t76 : ℝ := t74 + t75
  let t77 : ℝ := z 1 * (1 / 2)
  let t78 : ℝ := z 0 * (1 / 2)
  let t79 : ℝ := t77 + t78
  let t80 : ℝ := z 2 * (1 / 2)
  let t81 : ℝ := t77 + t80
  let t82 : ℝ := t28 - t35
  let t85 : ℝ := t9 * t21 * t79 * (1 / 2)
  let t88 : ℝ := t18 * t24 * t81 * (1 / 2)
  let t86 : ℝ := t85 - t88
  let t87 : ℝ := t9 * t21 * (1 / 4)
  let t89 : ℝ := t9 * t40 * (1 / 4)
  let t90 : ℝ := t21 * t23 * t31 * t40 * (1 / 4)
  let t91 : ℝ := t24 * t26 * t33 * t39 * (1 / 4)
  let t137 : ℝ := t18 * t39 * (1 / 4)
  let t92 : ℝ := t89 + t90 + t91 - t137
  let t93 : ℝ := t34 * t47 * t50
  let t94 : ℝ := t9 * t23 * t40 * (1 / 2)
  let t103 : ℝ := t18 * t26 * t39 * (1 / 2)
  let t95 : ℝ := t94 - t103
  let t96 : ℝ := t34 * t95 * (t28 - t35)
  let t97 : ℝ := X_dot_d * t34 * t71
  let t98 : ℝ := t93 + t96 + t97 - t36 * t92 - X_dot_d * t29 * t48 * t50 * 2
  let t99 : ℝ := t9 * t23
  let t100 : ℝ := t18 * t26
  let t101 : ℝ := t40 * t40
  let t102 : ℝ := t39 * t39
  let t104 : ℝ := t9 * t23 * t54 * (1 / 2)
  let t144 : ℝ := t18 * t26 * t53 * (1 / 2)
  let t105 : ℝ := t104 - t144
  let t106 : ℝ := t21 * t31 * t40 * t61 * (1 / 4)
  let t107 : ℝ := t24 * t33 * t39 * t63 * (1 / 4)
  let t171 : ℝ := t18 * t24 * (1 / 4)
  let t108 : ℝ := t87 + t106 + t107 - t171
  let t109 : ℝ := t18 * t39 * t63 * (1 / 2)
  let t117 : ℝ := t9 * t40 * t61 * (1 / 2)
  let t110 : ℝ := t43 + t45 + t109 - t117
  let t111 : ℝ := Y_dot_d * t34 * t71
  let t112 : ℝ := t111 - t36 * t108 - t34 * t50 * t68 - t29 * t34 * t110 - Y_dot_d * t29 * t48 *
    t50 * 2
  let t113 : ℝ := t9 * t61
  let t114 : ℝ := t18 * t63
  let t115 : ℝ := t50 * t50
  let t134 : ℝ := t31 * t101 * (1 / 4)
  let t135 : ℝ := t33 * t102 * (1 / 4)
  let t116 : ℝ := t9 + t18 - t134 - t135
  let t118 : ℝ := t9 * t54 * (1 / 4)
  let t119 : ℝ := t9 * t54 * t61 * (1 / 2)
  let t159 : ℝ := t18 * t53 * t63 * (1 / 2)
  let t120 : ℝ := t119 - t159
  let t121 : ℝ := t31 * t40 * t54 * (1 / 4)
  let t122 : ℝ := t33 * t39 * t53 * (1 / 4)
  let t123 : ℝ := t121 + t122
  let t124 : ℝ := t21 * t31 * t40 * t79 * (1 / 4)
  let t125 : ℝ := t24 * t33 * t39 * t81 * (1 / 4)
  let t126 : ℝ := t124 + t125
  let t127 : ℝ := t9 * t40 * t79 * (1 / 2)
  let t136 : ℝ := t18 * t39 * t81 * (1 / 2)
  let t128 : ℝ := t127 - t136
  let t129 : ℝ := t34 * t128 * (t28 - t35)
  let t130 : ℝ := Z_dot_d * t34 * t71
  let t131 : ℝ := t129 + t130 - t36 * t126 - t34 * t50 * t86 - Z_dot_d * t29 * t48 * t50 * 2
  let t132 : ℝ := t9 * t79
  let t133 : ℝ := t18 * t81
  let t138 : ℝ := t18 * t53 * t81 * (1 / 2)
  let t174 : ℝ := t9 * t54 * t79 * (1 / 2)
  let t139 : ℝ := t43 + t45 + t138 - t174
  let t140 : ℝ := t21 * t23 * t31 * t54 * (1 / 4)
  let t141 : ℝ := t24 * t26 * t33 * t53 * (1 / 4)
  let t163 : ℝ := t18 * t53 * (1 / 4)
  let t142 : ℝ := t118 + t140 + t141 - t163
  let t143 : ℝ := t34 * t47 * t58
  let t145 : ℝ := t34 * t105 * (t28 - t35)
  let t146 : ℝ := X_dot_d * t34 * t76
  let t147 : ℝ := t143 + t145 + t146 - t36 * t142 - X_dot_d * t29 * t48 * t58 * 2
  let t148 : ℝ := t23 * t31 * t40 * t54 * (1 / 4)
  let t149 : ℝ := t26 * t33 * t39 * t53 * (1 / 4)
  let t150 : ℝ := t148 + t149
  let t151 : ℝ := X_dot_d * t34 * t123
  let t152 : ℝ := X_dot_d * t48 * t50 * t58 * 2
  let t153 : ℝ := t151 + t152 - t36 * t150 - t34 * t58 * t95 - t34 * t50 * t105
  let t154 : ℝ := t54 * t54
  let t155 : ℝ := t53 * t53
  let t156 : ℝ := t21 * t31 * t54 * t61 * (1 / 4)
  let t157 : ℝ := t24 * t33 * t53 * t63 * (1 / 4)
  let t158 : ℝ := t156 + t157
  let t160 : ℝ := t34 * t120 * (t28 - t35)
  let t161 : ℝ := Y_dot_d * t34 * t76
  let t162 : ℝ := t160 + t161 - t36 * t158 - t34 * t58 * t68 - Y_dot_d * t29 * t48 * t58 * 2
  let t164 : ℝ := t31 * t40 * t54 * t61 * (1 / 4)
  let t165 : ℝ := t33 * t39 * t53 * t63 * (1 / 4)
  let t166 : ℝ := t34 * t58 * t110
  let t167 : ℝ := Y_dot_d * t34 * t123
  let t168 : ℝ := Y_dot_d * t48 * t50 * t58 * 2
  let t169 : ℝ := t58 * t58
  let t183 : ℝ := t31 * t154 * (1 / 4)
  let t184 : ℝ := t33 * t155 * (1 / 4)
  let t170 : ℝ := t9 + t18 - t183 - t184
  let t172 : ℝ := t21 * t31 * t54 * t79 * (1 / 4)
  let t173 : ℝ := t24 * t33 * t53 * t81 * (1 / 4)
  let t175 : ℝ := Z_dot_d * t34 * t76
  let t176 : ℝ := t31 * t40 * t54 * t79 * (1 / 4)
  let t177 : ℝ := t33 * t39 * t53 * t81 * (1 / 4)
  let t178 : ℝ := t89 - t137 + t176 + t177
  let t179 : ℝ := t34 * t50 * t139
  let t180 : ℝ := Z_dot_d * t34 * t123
  let t181 : ℝ := Z_dot_d * t48 * t50 * t58 * 2
  let t182 : ℝ := t179 + t180 + t181 - t36 * t178 - t34 * t58 * t128
  ![![t36 * (t28 + t99 + t100 - t9 * (t19 - x 1 * 2) * (1 / 2) - t23 * t30 * t31 * (1 / 4) - t26 *
        t32 * t33 * (1 / 4)) - X_dot_d * t34 * t65 - t29 * t34 * t47 * 2 + X_dot_d * (t29 *
        t29) * t48 * 2,
      t98,
      t147,
      t36 * (t113 + t114 - t30 * t31 * t61 * (1 / 4) - t32 * t33 * t63 * (1 / 4)) + Y_dot_d * t48 *
        (t64 * t64) * 2 - Y_dot_d * t34 * t65 + t34 * t68 * (t28 - t35) * 2,
      t112,
      t162,
      t36 * (t132 + t133 - t30 * t31 * t79 * (1 / 4) - t32 * t33 * t81 * (1 / 4)) + Z_dot_d * t48 *
        (t82 * t82) * 2 - Z_dot_d * t34 * t65 + t34 * t86 * (t28 - t35) * 2,
      t131,
      t175 - t36 * (t87 + t172 + t173 - t18 * t24 * (1 / 4)) - t34 * t58 * t86 - t29 * t34 * t139 -
        Z_dot_d * t29 * t48 * t58 * 2],
    ![t98,
      t36 * (t99 + t100 - t23 * t31 * t101 * (1 / 4) - t26 * t33 * t102 * (1 / 4)) - X_dot_d *
        t34 * t116 + X_dot_d * t48 * t115 * 2 - t34 * t50 * t95 * 2,
      t153,
      t112,
      -t36 * (t49 - t66 - t113 - t114 + t31 * t61 * t101 * (1 / 4) + t33 * t63 * t102 * (1 / 4)) -
        Y_dot_d * t34 * t116 + Y_dot_d * t48 * t115 * 2 + t34 * t50 * t110 * 2,
      t166 + t167 + t168 - t36 * (t118 + t164 + t165 - t18 * t53 * (1 / 4)) - t34 * t50 * t120,
      t131,
      t36 * (t132 + t133 - t31 * t79 * t101 * (1 / 4) - t33 * t81 * t102 * (1 / 4)) - Z_dot_d *
        t34 * t116 + Z_dot_d * t48 * t115 * 2 - t34 * t50 * t128 * 2,
      t182],
    ![t147,
      t153,
      t36 * (t99 + t100 - t23 * t31 * t154 * (1 / 4) - t26 * t33 * t155 * (1 / 4)) - X_dot_d *
        t34 * t170 + X_dot_d * t48 * t169 * 2 - t34 * t58 * t105 * 2,
      t162,
      t166 + t167 + t168 - t36 * (t118 - t163 + t164 + t165) - t34 * t50 * t120,
      t36 * (t113 + t114 - t31 * t61 * t154 * (1 / 4) - t33 * t63 * t155 * (1 / 4)) - Y_dot_d *
        t34 * t170 + Y_dot_d * t48 * t169 * 2 - t34 * t58 * t120 * 2,
      t175 - t36 * (t87 - t171 + t172 + t173) - t34 * t58 * t86 - t29 * t34 * t139 - Z_dot_d *
        t29 * t48 * t58 * 2,
      t182,
      -t36 * (t57 - t72 - t132 - t133 + t31 * t79 * t154 * (1 / 4) + t33 * t81 * t155 * (1 / 4)) -
        Z_dot_d * t34 * t170 + Z_dot_d * t48 * t169 * 2 + t34 * t58 * t139 * 2]]

/-- `SurfCentroidConnec_ddf` (RSVSmath_automatic.cpp:2124-2482), from the array `A0` as it was
before. -/
noncomputable def connecDdf (x y z : Fin 4 → ℝ) (totD X_dot_d Y_dot_d Z_dot_d epsC epsC2 : ℝ)
    (A0 : Fin 6 → Fin 18 → ℝ) : Fin 6 → Fin 18 → ℝ :=
  let t2 : ℝ := x 1 - x 2
  let t3 : ℝ := y 1 - y 2
  let t4 : ℝ := z 1 - z 2
  let t5 : ℝ := y 1 * 2
  let t11 : ℝ := y 2 * 2
  let t6 : ℝ := t5 - t11
  let t7 : ℝ := t2 * t2
  let t8 : ℝ := t3 * t3
  let t9 : ℝ := t4 * t4
  let t10 : ℝ := t7 + t8 + t9 + epsC2
  let t12 : ℝ := 1 / Real.sqrt (epsC + t10)
  let t13 : ℝ := x 2 - x 3
  let t14 : ℝ := y 2 - y 3
  let t15 : ℝ := z 2 - z 3
  let t16 : ℝ := x 0 - x 1
  let t17 : ℝ := y 0 - y 1
  let t18 : ℝ := z 0 - z 1
  let t19 : ℝ := x 1 * 2
  let t20 : ℝ := x 1 * (1 / 2)
  let t21 : ℝ := t16 * t16
  let t22 : ℝ := t17 * t17
  let t23 : ℝ := t18 * t18
  let t24 : ℝ := t21 + t22 + t23 + epsC2
  let t31 : ℝ := x 2 * 2
  let t25 : ℝ := t19 - t31
  let t26 : ℝ := x 2 * (1 / 2)
  let t27 : ℝ := t20 + t26
  let t28 : ℝ := 1 / (totD * totD)
  let t29 : ℝ := 1 / Real.sqrt (epsC + t24)
  let t38 : ℝ := x 0 * 2
  let t30 : ℝ := t19 - t38
  let t42 : ℝ := y 3 * 2
  let t32 : ℝ := t11 - t42
  let t33 : ℝ := t13 * t13
  let t34 : ℝ := t14 * t14
  let t35 : ℝ := t15 * t15
  let t36 : ℝ := t33 + t34 + t35 + epsC2
  let t37 : ℝ := 1 / Real.sqrt (epsC + t36)
  let t39 : ℝ := t29 * t30 * (1 / 2)
  let t40 : ℝ := t12 * t25 * (1 / 2)
  let t41 : ℝ := t6 * t12 * (1 / 2)
  let t74 : ℝ := t32 * t37 * (1 / 2)
  let t43 : ℝ := t41 - t74
  let t44 : ℝ := t39 + t40
  let t45 : ℝ := 1 / pow32 (t10)
  let t46 : ℝ := 1 / totD
  let t47 : ℝ := x 0 * (1 / 2)
  let t48 : ℝ := t20 + t47
  let t49 : ℝ := z 0 * 2
  let t50 : ℝ := z 1 * 2
  let t53 : ℝ := z 2 * 2
  let t51 : ℝ := t50 - t53
  let t52 : ℝ := t49 - t50
  let t54 : ℝ := Real.sqrt (t24)
  let t55 : ℝ := t54 * (1 / 2)
  let t56 : ℝ := Real.sqrt (t10)
  let t57 : ℝ := t56 * (1 / 2)
  let t58 : ℝ := t12 * t25 * t27 * (1 / 2)
  let t59 : ℝ := t29 * t30 * t48 * (1 / 2)
  let t60 : ℝ := t55 + t57 + t58 + t59
  let t61 : ℝ := 1 / pow32 (t24)
  let t62 : ℝ := 1 / (totD * totD * totD)
  let t63 : ℝ := t12 * t51 * (1 / 2)
  let t64 : ℝ := t12 * t51 * (1 / 4)
  let t65 : ℝ := t12 * t27 * t51 * (1 / 2)
  let t66 : ℝ := x 3 * (1 / 2)
  let t67 : ℝ := t26 + t66
  let t69 : ℝ := z 3 * 2
  let t68 : ℝ := t53 - t69
  let t84 : ℝ := t37 * t68 * (1 / 2)
  let t70 : ℝ := t63 - t84
  let t71 : ℝ := y 1 * (1 / 2)
  let t72 : ℝ := y 2 * (1 / 2)
  let t73 : ℝ := t71 + t72
  let t75 : ℝ := y 0 * (1 / 2)
  let t76 : ℝ := t71 + t75
  let t77 : ℝ := t29 * t30 * t76 * (1 / 2)
  let t78 : ℝ := t12 * t25 * t73 * (1 / 2)
  let t83 : ℝ := t29 * t52 * (1 / 2)
  let t79 : ℝ := t63 - t83
  let t80 : ℝ := t77 + t78
  let t81 : ℝ := t25 * t45 * t51 * (1 / 4)
  let t97 : ℝ := t30 * t52 * t61 * (1 / 4)
  let t82 : ℝ := t81 - t97
  let t85 : ℝ := t12 * t51 * t73 * (1 / 2)
  let t86 : ℝ := y 3 * (1 / 2)
  let t87 : ℝ := t72 + t86
  let t88 : ℝ := z 1 * (1 / 2)
  let t89 : ℝ := z 2 * (1 / 2)
  let t90 : ℝ := t88 + t89
  let t91 : ℝ := t12 * t25 * (1 / 4)
  let t92 : ℝ := z 0 * (1 / 2)
  let t93 : ℝ := t88 + t92
  let t94 : ℝ := t29 * t30 * t93 * (1 / 2)
  let t95 : ℝ := t12 * t25 * t90 * (1 / 2)
  let t96 : ℝ := t94 + t95
  let t98 : ℝ := Real.sqrt (t36)
  let t99 : ℝ := t98 * (1 / 2)
  let t100 : ℝ := t12 * t51 * t90 * (1 / 2)
  let t101 : ℝ := z 3 * (1 / 2)
  let t102 : ℝ := t89 + t101
  let t103 : ℝ := t6 * t12 * (1 / 4)
  let t105 : ℝ := x 3 * 2
  let t104 : ℝ := t31 - t105
  let t106 : ℝ := t6 * t12 * t27 * (1 / 2)
  let t137 : ℝ := t32 * t37 * t67 * (1 / 2)
  let t107 : ℝ := t106 - t137
  let t108 : ℝ := 1 / pow32 (t36)
  let t112 : ℝ := t37 * t104 * (1 / 2)
  let t109 : ℝ := t40 - t112
  let t110 : ℝ := t37 * t67 * t104 * (1 / 2)
  let t111 : ℝ := t57 - t58 + t99 + t110
  let t113 : ℝ := t25 * t27 * t45 * t51 * (1 / 4)
  let t145 : ℝ := t37 * t67 * t68 * (1 / 2)
  let t114 : ℝ := t65 - t145
  let t115 : ℝ := t6 * t25 * t45 * t73 * (1 / 4)
  let t116 : ℝ := t32 * t37 * t87 * (1 / 2)
  let t146 : ℝ := t6 * t12 * t73 * (1 / 2)
  let t117 : ℝ := t57 + t99 + t116 - t146
  let t118 : ℝ := t6 * t25 * t45 * (1 / 4)
  let t119 : ℝ := t32 * t104 * t108 * (1 / 4)
  let t120 : ℝ := t118 + t119
  let t125 : ℝ := t37 * t87 * t104 * (1 / 2)
  let t121 : ℝ := t78 - t125
  let t122 : ℝ := t25 * t45 * t46 * t51 * t73 * (1 / 4)
  let t123 : ℝ := t25 * t45 * t51 * t73 * (1 / 4)
  let t152 : ℝ := t37 * t68 * t87 * (1 / 2)
  let t124 : ℝ := t85 - t152
  let t126 : ℝ := t68 * t104 * t108 * (1 / 4)
  let t127 : ℝ := t81 + t126
  let t128 : ℝ := t6 * t12 * t90 * (1 / 2)
  let t153 : ℝ := t32 * t37 * t102 * (1 / 2)
  let t129 : ℝ := t128 - t153
  let t130 : ℝ := t25 * t45 * t51 * t90 * (1 / 4)
  let t154 : ℝ := t29 * t52 * t93 * (1 / 2)
  let t131 : ℝ := t55 + t57 + t100 - t154
  let t135 : ℝ := t37 * t102 * t104 * (1 / 2)
  let t132 : ℝ := t95 - t135
  let t133 : ℝ := t37 * t68 * t102 * (1 / 2)
  let t134 : ℝ := t57 + t99 - t100 + t133
  let t139 : ℝ := y 0 * 2
  let t136 : ℝ := t5 - t139
  let t138 : ℝ := t6 * t6
  let t140 : ℝ := t29 * t136 * (1 / 2)
  let t141 : ℝ := t41 + t140
  let t194 : ℝ := t29 * t48 * t52 * (1 / 2)
  let t142 : ℝ := t65 - t194
  let t143 : ℝ := t29 * t48 * t136 * (1 / 2)
  let t144 : ℝ := t106 + t143
  let t147 : ℝ := t29 * t76 * (t5 - t139) * (1 / 2)
  let t148 : ℝ := t55 + t57 + t146 + t147
  let t204 : ℝ := t29 * t52 * t76 * (1 / 2)
  let t149 : ℝ := t85 - t204
  let t150 : ℝ := t6 * t45 * t51 * (1 / 4)
  let t157 : ℝ := t52 * t61 * t136 * (1 / 4)
  let t151 : ℝ := t150 - t157
  let t155 : ℝ := t29 * t93 * t136 * (1 / 2)
  let t156 : ℝ := t128 + t155
  let t158 : ℝ := t6 * t25 * t27 * t45 * (1 / 4)
  let t159 : ℝ := t29 * t48 * (t19 - t38) * (1 / 2)
  let t160 : ℝ := t55 + t57 + t58 + t159
  let t161 : ℝ := t32 * t67 * t104 * t108 * (1 / 4)
  let t162 : ℝ := t103 + t158 + t161 - t32 * t37 * (1 / 4)
  let t163 : ℝ := t28 * t43 * t111
  let t164 : ℝ := X_dot_d * t28 * t120
  let t165 : ℝ := X_dot_d * t43 * t62 * t109 * 2
  let t166 : ℝ := t163 + t164 + t165 - t46 * t162 - t28 * t107 * t109
  let t167 : ℝ := t12 * t27
  let t168 : ℝ := t167 - t27 * t45 * t138 * (1 / 4)
  let t181 : ℝ := t45 * t138 * (1 / 4)
  let t169 : ℝ := X_dot_d * t28 * (t12 - t181)
  let t170 : ℝ := t91 + t115
  let t171 : ℝ := t46 * t170
  let t172 : ℝ := t32 * t87 * t104 * t108 * (1 / 4)
  let t254 : ℝ := t37 * t104 * (1 / 4)
  let t173 : ℝ := t91 + t115 + t172 - t254
  let t174 : ℝ := t28 * t109 * t117
  let t175 : ℝ := Y_dot_d * t28 * t120
  let t176 : ℝ := Y_dot_d * t43 * t62 * t109 * 2
  let t177 : ℝ := t174 + t175 + t176 - t46 * t173 - t28 * t43 * t121
  let t178 : ℝ := t12 * t73
  let t179 : ℝ := t178 - t45 * t73 * t138 * (1 / 4)
  let t180 : ℝ := t28 * t43 * t148
  let t182 : ℝ := t28 * t129 * (t39 + t40)
  let t183 : ℝ := t6 * t25 * t45 * t46 * t90 * (1 / 4)
  let t184 : ℝ := t6 * t25 * t45 * t90 * (1 / 4)
  let t185 : ℝ := t32 * t102 * t104 * t108 * (1 / 4)
  let t186 : ℝ := t184 + t185
  let t187 : ℝ := Z_dot_d * t28 * t120
  let t188 : ℝ := Z_dot_d * t43 * t62 * t109 * 2
  let t189 : ℝ := t187 + t188 - t46 * t186 - t28 * t43 * t132 - t28 * t109 * t129
  let t190 : ℝ := t12 * t90
  let t191 : ℝ := t190 - t45 * t90 * t138 * (1 / 4)
  let t192 : ℝ := t28 * t129 * (t41 + t140)
  let t193 : ℝ := t30 * t48 * t52 * t61 * (1 / 4)
  let t195 : ℝ := X_dot_d * t28 * t82
  let t196 : ℝ := t64 + t113
  let t197 : ℝ := t46 * t196
  let t198 : ℝ := t6 * t27 * t45 * t51 * (1 / 4)
  let t199 : ℝ := t198 - t48 * t52 * t61 * t136 * (1 / 4)
  let t200 : ℝ := X_dot_d * t28 * t151
  let t201 : ℝ := X_dot_d * t62 * (t41 + t140) * (t63 - t83) * 2
  let t202 : ℝ := t200 + t201 - t46 * t199 - t28 * t79 * t144 - t28 * t141 * t142
  let t203 : ℝ := t123 - t30 * t52 * t61 * t76 * (1 / 4)
  let t205 : ℝ := Y_dot_d * t28 * t82
  let t206 : ℝ := Y_dot_d * t62 * (t39 + t40) * (t63 - t83) * 2
  let t207 : ℝ := t205 + t206 - t46 * t203 - t28 * t79 * t80 - t28 * t44 * t149
  let t208 : ℝ := t28 * t121 * (t63 - t83)
  let t209 : ℝ := t52 * t61 * t76 * t136 * (1 / 4)
  let t247 : ℝ := t6 * t45 * t51 * t73 * (1 / 4)
  let t210 : ℝ := t46 * (t64 + t209 - t247 - t29 * t52 * (1 / 4))
  let t211 : ℝ := Y_dot_d * t28 * t151
  let t212 : ℝ := Y_dot_d * t62 * (t41 + t140) * (t63 - t83) * 2
  let t213 : ℝ := t210 + t211 + t212 - t28 * t79 * t148 - t28 * t141 * t149
  let t214 : ℝ := t29 * t30 * (1 / 4)
  let t215 : ℝ := t30 * t52 * t61 * t93 * (1 / 4)
  let t216 : ℝ := Z_dot_d * t28 * t82
  let t217 : ℝ := Z_dot_d * t62 * (t39 + t40) * (t63 - t83) * 2
  let t218 : ℝ := t91 - t130
  let t219 : ℝ := t28 * t109 * t131
  let t220 : ℝ := t28 * t132 * (t63 - t83)
  let t253 : ℝ := Z_dot_d * t25 * t28 * t45 * t51 * (1 / 4)
  let t221 : ℝ := t219 + t220 - t253 - t46 * t218 - Z_dot_d * t62 * t79 * t109 * 2
  let t222 : ℝ := t29 * t136 * (1 / 4)
  let t223 : ℝ := t52 * t61 * t93 * t136 * (1 / 4)
  let t224 : ℝ := t6 * t45 * t51 * t90 * (1 / 4)
  let t225 : ℝ := Z_dot_d * t28 * t151
  let t226 : ℝ := Z_dot_d * t62 * (t41 + t140) * (t63 - t83) * 2
  let t227 : ℝ := t28 * t70 * t160
  let t228 : ℝ := t28 * t114 * (t39 + t40)
  let t229 : ℝ := t67 * t68 * t104 * t108 * (1 / 4)
  let t230 : ℝ := t64 + t113 + t229 - t37 * t68 * (1 / 4)
  let t231 : ℝ := t28 * t70 * t111
  let t232 : ℝ := X_dot_d * t28 * t127
  let t233 : ℝ := X_dot_d * t62 * t70 * t109 * 2
  let t234 : ℝ := t231 + t232 + t233 - t46 * t230 - t28 * t109 * t114
  let t235 : ℝ := t28 * t70 * (t106 + t143)
  let t236 : ℝ := t28 * t114 * (t41 + t140)
  let t237 : ℝ := t6 * t27 * t45 * t46 * t51 * (1 / 4)
  let t238 : ℝ := t235 + t236 + t237 - X_dot_d * t62 * t70 * t141 * 2 - X_dot_d * t6 * t28 * t45 *
    t51 * (1 / 4)
  let t239 : ℝ := t28 * t70 * (t77 + t78)
  let t240 : ℝ := t28 * t124 * (t39 + t40)
  let t241 : ℝ := t122 + t239 + t240 - Y_dot_d * t44 * t62 * t70 * 2 - Y_dot_d * t25 * t28 * t45 *
    t51 * (1 / 4)
  let t242 : ℝ := t68 * t87 * t104 * t108 * (1 / 4)
  let t243 : ℝ := t123 + t242
  let t244 : ℝ := Y_dot_d * t28 * t127
  let t245 : ℝ := Y_dot_d * t62 * t70 * t109 * 2
  let t246 : ℝ := t244 + t245 - t46 * t243 - t28 * t70 * t121 - t28 * t109 * t124
  let t248 : ℝ := t28 * t70 * t148
  let t249 : ℝ := t28 * t124 * (t41 + t140)
  let t250 : ℝ := t91 + t130
  let t251 : ℝ := t46 * t250
  let t252 : ℝ := t28 * t70 * (t94 + t95)
  let t255 : ℝ := t68 * t102 * t104 * t108 * (1 / 4)
  let t256 : ℝ := t28 * t109 * t134
  let t257 : ℝ := Z_dot_d * t28 * t127
  let t258 : ℝ := Z_dot_d * t62 * t70 * t109 * 2
  let t259 : ℝ := t103 + t224
  let t260 : ℝ := t46 * t259
  let t261 : ℝ := t28 * t70 * (t128 + t155)
  let t262 : ℝ := t260 + t261 - t28 * t134 * t141 - Z_dot_d * t62 * t70 * t141 * 2 - Z_dot_d * t6 *
    t28 * t45 * t51 * (1 / 4)
  ![![A0 0 0,
      A0 0 1,
      A0 0 2,
      -t46 * (t103 - t6 * t25 * t27 * t45 * (1 / 4)) + t28 * t43 * t60 + t28 * t44 * t107 -
        X_dot_d * t43 * t44 * t62 * 2 - X_dot_d * t6 * t25 * t28 * t45 * (1 / 4),
      t195 + t46 * (t64 + t193 - t29 * (t49 - z 1 * 2) * (1 / 4) - t25 * t27 * t45 * t51 * (1 /
        4)) - t28 * t60 * t79 - t28 * t44 * t142 + X_dot_d * t62 * t79 * (t39 + t40) * 2,
      t227 + t228 - t46 * (t64 - t25 * t27 * t45 * t51 * (1 / 4)) - X_dot_d * t44 * t62 * t70 * 2 -
        X_dot_d * t25 * t28 * t45 * t51 * (1 / 4),
      A0 0 6,
      A0 0 7,
      A0 0 8,
      t171 + t28 * t43 * t80 - t28 * t44 * t117 - Y_dot_d * t43 * t44 * t62 * 2 - Y_dot_d * t6 *
        t25 * t28 * t45 * (1 / 4),
      t207,
      t241,
      A0 0 12,
      A0 0 13,
      A0 0 14,
      t182 + t183 + t28 * t43 * t96 - Z_dot_d * t43 * t44 * t62 * 2 - Z_dot_d * t6 * t25 * t28 *
        t45 * (1 / 4),
      t216 + t217 + t46 * (t91 + t214 + t215 - t25 * t45 * t51 * t90 * (1 / 4)) - t28 * t44 *
        t131 - t28 * t79 * t96,
      t251 + t252 - t28 * t44 * t134 - Z_dot_d * t44 * t62 * t70 * 2 - Z_dot_d * t25 * t28 * t45 *
        t51 * (1 / 4)],
    ![A0 1 0,
      A0 1 1,
      A0 1 2,
      t166,
      t197 - t28 * t79 * t111 + t28 * t109 * t142 - X_dot_d * t62 * t79 * t109 * 2 - X_dot_d *
        t25 * t28 * t45 * t51 * (1 / 4),
      t234,
      A0 1 6,
      A0 1 7,
      A0 1 8,
      t177,
      t122 + t208 + t28 * t109 * t149 - Y_dot_d * t62 * t79 * t109 * 2 - Y_dot_d * t25 * t28 *
        t45 * t51 * (1 / 4),
      t246,
      A0 1 12,
      A0 1 13,
      A0 1 14,
      t189,
      t221,
      t256 + t257 + t258 - t46 * (t91 + t130 + t255 - t37 * t104 * (1 / 4)) - t28 * t70 * t132],
    ![A0 2 0,
      A0 2 1,
      A0 2 2,
      t169 - t46 * t168 + t28 * t43 * t144 + t28 * t107 * t141 - X_dot_d * t43 * t62 * t141 * 2,
      t202,
      t238,
      A0 2 6,
      A0 2 7,
      A0 2 8,
      t180 - t46 * t179 + Y_dot_d * t28 * (t12 - t45 * t138 * (1 / 4)) - t28 * t117 * t141 -
        Y_dot_d * t43 * t62 * t141 * 2,
      t213,
      t248 + t249 - t46 * (t64 - t6 * t45 * t51 * t73 * (1 / 4)) - Y_dot_d * t62 * t70 * t141 * 2 -
        Y_dot_d * t6 * t28 * t45 * t51 * (1 / 4),
      A0 2 12,
      A0 2 13,
      A0 2 14,
      t192 - t46 * t191 + Z_dot_d * t28 * (t12 - t45 * t138 * (1 / 4)) + t28 * t43 * t156 -
        Z_dot_d * t43 * t62 * t141 * 2,
      t225 + t226 + t46 * (t103 + t222 + t223 - t6 * t45 * t51 * t90 * (1 / 4)) - t28 * t79 *
        t156 - t28 * t131 * t141,
      t262],
    ![-t46 * (t103 - t158) + t28 * t107 * (t39 + t40) + t28 * t43 * t160 - X_dot_d * t43 * t44 *
        t62 * 2 - X_dot_d * t6 * t25 * t28 * t45 * (1 / 4),
      t166,
      t169 - t46 * t168 + t28 * t107 * (t41 + t140) + t28 * t43 * (t106 + t143) - X_dot_d * t43 *
        t62 * t141 * 2,
      A0 3 3,
      A0 3 4,
      A0 3 5,
      t171 + t28 * t43 * (t77 + t78) - t28 * t44 * t117 - Y_dot_d * t43 * t44 * t62 * 2 - Y_dot_d *
        t6 * t25 * t28 * t45 * (1 / 4),
      t177,
      t180 - t46 * t179 - t28 * t117 * t141 + Y_dot_d * t28 * (t12 - t181) - Y_dot_d * t43 * t62 *
        t141 * 2,
      A0 3 9,
      A0 3 10,
      A0 3 11,
      t182 + t183 + t28 * t43 * (t94 + t95) - Z_dot_d * t43 * t44 * t62 * 2 - Z_dot_d * t6 * t25 *
        t28 * t45 * (1 / 4),
      t189,
      t192 - t46 * t191 + t28 * t43 * (t128 + t155) + Z_dot_d * t28 * (t12 - t181) - Z_dot_d *
        t43 * t62 * t141 * 2,
      A0 3 15,
      A0 3 16,
      A0 3 17],
    ![t195 + t46 * (t64 - t113 + t193 - t29 * t52 * (1 / 4)) - t28 * t44 * t142 - t28 * t79 *
        t160 + X_dot_d * t62 * (t39 + t40) * (t63 - t83) * 2,
      t197 - t28 * t79 * t111 + t28 * t109 * (t65 - t194) - X_dot_d * t62 * t79 * t109 * 2 -
        X_dot_d * t25 * t28 * t45 * t51 * (1 / 4),
      t202,
      A0 4 3,
      A0 4 4,
      A0 4 5,
      t207,
      t122 + t208 + t28 * t109 * (t85 - t204) - Y_dot_d * t62 * t79 * t109 * 2 - Y_dot_d * t25 *
        t28 * t45 * t51 * (1 / 4),
      t213,
      A0 4 9,
      A0 4 10,
      A0 4 11,
      t216 + t217 + t46 * (t91 - t130 + t214 + t215) - t28 * t44 * t131 - t28 * t79 * t96,
      t221,
      t225 + t226 + t46 * (t103 + t222 + t223 - t224) - t28 * t79 * t156 - t28 * t131 * t141,
      A0 4 15,
      A0 4 16,
      A0 4 17],
    ![t227 + t228 - t46 * (t64 - t113) - X_dot_d * t44 * t62 * t70 * 2 - X_dot_d * t25 * t28 *
        t45 * t51 * (1 / 4),
      t234,
      t238,
      A0 5 3,
      A0 5 4,
      A0 5 5,
      t241,
      t246,
      t248 + t249 - t46 * (t64 - t247) - Y_dot_d * t62 * t70 * t141 * 2 - Y_dot_d * t6 * t28 *
        t45 * t51 * (1 / 4),
      A0 5 9,
      A0 5 10,
      A0 5 11,
      t251 + t252 - t253 - t28 * t44 * t134 - Z_dot_d * t44 * t62 * t70 * 2,
      t256 + t257 + t258 - t46 * (t91 + t130 - t254 + t255) - t28 * t70 * t132,
      t262,
      A0 5 15,
      A0 5 16,
      A0 5 17]]

/-- `SurfCentroidNoConnec_ddf` (RSVSmath_automatic.cpp:2653-3024), from the array `A0` as it
was before. -/
noncomputable def noConnecDdf (x y z : Fin 7 → ℝ) (totD X_dot_d Y_dot_d Z_dot_d epsC epsC2 : ℝ)
    (A0 : Fin 6 → Fin 18 → ℝ) : Fin 6 → Fin 18 → ℝ :=
  let t2 : ℝ := x 4 - x 5
  let t3 : ℝ := y 4 - y 5
  let t4 : ℝ := z 4 - z 5
  let t5 : ℝ := x 5 - x 6
  let t6 : ℝ := y 5 - y 6
  let t7 : ℝ := z 5 - z 6
  let t8 : ℝ := x 0 - x 1
  let t9 : ℝ := y 0 - y 1
  let t10 : ℝ := z 0 - z 1
  let t11 : ℝ := x 1 - x 2
  let t12 : ℝ := y 1 - y 2
  let t13 : ℝ := z 1 - z 2
  let t14 : ℝ := t8 * t8
  let t15 : ℝ := t9 * t9
  let t16 : ℝ := t10 * t10
  let t17 : ℝ := t14 + t15 + t16
  let t18 : ℝ := x 1 * (1 / 2)
  let t19 : ℝ := t11 * t11
  let t20 : ℝ := t12 * t12
  let t21 : ℝ := t13 * t13
  let t22 : ℝ := t19 + t20 + t21
  let t23 : ℝ := 1 / (totD * totD)
  let t24 : ℝ := x 0 * 2
  let t25 : ℝ := x 1 * 2
  let t26 : ℝ := 1 / Real.sqrt (epsC + t17)
  let t44 : ℝ := x 2 * 2
  let t27 : ℝ := t25 - t44
  let t28 : ℝ := 1 / Real.sqrt (epsC + t22)
  let t29 : ℝ := y 4 * 2
  let t30 : ℝ := y 5 * 2
  let t31 : ℝ := t2 * t2
  let t32 : ℝ := t3 * t3
  let t33 : ℝ := t4 * t4
  let t34 : ℝ := t31 + t32 + t33
  let t35 : ℝ := 1 / Real.sqrt (epsC + t34)
  let t36 : ℝ := x 5 * (1 / 2)
  let t47 : ℝ := y 6 * 2
  let t37 : ℝ := t30 - t47
  let t38 : ℝ := t5 * t5
  let t39 : ℝ := t6 * t6
  let t40 : ℝ := t7 * t7
  let t41 : ℝ := t38 + t39 + t40
  let t42 : ℝ := 1 / Real.sqrt (epsC + t41)
  let t43 : ℝ := t24 - t25
  let t45 : ℝ := t27 * t28 * (1 / 2)
  let t46 : ℝ := t29 - t30
  let t48 : ℝ := t37 * t42 * (1 / 2)
  let t49 : ℝ := x 0 * (1 / 2)
  let t50 : ℝ := t18 + t49
  let t51 : ℝ := z 0 * 2
  let t52 : ℝ := z 1 * 2
  let t53 : ℝ := x 2 * (1 / 2)
  let t54 : ℝ := t18 + t53
  let t57 : ℝ := z 2 * 2
  let t55 : ℝ := t52 - t57
  let t56 : ℝ := t51 - t52
  let t58 : ℝ := Real.sqrt (t17)
  let t59 : ℝ := t58 * (1 / 2)
  let t60 : ℝ := Real.sqrt (t22)
  let t61 : ℝ := t60 * (1 / 2)
  let t62 : ℝ := t27 * t28 * t54 * (1 / 2)
  let t63 : ℝ := 1 / pow32 (t17)
  let t64 : ℝ := 1 / pow32 (t22)
  let t65 : ℝ := 1 / (totD * totD * totD)
  let t66 : ℝ := t26 * t56 * (1 / 2)
  let t90 : ℝ := t28 * t55 * (1 / 2)
  let t67 : ℝ := t66 - t90
  let t70 : ℝ := t26 * t43 * (1 / 2)
  let t68 : ℝ := t45 - t70
  let t191 : ℝ := t26 * t43 * t50 * (1 / 2)
  let t69 : ℝ := t59 + t61 + t62 - t191
  let t71 : ℝ := x 4 * (1 / 2)
  let t72 : ℝ := t36 + t71
  let t73 : ℝ := z 4 * 2
  let t74 : ℝ := z 5 * 2
  let t75 : ℝ := x 6 * (1 / 2)
  let t76 : ℝ := t36 + t75
  let t79 : ℝ := z 6 * 2
  let t77 : ℝ := t74 - t79
  let t78 : ℝ := t73 - t74
  let t80 : ℝ := t42 * t77 * (1 / 2)
  let t81 : ℝ := y 5 * (1 / 2)
  let t82 : ℝ := y 1 * (1 / 2)
  let t84 : ℝ := t35 * t46 * (1 / 2)
  let t83 : ℝ := t48 - t84
  let t85 : ℝ := 1 / totD
  let t86 : ℝ := y 0 * (1 / 2)
  let t87 : ℝ := t82 + t86
  let t88 : ℝ := y 2 * (1 / 2)
  let t89 : ℝ := t82 + t88
  let t91 : ℝ := t27 * t28 * t89 * (1 / 2)
  let t92 : ℝ := t43 * t56 * t63 * (1 / 4)
  let t93 : ℝ := t27 * t55 * t64 * (1 / 4)
  let t94 : ℝ := t92 + t93
  let t101 : ℝ := t35 * t78 * (1 / 2)
  let t95 : ℝ := t80 - t101
  let t196 : ℝ := t26 * t43 * t87 * (1 / 2)
  let t96 : ℝ := t91 - t196
  let t97 : ℝ := y 4 * (1 / 2)
  let t98 : ℝ := t81 + t97
  let t99 : ℝ := y 6 * (1 / 2)
  let t100 : ℝ := t81 + t99
  let t102 : ℝ := z 1 * (1 / 2)
  let t103 : ℝ := z 5 * (1 / 2)
  let t104 : ℝ := z 0 * (1 / 2)
  let t105 : ℝ := t102 + t104
  let t106 : ℝ := z 2 * (1 / 2)
  let t107 : ℝ := t102 + t106
  let t108 : ℝ := t27 * t28 * t107 * (1 / 2)
  let t109 : ℝ := Real.sqrt (t34)
  let t110 : ℝ := t109 * (1 / 2)
  let t111 : ℝ := Real.sqrt (t41)
  let t112 : ℝ := t111 * (1 / 2)
  let t113 : ℝ := z 4 * (1 / 2)
  let t114 : ℝ := t103 + t113
  let t115 : ℝ := z 6 * (1 / 2)
  let t116 : ℝ := t103 + t115
  let t208 : ℝ := t26 * t43 * t105 * (1 / 2)
  let t117 : ℝ := t108 - t208
  let t118 : ℝ := x 4 * 2
  let t119 : ℝ := x 5 * 2
  let t122 : ℝ := x 6 * 2
  let t120 : ℝ := t119 - t122
  let t121 : ℝ := t118 - t119
  let t123 : ℝ := t35 * t46 * t72 * (1 / 2)
  let t165 : ℝ := t37 * t42 * t76 * (1 / 2)
  let t124 : ℝ := t123 - t165
  let t125 : ℝ := 1 / pow32 (t34)
  let t126 : ℝ := 1 / pow32 (t41)
  let t127 : ℝ := t35 * t121 * (1 / 2)
  let t131 : ℝ := t42 * t120 * (1 / 2)
  let t128 : ℝ := t127 - t131
  let t129 : ℝ := t42 * t76 * t120 * (1 / 2)
  let t134 : ℝ := t35 * t72 * t121 * (1 / 2)
  let t130 : ℝ := t110 + t112 + t129 - t134
  let t132 : ℝ := t26 * t50 * t56 * (1 / 2)
  let t171 : ℝ := t28 * t54 * t55 * (1 / 2)
  let t133 : ℝ := t132 - t171
  let t135 : ℝ := t35 * t72 * t78 * (1 / 2)
  let t174 : ℝ := t42 * t76 * t77 * (1 / 2)
  let t136 : ℝ := t135 - t174
  let t137 : ℝ := t37 * t42 * t100 * (1 / 2)
  let t175 : ℝ := t35 * t46 * t98 * (1 / 2)
  let t138 : ℝ := t110 + t112 + t137 - t175
  let t139 : ℝ := t46 * t121 * t125 * (1 / 4)
  let t140 : ℝ := t37 * t120 * t126 * (1 / 4)
  let t141 : ℝ := t139 + t140
  let t142 : ℝ := t26 * t56 * t87 * (1 / 2)
  let t179 : ℝ := t28 * t55 * t89 * (1 / 2)
  let t143 : ℝ := t142 - t179
  let t144 : ℝ := t35 * t98 * t121 * (1 / 2)
  let t148 : ℝ := t42 * t100 * t120 * (1 / 2)
  let t145 : ℝ := t144 - t148
  let t146 : ℝ := t35 * t78 * t98 * (1 / 2)
  let t184 : ℝ := t42 * t77 * t100 * (1 / 2)
  let t147 : ℝ := t146 - t184
  let t149 : ℝ := t78 * t121 * t125 * (1 / 4)
  let t150 : ℝ := t77 * t120 * t126 * (1 / 4)
  let t151 : ℝ := t149 + t150
  let t152 : ℝ := t35 * t46 * t114 * (1 / 2)
  let t185 : ℝ := t37 * t42 * t116 * (1 / 2)
  let t153 : ℝ := t152 - t185
  let t154 : ℝ := t28 * t55 * t107 * (1 / 2)
  let t186 : ℝ := t26 * t56 * t105 * (1 / 2)
  let t155 : ℝ := t59 + t61 + t154 - t186
  let t156 : ℝ := t35 * t114 * t121 * (1 / 2)
  let t161 : ℝ := t42 * t116 * t120 * (1 / 2)
  let t157 : ℝ := t156 - t161
  let t158 : ℝ := t35 * t121 * (1 / 4)
  let t159 : ℝ := t42 * t77 * t116 * (1 / 2)
  let t189 : ℝ := t35 * t78 * t114 * (1 / 2)
  let t160 : ℝ := t110 + t112 + t159 - t189
  let t162 : ℝ := y 0 * 2
  let t163 : ℝ := y 1 * 2
  let t168 : ℝ := y 2 * 2
  let t164 : ℝ := t163 - t168
  let t166 : ℝ := t162 - t163
  let t167 : ℝ := t26 * t166 * (1 / 2)
  let t170 : ℝ := t28 * t164 * (1 / 2)
  let t169 : ℝ := t167 - t170
  let t172 : ℝ := t28 * t54 * t164 * (1 / 2)
  let t195 : ℝ := t26 * t50 * t166 * (1 / 2)
  let t173 : ℝ := t172 - t195
  let t176 : ℝ := t26 * t56 * (1 / 4)
  let t177 : ℝ := t28 * t89 * t164 * (1 / 2)
  let t183 : ℝ := t26 * t87 * t166 * (1 / 2)
  let t178 : ℝ := t59 + t61 + t177 - t183
  let t180 : ℝ := t56 * t63 * t166 * (1 / 4)
  let t181 : ℝ := t55 * t64 * t164 * (1 / 4)
  let t182 : ℝ := t180 + t181
  let t187 : ℝ := t26 * t105 * t166 * (1 / 2)
  let t190 : ℝ := t28 * t107 * t164 * (1 / 2)
  let t188 : ℝ := t187 - t190
  let t192 : ℝ := t35 * t46 * (1 / 4)
  let t193 : ℝ := t37 * t76 * t120 * t126 * (1 / 4)
  let t194 : ℝ := X_dot_d * t23 * t141
  let t197 : ℝ := Y_dot_d * t65 * (t45 - t70) * (t48 - t84) * 2
  let t198 : ℝ := t197 - t23 * t83 * t96 - t23 * t68 * t138
  let t199 : ℝ := t46 * t98 * t121 * t125 * (1 / 4)
  let t200 : ℝ := t37 * t100 * t120 * t126 * (1 / 4)
  let t281 : ℝ := t42 * t120 * (1 / 4)
  let t201 : ℝ := t158 + t199 + t200 - t281
  let t202 : ℝ := t23 * t128 * t138
  let t203 : ℝ := t23 * t145 * (t48 - t84)
  let t204 : ℝ := Y_dot_d * t23 * t141
  let t205 : ℝ := t202 + t203 + t204 - t85 * t201 - Y_dot_d * t65 * t83 * t128 * 2
  let t206 : ℝ := t23 * t138 * t169
  let t207 : ℝ := t206 - t23 * t83 * t178 - Y_dot_d * t65 * t83 * t169 * 2
  let t209 : ℝ := t23 * t153 * (t45 - t70)
  let t210 : ℝ := Z_dot_d * t65 * (t45 - t70) * (t48 - t84) * 2
  let t211 : ℝ := t209 + t210 - t23 * t83 * t117
  let t212 : ℝ := t46 * t114 * t121 * t125 * (1 / 4)
  let t213 : ℝ := t37 * t116 * t120 * t126 * (1 / 4)
  let t214 : ℝ := t212 + t213
  let t215 : ℝ := t23 * t157 * (t48 - t84)
  let t216 : ℝ := Z_dot_d * t23 * t141
  let t217 : ℝ := t215 + t216 - t85 * t214 - t23 * t128 * t153 - Z_dot_d * t65 * t83 * t128 * 2
  let t218 : ℝ := t23 * t188 * (t48 - t84)
  let t219 : ℝ := t218 - t23 * t153 * t169 - Z_dot_d * t65 * t83 * t169 * 2
  let t220 : ℝ := t43 * t50 * t56 * t63 * (1 / 4)
  let t221 : ℝ := t27 * t54 * t55 * t64 * (1 / 4)
  let t240 : ℝ := t28 * t55 * (1 / 4)
  let t222 : ℝ := t176 + t220 + t221 - t240
  let t223 : ℝ := t23 * t67 * t69
  let t224 : ℝ := X_dot_d * t23 * t94
  let t225 : ℝ := t23 * t67 * t130
  let t226 : ℝ := X_dot_d * t65 * t67 * t128 * 2
  let t227 : ℝ := t225 + t226 - t23 * t128 * t133
  let t228 : ℝ := t50 * t56 * t63 * t166 * (1 / 4)
  let t229 : ℝ := t54 * t55 * t64 * t164 * (1 / 4)
  let t230 : ℝ := t228 + t229
  let t231 : ℝ := X_dot_d * t23 * t182
  let t232 : ℝ := X_dot_d * t65 * t67 * t169 * 2
  let t233 : ℝ := t43 * t56 * t63 * t87 * (1 / 4)
  let t234 : ℝ := t27 * t55 * t64 * t89 * (1 / 4)
  let t235 : ℝ := t233 + t234
  let t236 : ℝ := t23 * t143 * (t45 - t70)
  let t237 : ℝ := Y_dot_d * t23 * t94
  let t238 : ℝ := Y_dot_d * t65 * t67 * t128 * 2
  let t239 : ℝ := t238 - t23 * t67 * t145 - t23 * t128 * t143
  let t241 : ℝ := t56 * t63 * t87 * t166 * (1 / 4)
  let t242 : ℝ := t55 * t64 * t89 * t164 * (1 / 4)
  let t243 : ℝ := t23 * t67 * t178
  let t244 : ℝ := Y_dot_d * t23 * t182
  let t245 : ℝ := Y_dot_d * t65 * t67 * t169 * 2
  let t246 : ℝ := t26 * t43 * (1 / 4)
  let t247 : ℝ := t43 * t56 * t63 * t105 * (1 / 4)
  let t248 : ℝ := t27 * t55 * t64 * t107 * (1 / 4)
  let t249 : ℝ := t246 + t247 + t248 - t27 * t28 * (1 / 4)
  let t250 : ℝ := Z_dot_d * t23 * t94
  let t251 : ℝ := t23 * t128 * t155
  let t252 : ℝ := Z_dot_d * t65 * t67 * t128 * 2
  let t253 : ℝ := t251 + t252 - t23 * t67 * t157
  let t254 : ℝ := t26 * t166 * (1 / 4)
  let t255 : ℝ := t56 * t63 * t105 * t166 * (1 / 4)
  let t256 : ℝ := t55 * t64 * t107 * t164 * (1 / 4)
  let t257 : ℝ := t254 + t255 + t256 - t28 * t164 * (1 / 4)
  let t258 : ℝ := t23 * t155 * t169
  let t259 : ℝ := Z_dot_d * t23 * t182
  let t260 : ℝ := Z_dot_d * t65 * t67 * t169 * 2
  let t261 : ℝ := t258 + t259 + t260 - t85 * t257 - t23 * t67 * t188
  let t262 : ℝ := t35 * t78 * (1 / 4)
  let t263 : ℝ := t72 * t78 * t121 * t125 * (1 / 4)
  let t264 : ℝ := t76 * t77 * t120 * t126 * (1 / 4)
  let t265 : ℝ := t262 + t263 + t264 - t42 * t77 * (1 / 4)
  let t266 : ℝ := X_dot_d * t23 * t151
  let t267 : ℝ := t266 - t85 * t265 - t23 * t95 * t130 - t23 * t128 * t136 - X_dot_d * t65 * t95 *
    t128 * 2
  let t268 : ℝ := -t23 * t95 * t173 - t23 * t136 * t169 - X_dot_d * t65 * t95 * t169 * 2
  let t269 : ℝ := t23 * t147 * (t45 - t70)
  let t270 : ℝ := Y_dot_d * t65 * (t45 - t70) * (t80 - t101) * 2
  let t271 : ℝ := t269 + t270 - t23 * t95 * t96
  let t272 : ℝ := t78 * t98 * t121 * t125 * (1 / 4)
  let t273 : ℝ := t77 * t100 * t120 * t126 * (1 / 4)
  let t274 : ℝ := t272 + t273
  let t275 : ℝ := t23 * t145 * (t80 - t101)
  let t276 : ℝ := Y_dot_d * t23 * t151
  let t277 : ℝ := t275 + t276 - t85 * t274 - t23 * t128 * t147 - Y_dot_d * t65 * t95 * t128 * 2
  let t278 : ℝ := -t23 * t95 * t178 - t23 * t147 * t169 - Y_dot_d * t65 * t95 * t169 * 2
  let t279 : ℝ := Z_dot_d * t65 * (t45 - t70) * (t80 - t101) * 2
  let t280 : ℝ := t279 - t23 * t95 * t117 - t23 * t68 * t160
  let t282 : ℝ := t78 * t114 * t121 * t125 * (1 / 4)
  let t283 : ℝ := t77 * t116 * t120 * t126 * (1 / 4)
  let t284 : ℝ := t23 * t128 * t160
  let t285 : ℝ := t23 * t157 * (t80 - t101)
  let t286 : ℝ := Z_dot_d * t23 * t151
  let t287 : ℝ := t23 * t160 * t169
  let t288 : ℝ := t23 * t188 * (t80 - t101)
  let t289 : ℝ := t287 + t288 - Z_dot_d * t65 * t95 * t169 * 2
  ![![A0 0 0,
      A0 0 1,
      A0 0 2,
      t23 * t68 * t124 - t23 * (t48 - t35 * (t29 - y 5 * 2) * (1 / 2)) * (t59 + t61 + t62 - t26 *
        t50 * (t24 - x 1 * 2) * (1 / 2)) + X_dot_d * t65 * t68 * t83 * 2,
      t223 + t224 - t85 * t222 + t23 * t68 * t133 - X_dot_d * t65 * t67 * t68 * 2,
      -t23 * t69 * (t80 - t35 * (t73 - z 5 * 2) * (1 / 2)) + t23 * t68 * t136 + X_dot_d * t65 *
        t95 * (t45 - t70) * 2,
      A0 0 6,
      A0 0 7,
      A0 0 8,
      t198,
      t236 + t237 - t85 * t235 + t23 * t67 * t96 - Y_dot_d * t65 * t67 * t68 * 2,
      t271,
      A0 0 12,
      A0 0 13,
      A0 0 14,
      t211,
      t250 - t85 * t249 + t23 * t67 * t117 - t23 * t68 * t155 - Z_dot_d * t65 * t67 * t68 * 2,
      t280],
    ![A0 1 0,
      A0 1 1,
      A0 1 2,
      t194 - t85 * (t192 + t193 - t37 * t42 * (1 / 4) + t46 * t72 * t125 * (t118 - x 5 * 2) * (1 /
        4)) - t23 * t83 * t130 - t23 * t124 * t128 - X_dot_d * t65 * t83 * t128 * 2,
      t227,
      t267,
      A0 1 6,
      A0 1 7,
      A0 1 8,
      t205,
      t239,
      t277,
      A0 1 12,
      A0 1 13,
      A0 1 14,
      t217,
      t253,
      t284 + t285 + t286 - t85 * (t158 + t282 + t283 - t42 * t120 * (1 / 4)) - Z_dot_d * t65 *
        t95 * t128 * 2],
    ![A0 2 0,
      A0 2 1,
      A0 2 2,
      -t23 * (t48 - t84) * (t172 - t26 * t50 * (t162 - y 1 * 2) * (1 / 2)) - t23 * t124 * t169 -
        X_dot_d * t65 * t83 * t169 * 2,
      t231 + t232 - t85 * t230 + t23 * t67 * t173 - t23 * t133 * t169,
      t268,
      A0 2 6,
      A0 2 7,
      A0 2 8,
      t207,
      t243 + t244 + t245 - t85 * (t176 + t241 + t242 - t28 * t55 * (1 / 4)) - t23 * t143 * t169,
      t278,
      A0 2 12,
      A0 2 13,
      A0 2 14,
      t219,
      t261,
      t289],
    ![-t23 * t69 * t83 + t23 * t124 * (t45 - t70) + X_dot_d * t65 * (t45 - t70) * (t48 - t84) * 2,
      t194 - t85 * (t192 + t193 - t37 * t42 * (1 / 4) + t46 * t72 * t121 * t125 * (1 / 4)) - t23 *
        t83 * t130 - t23 * t124 * t128 - X_dot_d * t65 * t83 * t128 * 2,
      -t23 * t83 * t173 - t23 * t124 * t169 - X_dot_d * t65 * t83 * t169 * 2,
      A0 3 3,
      A0 3 4,
      A0 3 5,
      t198,
      t205,
      t207,
      A0 3 9,
      A0 3 10,
      A0 3 11,
      t211,
      t217,
      t219,
      A0 3 15,
      A0 3 16,
      A0 3 17],
    ![t223 + t224 - t85 * t222 + t23 * t133 * (t45 - t70) - X_dot_d * t65 * t67 * t68 * 2,
      t227,
      t231 + t232 - t85 * t230 - t23 * t133 * t169 + t23 * t67 * (t172 - t195),
      A0 4 3,
      A0 4 4,
      A0 4 5,
      t236 + t237 - t85 * t235 + t23 * t67 * (t91 - t196) - Y_dot_d * t65 * t67 * t68 * 2,
      t239,
      t243 + t244 + t245 - t85 * (t176 - t240 + t241 + t242) - t23 * t143 * t169,
      A0 4 9,
      A0 4 10,
      A0 4 11,
      t250 - t85 * t249 - t23 * t68 * t155 + t23 * t67 * (t108 - t208) - Z_dot_d * t65 * t67 *
        t68 * 2,
      t253,
      t261,
      A0 4 15,
      A0 4 16,
      A0 4 17],
    ![-t23 * t69 * t95 + t23 * t136 * (t45 - t70) + X_dot_d * t65 * (t45 - t70) * (t80 - t101) * 2,
      t267,
      t268,
      A0 5 3,
      A0 5 4,
      A0 5 5,
      t271,
      t277,
      t278,
      A0 5 9,
      A0 5 10,
      A0 5 11,
      t280,
      t284 + t285 + t286 - t85 * (t158 - t281 + t282 + t283) - Z_dot_d * t65 * t95 * t128 * 2,
      t289,
      A0 5 15,
      A0 5 16,
      A0 5 17]]

/-- Assignment of one entry. -/
noncomputable def put (h : ℕ → ℕ → ℝ) (i j : ℕ) (v : ℝ) : ℕ → ℕ → ℝ :=
  fun a b => if a = i ∧ b = j then v else h a b

/-- The indices `ii1`, `ii2`, `ii` of the three inner loops, in order. -/
def idx3 : List (Fin 3 × Fin 3 × Fin 3) :=
  (List.finRange 3).flatMap fun i => (List.finRange 3).flatMap fun j =>
    (List.finRange 3).map fun k => (i, j, k)

/-- One turn of the loop for the squared terms (RSVSmath.cpp:637-661). -/
noncomputable def hSelf (n : ℕ) (C : ℕ → Fin 3 → ℝ) (l : ℝ) (M : Fin 3 → ℝ) (epsC : ℝ)
    (h : ℕ → ℕ → ℝ) (jj : ℕ) : ℕ → ℕ → ℝ :=
  let temp := selfDdf (fun i => C ((jj + i) % n) 0) (fun i => C ((jj + i) % n) 1)
    (fun i => C ((jj + i) % n) 2) l (M 0) (M 1) (M 2) epsC
  let ind := (jj + 1) % n
  idx3.foldl (fun h t => put h (ind + t.1 * n) (ind + t.2.1 * n + t.2.2 * 3 * n)
    (temp t.1 ⟨t.2.1 + 3 * t.2.2, by omega⟩)) h

/-- The copy of the mixed terms of two points (RSVSmath.cpp:683-694 and 724-735). -/
noncomputable def hCopy (n ind ind2 : ℕ) (temp : Fin 6 → Fin 18 → ℝ) (h : ℕ → ℕ → ℝ) :
    ℕ → ℕ → ℝ :=
  idx3.foldl (fun h t =>
    put (put h (ind + t.1 * n) (ind2 + t.2.1 * n + t.2.2 * 3 * n)
        (temp ⟨t.1, by omega⟩ ⟨3 + t.2.1 + 3 * t.2.2, by omega⟩))
      (ind2 + t.1 * n) (ind + t.2.1 * n + t.2.2 * 3 * n)
      (temp ⟨t.1 + 3, by omega⟩ ⟨t.2.1 + 3 * t.2.2, by omega⟩)) h

/-- One turn of the loop for connected points (RSVSmath.cpp:667-696); `temp` is kept. -/
noncomputable def hConnec (n : ℕ) (C : ℕ → Fin 3 → ℝ) (l : ℝ) (M : Fin 3 → ℝ) (epsC epsC2 : ℝ)
    (s : (ℕ → ℕ → ℝ) × (Fin 6 → Fin 18 → ℝ)) (jj : ℕ) :
    (ℕ → ℕ → ℝ) × (Fin 6 → Fin 18 → ℝ) :=
  let temp := connecDdf (fun i => C ((jj + i) % n) 0) (fun i => C ((jj + i) % n) 1)
    (fun i => C ((jj + i) % n) 2) l (M 0) (M 1) (M 2) epsC epsC2 s.2
  (hCopy n ((jj + 1) % n) (((jj + 1) % n + 1) % n) temp s.1, temp)

/-- The coordinates passed for two points that are not connected (RSVSmath.cpp:705-717): three
around the first in places 0 to 2, three around the second in places 4 to 6. -/
noncomputable def two3 (n : ℕ) (C : ℕ → Fin 3 → ℝ) (jj jj2 : ℕ) (d : Fin 3) (i : Fin 7) : ℝ :=
  if i.val < 3 then C ((jj + i) % n) d else if i.val = 3 then 0 else C ((jj2 + (i - 4)) % n) d

/-- One turn of the loop for points that are not connected (RSVSmath.cpp:701-738); `temp` is
kept. -/
noncomputable def hNoConnec (n : ℕ) (C : ℕ → Fin 3 → ℝ) (l : ℝ) (M : Fin 3 → ℝ) (epsC epsC2 : ℝ)
    (s : (ℕ → ℕ → ℝ) × (Fin 6 → Fin 18 → ℝ)) (p : ℕ × ℕ) :
    (ℕ → ℕ → ℝ) × (Fin 6 → Fin 18 → ℝ) :=
  let temp := noConnecDdf (two3 n C p.1 p.2 0) (two3 n C p.1 p.2 1) (two3 n C p.1 p.2 2) l
    (M 0) (M 1) (M 2) epsC epsC2 s.2
  (hCopy n ((p.1 + 1) % n) ((p.2 + 1) % n) temp s.1, temp)

/-- The pairs of the loops over `jj` and `jj2` (RSVSmath.cpp:701-703). -/
def farPairs (n : ℕ) : List (ℕ × ℕ) :=
  (List.range n).flatMap fun jj => (List.range (n - (jj + 2))).map fun i => (jj, jj + 2 + i)

/-- `hes` after `SurfCentroid::Calc` (RSVSmath.cpp:617-738), from the array before. -/
noncomputable def cHes (n : ℕ) (C : ℕ → Fin 3 → ℝ) (l : ℝ) (M : Fin 3 → ℝ) (epsC epsC2 : ℝ)
    (h0 : ℕ → ℕ → ℝ) : ℕ → ℕ → ℝ :=
  let h1 := (List.range n).foldl (hSelf n C l M epsC) h0
  let h2 := ((List.range n).foldl (hConnec n C l M epsC epsC2) (h1, fun _ _ => 0)).1
  ((farPairs n).foldl (hNoConnec n C l M epsC epsC2) (h2, fun _ _ => 0)).1

/-- `SurfCentroid::Calc` with its Hessian; `hes` has been set to zero by `InitialiseArrays`
(RSVSmath.cpp:288-301). -/
noncomputable def surfCentroidHes (n : ℕ) (C : ℕ → Fin 3 → ℝ) (epsC epsC2 : ℝ) :
    Res ((Fin 3 → ℝ) × (Fin 3 → ℕ → ℝ) × (ℕ → ℕ → ℝ)) :=
  (surfCentroid n C epsC epsC2).map fun r =>
    let l : ℝ := if cLength n C < 1 / 10 ^ 15 then 1 / 10 ^ 7 else cLength n C
    (r.1, r.2, cHes n C l (cMoment n C) epsC epsC2 fun _ _ => 0)

end RSVS.Math
