import Verif.Lemmas.CentroidAuto

/-! # The centroid of a polygon and its Jacobian (C77) -/

namespace RSVS.Props

open RSVS RSVS.Spec RSVS.Math

theorem foldl_sum (g : ℕ → ℝ) (n : ℕ) :
    (List.range n).foldl (fun s j => s + g j) 0 = ∑ j ∈ Finset.range n, g j := by
  induction n with
  | zero => rfl
  | succ n ih => rw [List.range_succ, List.foldl_append, ih, Finset.sum_range_succ]; rfl

section

variable {n : ℕ} [NeZero n] {C : ℕ → Fin 3 → ℝ} {P : Fin n → Fin 3 → ℝ}

theorem next_val (hn : 2 ≤ n) (k : Fin n) : ((k + 1 : Fin n) : ℕ) = (k.val + 1) % n := by
  rw [Fin.val_add, Fin.val_one', Nat.mod_eq_of_lt (by omega : 1 < n)]

theorem cEdge_eq (hn : 2 ≤ n) (hC : ∀ k : Fin n, C k = P k) (k : Fin n) :
    cEdge n C k = dist3 (P k) (P (k + 1)) := by
  rw [cEdge, lengthF_eq, ← next_val hn, hC, hC]

theorem cLength_eq (hn : 2 ≤ n) (hC : ∀ k : Fin n, C k = P k) : cLength n C = perimeter P := by
  rw [cLength, foldl_sum, ← Fin.sum_univ_eq_sum_range]
  exact Finset.sum_congr rfl fun k _ => cEdge_eq hn hC k

theorem cMoment_eq (hn : 2 ≤ n) (hC : ∀ k : Fin n, C k = P k) (a : Fin 3) :
    cMoment n C a = ∑ j, dist3 (P j) (P (j + 1)) * ((P j a + P (j + 1) a) / 2) := by
  rw [cMoment, foldl_sum,
    ← Fin.sum_univ_eq_sum_range (fun j => cEdge n C j * (C j a + C ((j + 1) % n) a) / 2)]
  refine Finset.sum_congr rfl fun k _ => ?_
  rw [cEdge_eq hn hC, ← next_val hn, hC, hC]
  ring

theorem pred_val (hn : 2 ≤ n) (k : Fin n) : ((k - 1 : Fin n) : ℕ) = (k.val + n - 1) % n := by
  rw [Fin.val_sub, Fin.val_one', Nat.mod_eq_of_lt (by omega : 1 < n)]
  congr 1
  omega

omit [NeZero n] in
theorem step_val (k : Fin n) (i : ℕ) (m : Fin n) (h : m.val = (k.val + i) % n) :
    ((k.val + n - 1) % n + (i + 1)) % n = m.val := by
  rw [h, Nat.add_mod, Nat.mod_mod, ← Nat.add_mod,
    show k.val + n - 1 + (i + 1) = k.val + i + n by omega, Nat.add_mod_right]

/-- The Jacobian of the code, with the lengths and inverse lengths it uses. -/
theorem cJac_eq (hn : 4 ≤ n) (hC : ∀ k : Fin n, C k = P k) (S : ℝ) (M : Fin 3 → ℝ)
    (eps eps2 : ℝ) (a : Fin 3) (k : Fin n) (d : Fin 3) :
    cJac n C S M eps eps2 a (k.val + d.val * n) =
      cj P (autoL P (if n < 7 then eps2 else 0)) (autoR P eps (if n < 7 then eps2 else 0)) S M a k
        d := by
  have hd := d.isLt
  have hk := k.isLt
  unfold cJac
  by_cases h4 : n = 4
  · subst h4
    rw [if_pos rfl, dif_pos (by omega)]
    have := centroid4Df_eq (fun i => C i) S M eps eps2 a k d (by omega)
    rw [this]
    have e : (fun i : Fin 4 => C i) = P := funext hC
    rw [e, if_pos (by norm_num)]
  rw [if_neg h4]
  by_cases h5 : n = 5
  · subst h5
    rw [if_pos rfl, dif_pos (by omega)]
    have := centroid5Df_eq (fun i => C i) S M eps eps2 a k d (by omega)
    rw [this]
    have e : (fun i : Fin 5 => C i) = P := funext hC
    rw [e, if_pos (by norm_num)]
  rw [if_neg h5]
  by_cases h6 : n = 6
  · subst h6
    rw [if_pos rfl, dif_pos (by omega)]
    have := centroid6Df_eq (fun i => C i) S M eps eps2 a k d (by omega)
    rw [this]
    have e : (fun i : Fin 6 => C i) = P := funext hC
    rw [e, if_pos (by norm_num)]
  rw [if_neg h6, if_neg (by omega : ¬ n < 7)]
  have q1 : (k.val + d.val * n) % n = k.val := by
    rw [Nat.add_mul_mod_self_right, Nat.mod_eq_of_lt hk]
  have q2 : (k.val + d.val * n) / n = d.val := by
    rw [Nat.add_mul_div_right _ _ (by omega), Nat.div_eq_of_lt hk, Nat.zero_add]
  simp only [q1, q2]
  rw [dif_pos hd]
  rw [selfDf_eq (fun i => C (((k.val + n - 1) % n + i.val) % n))]
  have p0 : C (((k.val + n - 1) % n + (0 : Fin 3).val) % n) = P (k - 1) := by
    rw [Fin.val_zero, Nat.add_zero, Nat.mod_mod, ← pred_val (by omega), hC]
  have p1 : C (((k.val + n - 1) % n + (1 : Fin 3).val) % n) = P k := by
    rw [show (1 : Fin 3).val = 0 + 1 from rfl, step_val k 0 k
      (by rw [Nat.add_zero, Nat.mod_eq_of_lt hk]), hC]
  have p2 : C (((k.val + n - 1) % n + (2 : Fin 3).val) % n) = P (k + 1) := by
    rw [show (2 : Fin 3).val = 1 + 1 from rfl, step_val k 1 (k + 1)
      (next_val (by omega) k), hC]
  have e1 : (1 : Fin 3) + 1 = 2 := rfl
  have e2 : (1 : Fin 3) - 1 = 0 := rfl
  have e3 : (0 : Fin 3) + 1 = 1 := rfl
  have hk1 : k - 1 + 1 = k := sub_add_cancel k 1
  simp only [cj, autoL, autoR, e1, e2, e3, p0, p1, p2, hk1]

end

/-- C77: with fewer than four points there is no Jacobian. -/
theorem C77_few {n : ℕ} (h0 : n ≠ 0) (hn : n < 4) (C : ℕ → Fin 3 → ℝ) (eps eps2 : ℝ) :
    surfCentroid n C eps eps2 = .error .throws := by
  unfold surfCentroid
  rw [if_neg h0, if_pos hn]

/-- C77: value and Jacobian for all numbers of points from four, if the constants added below the
square roots are zero. -/
theorem C77_partial {n : ℕ} [NeZero n] (hn : 4 ≤ n) (X : Fin n × Fin 3 → ℝ) (C : ℕ → Fin 3 → ℝ)
    (hC : ∀ k : Fin n, C k = poly X k) (hX : ∀ j, poly X j ≠ poly X (j + 1))
    (hl : 1 / 10 ^ 15 ≤ perimeter (poly X)) :
    ∃ f J, surfCentroid n C 0 0 = .ok (f, J) ∧ (∀ a, f a = edgeCentroid (poly X) a) ∧
      ∀ a, IsGrad (fun Y => edgeCentroid (poly Y) a) (fun kd => J a (kd.1.val + kd.2.val * n)) X := by
  have hL := cLength_eq (by omega) hC
  have hM := cMoment_eq (by omega) hC
  unfold surfCentroid
  rw [if_neg (by omega), if_neg (by omega : ¬ n < 4)]
  simp only [hL, not_lt.mpr hl, if_false]
  refine ⟨_, _, rfl, fun a => ?_, fun a => ?_⟩
  · rw [hM, edgeCentroid]
  · refine (centroid_grad X hX a).congr fun kd => ?_
    rw [cJac_eq hn hC]
    have e : (if n < 7 then (0 : ℝ) else 0) = 0 := by split <;> rfl
    have hM' : cMoment n C = fun a => ∑ j, dist3 (poly X j) (poly X (j + 1)) *
        ((poly X j a + poly X (j + 1) a) / 2) := funext hM
    have hL' : autoL (poly X) 0 = fun j => dist3 (poly X j) (poly X (j + 1)) := by
      funext j
      rw [autoL, dist3_eq, add_zero]
    have hR' : autoR (poly X) 0 0 = fun j => 1 / dist3 (poly X j) (poly X (j + 1)) := by
      funext j
      rw [autoR, dist3_eq, add_zero, zero_add]
    rw [e, hM', hL', hR']

/-- C77 as stated, for the constants in use. -/
def C77_statement (eps eps2 : ℝ) : Prop :=
  ∀ (n : ℕ) [NeZero n], 4 ≤ n → ∀ (X : Fin n × Fin 3 → ℝ) (C : ℕ → Fin 3 → ℝ),
    (∀ k : Fin n, C k = poly X k) → (∀ j, poly X j ≠ poly X (j + 1)) →
    1 / 10 ^ 15 ≤ perimeter (poly X) →
    ∃ f J, surfCentroid n C eps eps2 = .ok (f, J) ∧ (∀ a, f a = edgeCentroid (poly X) a) ∧
      ∀ a, IsGrad (fun Y => edgeCentroid (poly Y) a) (fun kd => J a (kd.1.val + kd.2.val * n)) X

/-- Seven points on a line. -/
def line7 : Fin 7 × Fin 3 → ℝ := fun kd => if kd.2 = 0 then (kd.1.val : ℝ) else 0

/-- The same as a list. -/
def line7C (i : ℕ) : Fin 3 → ℝ := poly line7 (Fin.ofNat 7 i)

theorem line7_dist (j k : Fin 7) :
    sqd (poly line7 j) (poly line7 k) = ((j.val : ℝ) - k.val) * (j.val - k.val) := by
  simp [sqd, poly, line7]

theorem line7_ne (j : Fin 7) : poly line7 j ≠ poly line7 (j + 1) := by
  intro h
  have := congrFun h 0
  simp only [poly, line7, if_true, Nat.cast_inj] at this
  have h2 : j = j + 1 := Fin.ext this
  clear h this
  revert j
  decide

theorem line7_per : perimeter (poly line7) = 12 := by
  simp only [perimeter, dist3_eq, line7_dist, Real.sqrt_mul_self_eq_abs]
  simp [Fin.sum_univ_succ]
  norm_num

/-- C77 fails for every positive `eps`. -/
theorem C77_violated {eps : ℝ} (he : 0 < eps) (eps2 : ℝ) : ¬ C77_statement eps eps2 := by
  intro h
  have hC : ∀ k : Fin 7, line7C k = poly line7 k := fun k => by simp [line7C]
  have hl : (1 : ℝ) / 10 ^ 15 ≤ perimeter (poly line7) := by
    rw [line7_per]
    norm_num
  obtain ⟨f, J, h1, -, h3⟩ := h 7 (by norm_num) line7 line7C hC line7_ne hl
  obtain ⟨f', J', h1', -, h3'⟩ := C77_partial (by norm_num) line7 line7C hC line7_ne hl
  have hu := congrFun ((h3 0).unique (h3' 0)) ((1 : Fin 7), (0 : Fin 3))
  simp only at hu
  unfold surfCentroid at h1 h1'
  rw [if_neg (by norm_num), if_neg (by norm_num)] at h1 h1'
  rw [cLength_eq (by norm_num) hC, if_neg (not_lt.mpr hl)] at h1 h1'
  simp only [Except.ok.injEq, Prod.mk.injEq] at h1 h1'
  rw [← h1.2, ← h1'.2, cJac_eq (by norm_num) hC, cJac_eq (by norm_num) hC, line7_per] at hu
  have e1 : (1 : Fin 7) + 1 = 2 := rfl
  have e2 : (1 : Fin 7) - 1 = 0 := rfl
  have e3 : (0 : Fin 7) + 1 = 1 := rfl
  simp only [cj, autoL, autoR, line7_dist, e1, e2, e3] at hu
  simp [poly, line7] at hu
  have e4 : ((1 : ℝ) - 2) * (1 - 2) = 1 := by norm_num
  rw [e4, Real.sqrt_one] at hu
  have hs : Real.sqrt (eps + 1) = 1 := by
    have : (Real.sqrt (eps + 1))⁻¹ = 1 := by linarith
    exact inv_eq_one.mp this
  rw [Real.sqrt_eq_one] at hs
  linarith

example : (∀ j, poly line7 j ≠ poly line7 (j + 1)) ∧ 1 / 10 ^ 15 ≤ perimeter (poly line7) :=
  ⟨line7_ne, by rw [line7_per]; norm_num⟩

end RSVS.Props
