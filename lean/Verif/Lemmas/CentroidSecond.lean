import Verif.Lemmas.CentroidHess

/-! # Second derivatives of the centroid of a polygon: differentiation -/

namespace RSVS.Math

open RSVS.Spec

theorem pow32_sqrt {t : ℝ} (h : 0 < t) : pow32 t = Real.sqrt t ^ 3 := by
  unfold pow32
  have h1 : t ^ (3 / 2 : ℝ) = (t ^ (1 / 2 : ℝ)) ^ (3 : ℝ) := by
    rw [← Real.rpow_mul h.le]
    norm_num
  rw [h1, ← Real.sqrt_eq_rpow]
  norm_cast

section Deriv

variable {n : ℕ} [NeZero n]

/-- Edge lengths of a polygon. -/
noncomputable def len (X : Fin n × Fin 3 → ℝ) (j : Fin n) : ℝ := dist3 (poly X j) (poly X (j + 1))

/-- Derivative of the length of edge `j`. -/
noncomputable def dlen (X : Fin n × Fin 3 → ℝ) (j : Fin n) (kd : Fin n × Fin 3) : ℝ :=
  ((if kd.1 = j then 1 else 0) - (if kd.1 = j + 1 then 1 else 0)) *
    ((X (j, kd.2) - X (j + 1, kd.2)) * (1 / len X j))

/-- Derivative of the centroid as a function of the coordinates. -/
noncomputable def cjX (X : Fin n × Fin 3 → ℝ) (a : Fin 3) (k : Fin n) (d : Fin 3) : ℝ :=
  cj (poly X) (len X) (fun j => 1 / len X j) (perimeter (poly X))
    (fun a => ∑ j, len X j * ((poly X j a + poly X (j + 1) a) / 2)) a k d

theorem len_pos {X : Fin n × Fin 3 → ℝ} {j : Fin n} (h : poly X j ≠ poly X (j + 1)) :
    0 < len X j := by
  rw [len, dist3_eq]
  exact Real.sqrt_pos.mpr (sqd_pos h)

theorem perimeter_pos {X : Fin n × Fin 3 → ℝ} (h : ∀ j, poly X j ≠ poly X (j + 1)) :
    0 < perimeter (poly X) :=
  Finset.sum_pos (fun j _ => len_pos (h j)) ⟨0, Finset.mem_univ _⟩

theorem ex_grad {ι : Type} [Fintype ι] {F F' : (ι → ℝ) → ℝ} {G X : ι → ℝ} {Q : (ι → ℝ) → Prop}
    (hF : F = F') (g : IsGrad F' G X) (hG : Q G) : ∃ G, IsGrad F G X ∧ Q G :=
  ⟨G, hF ▸ g, hG⟩

theorem sum_dlen (X : Fin n × Fin 3 → ℝ) (k : Fin n) (e : Fin 3) :
    ∑ j, dlen X j (k, e) = dS (poly X) (fun j => 1 / len X j) k e := by
  have hk : k - 1 + 1 = k := sub_add_cancel k 1
  simp only [dlen]
  rw [sum_shift fun j => (X (j, e) - X (j + 1, e)) * (1 / len X j)]
  simp only [dS, poly, hk]

theorem sum_dmoment (X : Fin n × Fin 3 → ℝ) (a : Fin 3) (k : Fin n) (e : Fin 3) :
    (∑ j, ((len X j * if e = a then ((if k = j then 1 else 0) + if k = j + 1 then 1 else 0) * (1 / 2)
        else 0) + dlen X j (k, e) * ((poly X j a + poly X (j + 1) a) / 2))) =
      dM (poly X) (len X) (fun j => 1 / len X j) a k e := by
  have hk : k - 1 + 1 = k := sub_add_cancel k 1
  rw [Finset.sum_add_distrib]
  have e1 : (∑ j, len X j * if e = a then
      ((if k = j then 1 else 0) + if k = j + 1 then 1 else 0) * (1 / 2) else (0 : ℝ)) =
      if e = a then (len X (k - 1) + len X k) / 2 else 0 := by
    by_cases hd : e = a
    · simp only [hd, if_true]
      have := sum_shift_add (fun j => len X j * (1 / 2)) k
      calc _ = ∑ j, ((if k = j then 1 else 0) + (if k = j + 1 then (1 : ℝ) else 0)) *
          (len X j * (1 / 2)) := Finset.sum_congr rfl fun j _ => by ring
        _ = _ := by rw [this]; ring
    · simp only [hd, if_false, mul_zero, Finset.sum_const_zero]
  have e2 : (∑ j, dlen X j (k, e) * ((poly X j a + poly X (j + 1) a) / 2)) =
      (poly X k e - poly X (k + 1) e) * (1 / len X k) * ((poly X k a + poly X (k + 1) a) / 2) -
      (poly X (k - 1) e - poly X k e) * (1 / len X (k - 1)) *
        ((poly X (k - 1) a + poly X k a) / 2) := by
    have := sum_shift (fun j => (X (j, e) - X (j + 1, e)) * (1 / len X j) *
      ((poly X j a + poly X (j + 1) a) / 2)) k
    simp only [hk] at this
    calc _ = _ := Finset.sum_congr rfl fun j _ => by simp only [dlen]; rw [mul_assoc]
      _ = _ := this
  rw [e1, e2, dM]
  ring

/-- The coordinates `d` and `e` of two vertices, the same vertex or not. -/
theorem cjX_grad (hn : 2 ≤ n) (X : Fin n × Fin 3 → ℝ) (h : ∀ j, poly X j ≠ poly X (j + 1)) (a : Fin 3)
    (k : Fin n) (d : Fin 3) :
    ∃ g, IsGrad (fun Y => cjX Y a k d) g X ∧ ∀ e, g (k, e) =
      ch (poly X) (len X) (fun j => 1 / len X j) (fun j => 1 / len X j ^ 3) (perimeter (poly X))
        (fun a => ∑ j, len X j * ((poly X j a + poly X (j + 1) a) / 2)) a k d e := by
  have gL : ∀ j, IsGrad (fun Y => len Y j) (dlen X j) X := fun j => edge_grad X j (h j)
  have gR : ∀ j, IsGrad (fun Y => 1 / len Y j) _ X := fun j => (gL j).one_div (len_pos (h j)).ne'
  have gP : ∀ j d, IsGrad (fun Y => poly Y j d) _ X := fun j d => IsGrad.coord (j, d)
  have gU : ∀ j d, IsGrad (fun Y => (poly Y j d - poly Y (j + 1) d) * (1 / len Y j)) _ X :=
    fun j d => ((gP j d).sub (gP (j + 1) d)).mul (gR j)
  have gS : IsGrad (fun Y => perimeter (poly Y)) (fun i => ∑ j, dlen X j i) X :=
    IsGrad.sum Finset.univ fun j _ => gL j
  have gM : IsGrad (fun Y => ∑ j, len Y j * ((poly Y j a + poly Y (j + 1) a) / 2)) _ X :=
    IsGrad.sum Finset.univ fun j _ => (gL j).mul (mid_grad X j a)
  have gI : IsGrad (fun Y => if d = a then (len Y (k - 1) + len Y k) / 2 else 0)
      (fun i => if d = a then (dlen X (k - 1) i + dlen X k i) / 2 else 0) X := by
    by_cases hd : d = a
    · simp only [hd, if_true, div_eq_mul_inv]
      exact (((gL (k - 1)).add (gL k)).mul (IsGrad.const _)).congr fun i => by ring
    · simp only [hd, if_false]
      exact IsGrad.const 0
  have hk : k - 1 + 1 = k := sub_add_cancel k 1
  have gA := (gI.add ((gU k d).mul (mid_grad X k a))).sub ((gU (k - 1) d).mul (mid_grad X (k - 1) a))
  have hS := (perimeter_pos h).ne'
  have g1 := gA.div gS hS
  have g2 := (gM.mul ((gU k d).sub (gU (k - 1) d))).div (gS.mul gS) (mul_ne_zero hS hS)
  have g := g1.sub g2
  have hk1 : k ≠ k + 1 := fun hc => by
    have : n = 1 := by simpa using hc
    omega
  have hk2 : k ≠ k - 1 := fun hc => hk1 (by
    have h1 : k + 1 = k - 1 + 1 := congrArg (· + 1) hc
    rw [h1, hk])
  simp only [hk] at g
  refine ex_grad (funext fun Y => ?_) g fun e => ?_
  · simp only [cjX, cj, sq]
  · simp only [sum_dlen, sum_dmoment, Prod.mk.injEq, hk1, hk2, true_and, false_and, if_true,
      if_false, sub_zero, zero_sub, add_zero, zero_add]
    have d1 : dlen X k (k, e) = (poly X k e - poly X (k + 1) e) * (1 / len X k) := by
      simp [dlen, hk1, poly]
    have d2 : dlen X (k - 1) (k, e) = - ((poly X (k - 1) e - poly X k e) * (1 / len X (k - 1))) := by
      simp [dlen, hk2, hk, poly]
    rw [d1, d2]
    have q1 := (len_pos (h k)).ne'
    have q2 := (len_pos (h (k - 1))).ne'
    simp only [ch, du, hk, dM, dS]
    generalize len X k = l1 at *
    generalize len X (k - 1) = l2 at *
    generalize perimeter (poly X) = S at *
    generalize (∑ j, len X j * ((poly X j a + poly X (j + 1) a) / 2)) = M at *
    have c1 : e = d ↔ d = e := eq_comm
    simp only [c1]
    split_ifs <;> field_simp <;> ring

theorem eventually_ne {X : Fin n × Fin 3 → ℝ} (h : ∀ j, poly X j ≠ poly X (j + 1)) :
    ∀ᶠ Y in nhds X, ∀ j, poly Y j ≠ poly Y (j + 1) := by
  refine Filter.eventually_all.mpr fun j => ?_
  have hc : ∀ i, Continuous fun Y : Fin n × Fin 3 → ℝ => poly Y i := fun i =>
    continuous_pi fun d => continuous_apply (i, d)
  exact (isOpen_ne_fun (hc j) (hc (j + 1))).mem_nhds (h j)

/-- The centroid has a Hessian; its diagonal blocks are `ch`, and its entries are the derivatives of
`cjX`. -/
theorem centroid_hess (hn : 2 ≤ n) (X : Fin n × Fin 3 → ℝ) (h : ∀ j, poly X j ≠ poly X (j + 1))
    (a : Fin 3) :
    ∃ H, IsHess (fun Y => edgeCentroid (poly Y) a) H X ∧
      (∀ k d, IsGrad (fun Y => cjX Y a k d) (H (k, d)) X) ∧
      ∀ k d e, H (k, d) (k, e) =
        ch (poly X) (len X) (fun j => 1 / len X j) (fun j => 1 / len X j ^ 3) (perimeter (poly X))
          (fun a => ∑ j, len X j * ((poly X j a + poly X (j + 1) a) / 2)) a k d e := by
  choose g hg hg2 using cjX_grad hn X h a
  refine ⟨fun kd => g kd.1 kd.2, ⟨fun Y kd => cjX Y a kd.1 kd.2, ?_, fun kd => hg kd.1 kd.2⟩, hg, hg2⟩
  filter_upwards [eventually_ne h] with Y hY
  exact centroid_grad Y hY a

/-- A Hessian of the centroid is made of the derivatives of `cjX`. -/
theorem hess_cjX {X : Fin n × Fin 3 → ℝ} (h : ∀ j, poly X j ≠ poly X (j + 1)) {a : Fin 3}
    {H : Fin n × Fin 3 → Fin n × Fin 3 → ℝ} (hH : IsHess (fun Y => edgeCentroid (poly Y) a) H X)
    (k : Fin n) (d : Fin 3) : IsGrad (fun Y => cjX Y a k d) (H (k, d)) X := by
  obtain ⟨G, hG, hG2⟩ := hH
  refine HasFDerivAt.congr_of_eventuallyEq (hG2 (k, d)) ?_
  filter_upwards [eventually_ne h, hG] with Y hY hGY
  exact (congrFun (hGY.unique (centroid_grad Y hY a)) (k, d)).symm

end Deriv

end RSVS.Math
