import Mathlib.Analysis.Calculus.Deriv.Add
import Mathlib.Analysis.Calculus.Deriv.Prod
import Mathlib.Analysis.Calculus.Deriv.Pow
import Verif.Lemmas.CentroidSecond
import Verif.Props.Centroid

/-! # The Hessian of the centroid of a polygon (C78) -/

namespace RSVS.Props

open RSVS RSVS.Spec RSVS.Math

section Fold

variable {α β : Type} {f : β → α → β}

theorem foldl_keep {P : β → Prop} {l : List α} (h : ∀ x ∈ l, ∀ b, P b → P (f b x)) {b : β}
    (hb : P b) : P (l.foldl f b) := by
  induction l generalizing b with
  | nil => exact hb
  | cons x l ih =>
    exact ih (fun y hy => h y (List.mem_cons_of_mem _ hy)) (h x List.mem_cons_self b hb)

theorem foldl_set {P : β → Prop} {l : List α} (good : α → Prop) (hg : ∃ x ∈ l, good x)
    (h1 : ∀ x ∈ l, good x → ∀ b, P (f b x)) (h2 : ∀ x ∈ l, ¬ good x → ∀ b, P b → P (f b x)) (b : β) :
    P (l.foldl f b) := by
  classical
  induction l generalizing b with
  | nil => simp at hg
  | cons x l ih =>
    rw [List.foldl_cons]
    by_cases hl : ∃ y ∈ l, good y
    · exact ih hl (fun y hy => h1 y (List.mem_cons_of_mem _ hy))
        (fun y hy => h2 y (List.mem_cons_of_mem _ hy)) _
    · have hx : good x := by
        obtain ⟨y, hy, hgy⟩ := hg
        rcases List.mem_cons.mp hy with rfl | hy
        · exact hgy
        · exact absurd ⟨y, hy, hgy⟩ hl
      refine foldl_keep (fun y hy b hb => h2 y (List.mem_cons_of_mem _ hy)
        (fun hgy => hl ⟨y, hy, hgy⟩) b hb) (h1 x List.mem_cons_self hx b)

end Fold

theorem mem_idx3 (t : Fin 3 × Fin 3 × Fin 3) : t ∈ idx3 := by
  obtain ⟨i, j, k⟩ := t
  simp [idx3]

theorem row_inj {n a b : ℕ} {c d : Fin 3} (ha : a < n) (hb : b < n)
    (h : a + c.val * n = b + d.val * n) : a = b ∧ c = d := by
  have h1 : (a + c.val * n) % n = (b + d.val * n) % n := by rw [h]
  rw [Nat.add_mul_mod_self_right, Nat.add_mul_mod_self_right, Nat.mod_eq_of_lt ha,
    Nat.mod_eq_of_lt hb] at h1
  subst h1
  refine ⟨rfl, Fin.ext ?_⟩
  have h2 : c.val * n = d.val * n := by omega
  exact Nat.eq_of_mul_eq_mul_right (by omega) h2

theorem col_inj {n a b : ℕ} {c d e f : Fin 3} (ha : a < n) (hb : b < n)
    (h : a + c.val * n + e.val * 3 * n = b + d.val * n + f.val * 3 * n) : a = b ∧ c = d ∧ e = f := by
  have h1 : (a + (c.val + e.val * 3) * n) = (b + (d.val + f.val * 3) * n) := by
    rw [add_mul, add_mul]
    omega
  have h2 : (a + (c.val + e.val * 3) * n) % n = (b + (d.val + f.val * 3) * n) % n := by rw [h1]
  rw [Nat.add_mul_mod_self_right, Nat.add_mul_mod_self_right, Nat.mod_eq_of_lt ha,
    Nat.mod_eq_of_lt hb] at h2
  subst h2
  have h3 : (c.val + e.val * 3) * n = (d.val + f.val * 3) * n := by omega
  have h4 := Nat.eq_of_mul_eq_mul_right (by omega) h3
  refine ⟨rfl, Fin.ext ?_, Fin.ext ?_⟩ <;> omega

section

variable {n : ℕ} [NeZero n] {C : ℕ → Fin 3 → ℝ}

omit [NeZero n] in
/-- The mixed terms of two different points leave the terms of one point alone. -/
theorem hCopy_diag {i j : ℕ} (hi : i < n) (hj : j < n) (hij : i ≠ j) (temp : Fin 6 → Fin 18 → ℝ)
    (h : ℕ → ℕ → ℝ) (k : Fin n) (a d e : Fin 3) :
    hCopy n i j temp h (k.val + d.val * n) (k.val + e.val * n + a.val * 3 * n) =
      h (k.val + d.val * n) (k.val + e.val * n + a.val * 3 * n) := by
  unfold hCopy
  refine foldl_keep (P := fun g : ℕ → ℕ → ℝ => g (k.val + d.val * n)
    (k.val + e.val * n + a.val * 3 * n) = h _ _) ?_ rfl
  intro t _ b hb
  unfold put
  rw [if_neg, if_neg, hb]
  · rintro ⟨h1, h2⟩
    have q1 := (row_inj k.isLt hi h1).1
    have q2 := (col_inj k.isLt hj h2).1
    omega
  · rintro ⟨h1, h2⟩
    have q1 := (row_inj k.isLt hj h1).1
    have q2 := (col_inj k.isLt hi h2).1
    omega

omit [NeZero n] in
theorem hSelf_diag (hn : 2 ≤ n) (k : Fin n) (l : ℝ) (M : Fin 3 → ℝ) (eps : ℝ) (a d e : Fin 3)
    (jj : ℕ) (hjj : (jj + 1) % n = k.val) (h : ℕ → ℕ → ℝ) :
    hSelf n C l M eps h jj (k.val + d.val * n) (k.val + e.val * n + a.val * 3 * n) =
      selfDdf (fun i => C ((jj + i) % n) 0) (fun i => C ((jj + i) % n) 1)
        (fun i => C ((jj + i) % n) 2) l (M 0) (M 1) (M 2) eps d ⟨e + 3 * a, by omega⟩ := by
  unfold hSelf
  refine foldl_set (P := fun g : ℕ → ℕ → ℝ => g (k.val + d.val * n)
    (k.val + e.val * n + a.val * 3 * n) = _) (fun t => t = (d, e, a)) ⟨_, mem_idx3 _, rfl⟩ ?_ ?_ h
  · rintro t - rfl b
    simp only [put, hjj, and_self, if_true]
  · intro t _ ht b hb
    simp only [put]
    rw [if_neg, hb]
    rintro ⟨h1, h2⟩
    have hlt : (jj + 1) % n < n := Nat.mod_lt _ (by omega)
    have q1 := row_inj k.isLt hlt h1
    have q2 := col_inj k.isLt hlt h2
    exact ht (by rw [q1.2, q2.2.1, q2.2.2])

omit [NeZero n] in
theorem hSelf_other (hn : 2 ≤ n) (k : Fin n) (l : ℝ) (M : Fin 3 → ℝ) (eps : ℝ) (a d e : Fin 3)
    (jj : ℕ) (hjj : (jj + 1) % n ≠ k.val) (h : ℕ → ℕ → ℝ) :
    hSelf n C l M eps h jj (k.val + d.val * n) (k.val + e.val * n + a.val * 3 * n) =
      h (k.val + d.val * n) (k.val + e.val * n + a.val * 3 * n) := by
  unfold hSelf
  refine foldl_keep (P := fun g : ℕ → ℕ → ℝ => g (k.val + d.val * n)
    (k.val + e.val * n + a.val * 3 * n) = h _ _) ?_ rfl
  intro t _ b hb
  simp only [put]
  rw [if_neg, hb]
  rintro ⟨h1, -⟩
  exact hjj (row_inj k.isLt (Nat.mod_lt _ (by omega)) h1).1.symm

/-- The diagonal blocks of the Hessian of the code. -/
theorem cHes_diag (hn : 4 ≤ n) {P : Fin n → Fin 3 → ℝ} (hC : ∀ k : Fin n, C k = P k) (l : ℝ)
    (M : Fin 3 → ℝ) (eps eps2 : ℝ) (h0 : ℕ → ℕ → ℝ) (k : Fin n) (a d e : Fin 3) :
    cHes n C l M eps eps2 h0 (k.val + d.val * n) (k.val + e.val * n + a.val * 3 * n) =
      ch P (autoL P 0) (autoR P eps 0) (autoR3 P) l M a k d e := by
  have hk := k.isLt
  unfold cHes
  refine foldl_keep (P := fun s : (ℕ → ℕ → ℝ) × (Fin 6 → Fin 18 → ℝ) => s.1 (k.val + d.val * n)
    (k.val + e.val * n + a.val * 3 * n) = _) ?_ ?_
  · intro p hp s hs
    simp only [farPairs, List.mem_flatMap, List.mem_range, List.mem_map] at hp
    obtain ⟨j, hj, i, hi, rfl⟩ := hp
    simp only [hNoConnec]
    rw [hCopy_diag (Nat.mod_lt _ (by omega)) (Nat.mod_lt _ (by omega)), hs]
    intro hc
    have h1 : (j + 1) % n = j + 1 := Nat.mod_eq_of_lt (by omega)
    simp only [h1] at hc
    by_cases h2 : j + 2 + i + 1 = n
    · rw [h2, Nat.mod_self] at hc
      omega
    · rw [Nat.mod_eq_of_lt (by omega)] at hc
      omega
  refine foldl_keep (P := fun s : (ℕ → ℕ → ℝ) × (Fin 6 → Fin 18 → ℝ) => s.1 (k.val + d.val * n)
    (k.val + e.val * n + a.val * 3 * n) = _) ?_ ?_
  · intro j hj s hs
    simp only [hConnec]
    rw [hCopy_diag (Nat.mod_lt _ (by omega)) (Nat.mod_lt _ (by omega)), hs]
    intro hc
    have h1 : (j + 1) % n < n := Nat.mod_lt _ (by omega)
    generalize (j + 1) % n = m at hc h1
    by_cases h2 : m + 1 = n
    · rw [h2, Nat.mod_self] at hc
      omega
    · rw [Nat.mod_eq_of_lt (by omega)] at hc
      omega
  refine foldl_set (P := fun g : ℕ → ℕ → ℝ => g (k.val + d.val * n)
    (k.val + e.val * n + a.val * 3 * n) = _) (fun j => (j + 1) % n = k.val)
    ⟨(k.val + n - 1) % n, List.mem_range.mpr (Nat.mod_lt _ (by omega)), ?_⟩ ?_ ?_ h0
  · exact step_val k 0 k (by rw [Nat.add_zero, Nat.mod_eq_of_lt hk])
  · intro j hj hg b
    have hj' : j = (k.val + n - 1) % n := by
      have hj := List.mem_range.mp hj
      by_cases h1 : j + 1 = n
      · rw [h1, Nat.mod_self] at hg
        rw [← hg, Nat.zero_add, Nat.mod_eq_of_lt (by omega)]
        omega
      · rw [Nat.mod_eq_of_lt (by omega)] at hg
        rw [← hg, show j + 1 + n - 1 = j + n by omega, Nat.add_mod_right,
          Nat.mod_eq_of_lt hj]
    rw [hSelf_diag (by omega) k l M eps a d e j hg]
    rw [selfDdf_eq (fun i => C ((j + i.val) % n)), hj']
    have p0 : C (((k.val + n - 1) % n + (0 : Fin 3).val) % n) = P (k - 1) := by
      rw [Fin.val_zero, Nat.add_zero, Nat.mod_mod, ← pred_val (by omega), hC]
    have p1 : C (((k.val + n - 1) % n + (1 : Fin 3).val) % n) = P k := by
      rw [show (1 : Fin 3).val = 0 + 1 from rfl, step_val k 0 k
        (by rw [Nat.add_zero, Nat.mod_eq_of_lt hk]), hC]
    have p2 : C (((k.val + n - 1) % n + (2 : Fin 3).val) % n) = P (k + 1) := by
      rw [show (2 : Fin 3).val = 1 + 1 from rfl, step_val k 1 (k + 1)
        (next_val (by omega) k), hC]
    have e1 : (1 : Fin 3) + 1 = 2 := rfl
    have e2 : (1 : Fin 3) - 1 = 0 := rfl
    have e3 : (0 : Fin 3) + 1 = 1 := rfl
    have hk1 : k - 1 + 1 = k := sub_add_cancel k 1
    simp only [ch, du, dS, dM, autoL, autoR, autoR3, e1, e2, e3, p0, p1, p2, hk1]
  · intro j _ hg b hb
    rw [hSelf_other (by omega) k l M eps a d e j hg, hb]

end

/-- C78 for the second derivatives with respect to the coordinates of one vertex, without `eps`.
Missing: the derivatives with respect to two vertices (wrong, `C78_violated`). -/
theorem C78_partial {n : ℕ} [NeZero n] (hn : 4 ≤ n) (X : Fin n × Fin 3 → ℝ) (C : ℕ → Fin 3 → ℝ)
    (hC : ∀ k : Fin n, C k = poly X k) (hX : ∀ j, poly X j ≠ poly X (j + 1))
    (hl : 1 / 10 ^ 15 ≤ perimeter (poly X)) :
    ∃ f J Hs, surfCentroidHes n C 0 0 = .ok (f, J, Hs) ∧
      ∀ a : Fin 3, ∃ H, IsHess (fun Y => edgeCentroid (poly Y) a) H X ∧
        ∀ (k : Fin n) (d e : Fin 3),
          Hs (k.val + d.val * n) (k.val + e.val * n + a.val * 3 * n) = H (k, d) (k, e) := by
  obtain ⟨f, J, h1, -, -⟩ := C77_partial hn X C hC hX hl
  have hL := cLength_eq (by omega) hC
  have hM := cMoment_eq (by omega) hC
  refine ⟨f, J, _, by rw [surfCentroidHes, h1]; rfl, fun a => ?_⟩
  obtain ⟨H, hH, -, hH2⟩ := centroid_hess (by omega) X hX a
  refine ⟨H, hH, fun k d e => ?_⟩
  rw [hH2, cHes_diag hn hC, hL, if_neg (not_lt.mpr hl)]
  have hM' : cMoment n C = fun a => ∑ j, len X j * ((poly X j a + poly X (j + 1) a) / 2) :=
    funext hM
  have hL' : autoL (poly X) 0 = len X := by
    funext j
    rw [autoL, len, dist3_eq, add_zero]
  have hR' : autoR (poly X) 0 0 = fun j => 1 / len X j := by
    funext j
    rw [autoR, len, dist3_eq, add_zero, zero_add]
  have hR3 : autoR3 (poly X) = fun j => 1 / len X j ^ 3 := by
    funext j
    rw [autoR3, len, dist3_eq, pow32_sqrt (sqd_pos (hX j))]
  rw [hM', hL', hR', hR3]

/-- C78 as stated. -/
def C78_statement (eps eps2 : ℝ) : Prop :=
  ∀ (n : ℕ) [NeZero n], 4 ≤ n → ∀ (X : Fin n × Fin 3 → ℝ) (C : ℕ → Fin 3 → ℝ),
    (∀ k : Fin n, C k = poly X k) → (∀ j, poly X j ≠ poly X (j + 1)) →
    1 / 10 ^ 15 ≤ perimeter (poly X) →
    ∃ f J Hs, surfCentroidHes n C eps eps2 = .ok (f, J, Hs) ∧
      ∀ a : Fin 3, IsHess (fun Y => edgeCentroid (poly Y) a)
        (fun kd le => Hs (kd.1.val + kd.2.val * n) (le.1.val + le.2.val * n + a.val * 3 * n)) X

/-- A square, with the `x` coordinate of the last vertex moved by `t`. -/
def sqT (t : ℝ) : Fin 4 × Fin 3 → ℝ := fun kd =>
  (![![0, 0, 0], ![1, 0, 0], ![1, 1, 0], ![t, 1, 0]] : Fin 4 → Fin 3 → ℝ) kd.1 kd.2

/-- The square as a list. -/
def sqC (i : ℕ) : Fin 3 → ℝ := poly (sqT 0) (Fin.ofNat 4 i)

theorem sqT_cjX {t : ℝ} (ht : t < 1) :
    cjX (sqT t) 1 2 0 = 1 / (2 + (1 - t) + Real.sqrt (1 + t * t)) -
      (1 / 2 + (1 - t) + Real.sqrt (1 + t * t) / 2) /
        (2 + (1 - t) + Real.sqrt (1 + t * t)) ^ 2 := by
  have e1 : (1 : Fin 4) + 1 = 2 := rfl
  have e2 : (2 : Fin 4) + 1 = 3 := rfl
  have e3 : (3 : Fin 4) + 1 = 0 := rfl
  have e4 : (2 : Fin 4) - 1 = 1 := rfl
  have l0 : len (sqT t) 0 = 1 := by simp [len, dist3_eq, sqd, poly, sqT]
  have l1 : len (sqT t) 1 = 1 := by simp [len, dist3_eq, sqd, poly, sqT, e1]
  have l2 : len (sqT t) 2 = 1 - t := by
    simp [len, dist3_eq, sqd, poly, sqT, e2, Real.sqrt_mul_self (sub_pos.mpr ht).le]
  have l3 : len (sqT t) 3 = Real.sqrt (1 + t * t) := by
    simp [len, dist3_eq, sqd, poly, sqT, e3]
    ring_nf
  have hp : perimeter (poly (sqT t)) = 2 + (1 - t) + Real.sqrt (1 + t * t) := by
    have : perimeter (poly (sqT t)) = ∑ j, len (sqT t) j := rfl
    rw [this, Fin.sum_univ_four, l0, l1, l2, l3]
    ring
  have hm : (∑ j, len (sqT t) j * ((poly (sqT t) j 1 + poly (sqT t) (j + 1) 1) / 2)) =
      1 / 2 + (1 - t) + Real.sqrt (1 + t * t) / 2 := by
    rw [Fin.sum_univ_four, l0, l1, l2, l3]
    simp [poly, sqT, e1, e2, e3]
    ring
  have h1t : (1 - t) ≠ 0 := (sub_pos.mpr ht).ne'
  simp only [cjX, cj, hp, hm, e4, e2, l1, l2]
  simp [poly, sqT, h1t]

theorem sqT_deriv : HasDerivAt (fun t => cjX (sqT t) 1 2 0) (1 / 16) 0 := by
  have hs : HasDerivAt (fun t : ℝ => Real.sqrt (1 + t * t)) 0 0 := by
    have h1 : HasDerivAt (fun t : ℝ => 1 + t * t) 0 0 := by
      simpa using ((hasDerivAt_id (0 : ℝ)).mul (hasDerivAt_id (0 : ℝ))).const_add 1
    simpa using h1.sqrt (by norm_num)
  have hS : HasDerivAt (fun t : ℝ => 2 + (1 - t) + Real.sqrt (1 + t * t)) (-1) 0 := by
    have h1 : HasDerivAt (fun t : ℝ => 2 + (1 - t)) (-1) 0 :=
      ((hasDerivAt_id (0 : ℝ)).const_sub 1).const_add 2
    exact (h1.add hs).congr_deriv (by norm_num)
  have hM : HasDerivAt (fun t : ℝ => 1 / 2 + (1 - t) + Real.sqrt (1 + t * t) / 2) (-1) 0 := by
    have h1 : HasDerivAt (fun t : ℝ => 1 / 2 + (1 - t)) (-1) 0 :=
      ((hasDerivAt_id (0 : ℝ)).const_sub 1).const_add (1 / 2)
    exact (h1.add (hs.div_const 2)).congr_deriv (by norm_num)
  have h0 : (2 + (1 - 0) + Real.sqrt (1 + 0 * 0) : ℝ) = 4 := by norm_num
  have h := ((hasDerivAt_const (0 : ℝ) (1 : ℝ)).div hS (by rw [h0]; norm_num)).sub
    (hM.div (hS.pow 2) (by simp only [Pi.pow_apply]; rw [h0]; norm_num))
  have h' : HasDerivAt (fun t : ℝ => 1 / (2 + (1 - t) + Real.sqrt (1 + t * t)) -
      (1 / 2 + (1 - t) + Real.sqrt (1 + t * t) / 2) /
        (2 + (1 - t) + Real.sqrt (1 + t * t)) ^ 2) (1 / 16) 0 := by
    refine h.congr_deriv ?_
    simp
    norm_num
  refine h'.congr_of_eventuallyEq ?_
  filter_upwards [Iio_mem_nhds (show (0 : ℝ) < 1 by norm_num)] with t ht
  exact sqT_cjX ht

theorem sqT_ne (j : Fin 4) : poly (sqT 0) j ≠ poly (sqT 0) (j + 1) := by
  intro h
  have h0 := congrFun h 0
  have h1 := congrFun h 1
  fin_cases j <;> simp [poly, sqT] at h0 h1

theorem sqT_per : perimeter (poly (sqT 0)) = 4 := by
  simp only [perimeter, dist3_eq, Fin.sum_univ_four]
  simp [sqd, poly, sqT]
  norm_num

theorem connecDdf_06 (x y z : Fin 4 → ℝ) (S M0 M1 M2 e1 e2 : ℝ) (A : Fin 6 → Fin 18 → ℝ) :
    connecDdf x y z S M0 M1 M2 e1 e2 A 0 6 = A 0 6 := by
  simp only [connecDdf, Matrix.cons_val]

theorem noConnecDdf_06 (x y z : Fin 7 → ℝ) (S M0 M1 M2 e1 e2 : ℝ) (A : Fin 6 → Fin 18 → ℝ) :
    noConnecDdf x y z S M0 M1 M2 e1 e2 A 0 6 = A 0 6 := by
  simp only [noConnecDdf, Matrix.cons_val]

theorem sq_copy {i j : ℕ} (hij : ¬ (i = 3 ∧ j = 2)) (hi : i < 4) (hj : j < 4)
    {temp : Fin 6 → Fin 18 → ℝ} (ht : temp 0 6 = 0) {h : ℕ → ℕ → ℝ} (hh : h 2 15 = 0) :
    hCopy 4 i j temp h 2 15 = 0 := by
  unfold hCopy
  refine foldl_keep (P := fun g : ℕ → ℕ → ℝ => g 2 15 = 0) ?_ hh
  rintro ⟨a, b, c⟩ - g hg
  simp only [put]
  rw [if_neg (by omega)]
  split
  · rename_i h1
    have ha : a = 0 := Fin.ext (by omega)
    have hb : b = 0 := Fin.ext (by omega)
    have hc : c = 1 := Fin.ext (by omega)
    subst ha hb hc
    exact ht
  · exact hg

theorem sq_connec (l : ℝ) (M : Fin 3 → ℝ) (eps eps2 : ℝ) (L : List ℕ)
    (s : (ℕ → ℕ → ℝ) × (Fin 6 → Fin 18 → ℝ)) (h1 : s.1 2 15 = 0) (h2 : s.2 0 6 = 0) :
    (L.foldl (hConnec 4 sqC l M eps eps2) s).1 2 15 = 0 := by
  induction L generalizing s with
  | nil => exact h1
  | cons j L ih =>
    have ht' := (connecDdf_06 (fun i => sqC ((j + i) % 4) 0) (fun i => sqC ((j + i) % 4) 1)
      (fun i => sqC ((j + i) % 4) 2) l (M 0) (M 1) (M 2) eps eps2 s.2).trans h2
    have h4 : ¬ ((j + 1) % 4 = 3 ∧ ((j + 1) % 4 + 1) % 4 = 2) := by omega
    exact ih _ (sq_copy h4 (Nat.mod_lt _ (by norm_num)) (Nat.mod_lt _ (by norm_num)) ht' h1) ht'

theorem sq_noConnec (l : ℝ) (M : Fin 3 → ℝ) (eps eps2 : ℝ) (L : List (ℕ × ℕ))
    (hL : ∀ p ∈ L, ¬ ((p.1 + 1) % 4 = 3 ∧ (p.2 + 1) % 4 = 2))
    (s : (ℕ → ℕ → ℝ) × (Fin 6 → Fin 18 → ℝ)) (h1 : s.1 2 15 = 0) (h2 : s.2 0 6 = 0) :
    (L.foldl (hNoConnec 4 sqC l M eps eps2) s).1 2 15 = 0 := by
  induction L generalizing s with
  | nil => exact h1
  | cons p L ih =>
    have ht' := (noConnecDdf_06 (two3 4 sqC p.1 p.2 0) (two3 4 sqC p.1 p.2 1)
      (two3 4 sqC p.1 p.2 2) l (M 0) (M 1) (M 2) eps eps2 s.2).trans h2
    exact ih (fun q hq => hL q (List.mem_cons_of_mem _ hq)) _
      (sq_copy (hL p List.mem_cons_self) (Nat.mod_lt _ (by norm_num)) (Nat.mod_lt _ (by norm_num))
        ht' h1) ht'

theorem sq_hes (l : ℝ) (M : Fin 3 → ℝ) (eps eps2 : ℝ) :
    cHes 4 sqC l M eps eps2 (fun _ _ => 0) 2 15 = 0 := by
  have h1 : (List.range 4).foldl (hSelf 4 sqC l M eps) (fun _ _ => 0) 2 15 = 0 := by
    refine foldl_keep (P := fun g : ℕ → ℕ → ℝ => g 2 15 = 0) ?_ rfl
    intro j hj g hg
    unfold hSelf
    refine foldl_keep (P := fun g : ℕ → ℕ → ℝ => g 2 15 = 0) ?_ hg
    rintro ⟨a, b, c⟩ - g hg
    simp only [put]
    rw [if_neg (by omega), hg]
  have hF : ∀ p ∈ farPairs 4, ¬ ((p.1 + 1) % 4 = 3 ∧ (p.2 + 1) % 4 = 2) := by decide
  simp only [cHes]
  generalize List.range 4 = R at *
  generalize farPairs 4 = F at *
  generalize R.foldl (hSelf 4 sqC l M eps) (fun _ _ => 0) = g at *
  exact sq_noConnec l M eps eps2 F hF (_, fun _ _ => 0)
    (sq_connec l M eps eps2 R (g, fun _ _ => 0) h1 rfl) rfl

/-- C78 fails for a square: the second derivative of the `y` coordinate of the centroid with respect
to the `x` coordinates of two vertices at the end of one edge is 1/16, and the code has 0. -/
theorem C78_violated (eps eps2 : ℝ) : ¬ C78_statement eps eps2 := by
  intro h
  have hl : (1 : ℝ) / 10 ^ 15 ≤ perimeter (poly (sqT 0)) := by
    rw [sqT_per]
    norm_num
  obtain ⟨f, J, Hs, h1, h2⟩ := h 4 le_rfl (sqT 0) sqC (fun k => by simp [sqC]) sqT_ne hl
  have h3 : Hs 2 15 = 0 := by
    unfold surfCentroidHes at h1
    cases hs : surfCentroid 4 sqC eps eps2 with
    | error e => rw [hs] at h1; cases h1
    | ok r =>
      rw [hs] at h1
      simp only [Except.map, Except.ok.injEq, Prod.mk.injEq] at h1
      rw [← h1.2.2]
      exact sq_hes _ _ _ _
  have hg := hess_cjX sqT_ne (h2 1) 2 0
  have hd : HasDerivAt (fun t => sqT t) (fun kd => if kd = (3, 0) then 1 else 0) 0 := by
    refine hasDerivAt_pi.mpr fun kd => ?_
    obtain ⟨k, d⟩ := kd
    match k, d with
    | 3, 0 => simpa [sqT] using hasDerivAt_id' (0 : ℝ)
    | 0, 0 | 0, 1 | 0, 2 | 1, 0 | 1, 1 | 1, 2 | 2, 0 | 2, 1 | 2, 2 | 3, 1 | 3, 2 =>
      simpa [sqT] using hasDerivAt_const (0 : ℝ) _
  have hc := HasFDerivAt.comp_hasDerivAt (0 : ℝ) hg hd
  have hu := hc.unique sqT_deriv
  simp [h3] at hu

example : (∀ j, poly (sqT 0) j ≠ poly (sqT 0) (j + 1)) ∧ 1 / 10 ^ 15 ≤ perimeter (poly (sqT 0)) :=
  ⟨sqT_ne, by rw [sqT_per]; norm_num⟩

end RSVS.Props
