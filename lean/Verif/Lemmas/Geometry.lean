import Mathlib.Tactic.Ring
import Mathlib.Tactic.Linarith
import Mathlib.Tactic.LinearCombination
import Mathlib.Tactic.FieldSimp
import Mathlib.Tactic.FinCases
import Mathlib.Algebra.BigOperators.Group.List.Basic
import Mathlib.LinearAlgebra.Matrix.Determinant.Basic
import Mathlib.LinearAlgebra.Matrix.ToLinearEquiv
import Verif.Model.Geometry
import Verif.Spec.Geometry

/-! # Lemmas on the geometry of meshes -/

set_option linter.unusedSectionVars false

namespace RSVS.Geo

open Spec

variable {K : Type} [Field K] [LinearOrder K] [IsStrictOrderedRing K]

theorem inner_eq (a b : P3 K) : inner a b = a 0 * b 0 + a 1 * b 1 + a 2 * b 2 := by
  simp [inner, Fin.sum_univ_three]

theorem dot_eq (a b : P3 K) : dot a b = inner a b := by rw [inner_eq, dot]; ring

theorem cross_zero (a b : P3 K) : cross a b 0 = a 1 * b 2 - a 2 * b 1 := rfl
theorem cross_one (a b : P3 K) : cross a b 1 = a 2 * b 0 - a 0 * b 2 := rfl
theorem cross_two (a b : P3 K) : cross a b 2 = a 0 * b 1 - a 1 * b 0 := rfl

theorem normal_zero (p q r : P3 K) : planeNormal p q r 0 =
    (r 1 - p 1) * (q 2 - p 2) - (r 2 - p 2) * (q 1 - p 1) := rfl
theorem normal_one (p q r : P3 K) : planeNormal p q r 1 =
    (r 2 - p 2) * (q 0 - p 0) - (r 0 - p 0) * (q 2 - p 2) := rfl
theorem normal_two (p q r : P3 K) : planeNormal p q r 2 =
    (r 0 - p 0) * (q 1 - p 1) - (r 1 - p 1) * (q 0 - p 0) := rfl

theorem ext3 {a b : P3 K} (h0 : a 0 = b 0) (h1 : a 1 = b 1) (h2 : a 2 = b 2) : a = b := by
  funext i; fin_cases i <;> assumption

theorem normal_eq_zero_iff (p q r : P3 K) : planeNormal p q r = 0 ↔ Collinear p q r := by
  constructor
  · intro h
    have h0 := congrFun h 0; have h1 := congrFun h 1; have h2 := congrFun h 2
    rw [normal_zero] at h0; rw [normal_one] at h1; rw [normal_two] at h2
    simp only [Pi.zero_apply] at h0 h1 h2
    by_cases hz : ∀ i, q i - p i = 0
    · exact ⟨1, 0, Or.inl one_ne_zero, fun i => by rw [hz i]; ring⟩
    · obtain ⟨k, hk⟩ := not_forall.mp hz
      refine ⟨-(r k - p k), q k - p k, Or.inr hk, ?_⟩
      intro i
      fin_cases k <;> fin_cases i <;> simp only [Fin.zero_eta, Fin.mk_one, Fin.reduceFinMk] <;>
        linarith
  · rintro ⟨a, b, hab, h⟩
    have h0 := h 0; have h1 := h 1; have h2 := h 2
    have key : ∀ x : K, a * x = 0 → b * x = 0 → x = 0 := by
      intro x ha hb
      rcases hab with h | h
      · exact (mul_eq_zero.mp ha).resolve_left h
      · exact (mul_eq_zero.mp hb).resolve_left h
    refine ext3 ?_ ?_ ?_
    · rw [normal_zero]; apply key
      · linear_combination (r 1 - p 1) * h2 - (r 2 - p 2) * h1
      · linear_combination (q 2 - p 2) * h1 - (q 1 - p 1) * h2
    · rw [normal_one]; apply key
      · linear_combination (r 2 - p 2) * h0 - (r 0 - p 0) * h2
      · linear_combination (q 0 - p 0) * h2 - (q 2 - p 2) * h0
    · rw [normal_two]; apply key
      · linear_combination (r 0 - p 0) * h1 - (r 1 - p 1) * h0
      · linear_combination (q 1 - p 1) * h0 - (q 0 - p 0) * h1

theorem inner_sub (n a b : P3 K) : inner n (fun i => a i - b i) = inner n a - inner n b := by
  simp only [inner_eq]; ring

theorem coplanar_iff (p q r s : P3 K) :
    inner (planeNormal p q r) (fun i => s i - p i) = 0 ↔ Coplanar p q r s := by
  let M : Matrix (Fin 3) (Fin 3) K :=
    ![fun i => q i - p i, fun i => r i - p i, fun i => s i - p i]
  have hdet : M.det = - inner (planeNormal p q r) (fun i => s i - p i) := by
    rw [Matrix.det_fin_three, inner_eq, normal_zero, normal_one, normal_two]
    simp only [M, Matrix.cons_val_zero, Matrix.cons_val_one, Matrix.cons_val]
    ring
  have hmul : ∀ (n : P3 K) (j : Fin 3), M.mulVec n j = inner n (M j) := by
    intro n j; simp only [Matrix.mulVec, dotProduct, Spec.inner]
    exact Finset.sum_congr rfl (fun i _ => mul_comm _ _)
  have e0 : M 0 = fun i => q i - p i := rfl
  have e1 : M 1 = fun i => r i - p i := rfl
  have e2 : M 2 = fun i => s i - p i := rfl
  rw [← neg_eq_zero, ← hdet, ← Matrix.exists_mulVec_eq_zero_iff]
  constructor
  · rintro ⟨n, hn, h⟩
    have h0 := congrFun h 0; have h1 := congrFun h 1; have h2 := congrFun h 2
    rw [hmul, e0, inner_sub] at h0
    rw [hmul, e1, inner_sub] at h1
    rw [hmul, e2, inner_sub] at h2
    simp only [Pi.zero_apply] at h0 h1 h2
    exact ⟨n, hn, inner n p, rfl, by linarith, by linarith, by linarith⟩
  · rintro ⟨n, hn, d, hp, hq, hr, hs⟩
    refine ⟨n, hn, ?_⟩
    refine ext3 ?_ ?_ ?_
    · rw [hmul, e0, inner_sub, hq, hp, sub_self]; rfl
    · rw [hmul, e1, inner_sub, hr, hp, sub_self]; rfl
    · rw [hmul, e2, inner_sub, hs, hp, sub_self]; rfl

theorem dotList_three (a : P3 K) (x y z : K) : dotList a [x, y, z] = .ok (inner a ![x, y, z]) := by
  rw [inner_eq]
  show Except.ok _ = _
  simp

theorem dotList_nil (a : P3 K) : dotList a [] = .error .ub := rfl

theorem vertexDistance_ok (p q r : P3 K) (x y z : K) :
    vertexDistance p q r [x, y, z] =
      .ok (inner (planeNormal p q r) (fun i => ![x, y, z] i - p i)) := by
  unfold vertexDistance
  rw [if_neg (by simp), dotList_three, inner_sub, ← dot_eq _ p]
  rfl

theorem distanceLoop_ub (n p : P3 K) (k : Nat) : distanceLoop n p (k + 1) = .error .ub := rfl

/-! ### Length -/

section len

variable {len : P3 K → K} (hl : IsLen len)

include hl

theorem len_eq_of_sq {v : P3 K} {x : K} (hx : 0 ≤ x) (h : x * x = inner v v) : len v = x :=
  (mul_self_inj (hl v).1 hx).mp ((hl v).2.trans h.symm)

theorem len_smul (c : K) (v : P3 K) : len (fun i => v i * c) = |c| * len v := by
  apply len_eq_of_sq hl (mul_nonneg (abs_nonneg c) (hl v).1)
  have h1 := abs_mul_abs_self c
  have h2 := (hl v).2
  rw [show |c| * len v * (|c| * len v) = (|c| * |c|) * (len v * len v) by ring, h1, h2]
  simp only [inner_eq]; ring

theorem len_neg (v : P3 K) : len (fun i => - v i) = len v := by
  apply len_eq_of_sq hl (hl v).1
  rw [(hl v).2]; simp only [inner_eq]; ring

theorem len_swap (a b : P3 K) : len (fun i => a i - b i) = len (fun i => b i - a i) := by
  rw [← len_neg hl]; congr 1; funext i; ring

theorem len_zero_iff (v : P3 K) : len v = 0 ↔ v = 0 := by
  have h := (hl v).2
  constructor
  · intro h0
    rw [h0, inner_eq] at h
    have a := mul_self_nonneg (v 0); have b := mul_self_nonneg (v 1); have c := mul_self_nonneg (v 2)
    refine ext3 ?_ ?_ ?_ <;> apply mul_self_eq_zero.mp <;> linarith
  · rintro rfl
    rw [show Spec.inner (0 : P3 K) 0 = 0 by simp [inner_eq]] at h
    exact mul_self_eq_zero.mp h

end len

/-! ### Weighted means -/

theorem mean_bounds (l : List (P3 K × K)) (i : Fin 3) (lo hi : K) (hw : ∀ x ∈ l, 0 ≤ x.2)
    (hs : 0 < (l.map (·.2)).sum) (hb : ∀ x ∈ l, lo ≤ x.1 i ∧ x.1 i ≤ hi) :
    lo ≤ mean l i ∧ mean l i ≤ hi := by
  have key : ∀ l : List (P3 K × K), (∀ x ∈ l, 0 ≤ x.2) → (∀ x ∈ l, lo ≤ x.1 i ∧ x.1 i ≤ hi) →
      lo * (l.map (·.2)).sum ≤ (l.map (fun x => x.1 i * x.2)).sum ∧
      (l.map (fun x => x.1 i * x.2)).sum ≤ hi * (l.map (·.2)).sum := by
    intro l
    induction l with
    | nil => intro _ _; simp
    | cons x l ih =>
      intro hw hb
      have h1 := ih (fun y hy => hw y (List.mem_cons_of_mem _ hy))
        (fun y hy => hb y (List.mem_cons_of_mem _ hy))
      have h2 := hb x List.mem_cons_self
      have h3 := hw x List.mem_cons_self
      simp only [List.map_cons, List.sum_cons, mul_add]
      exact ⟨add_le_add (mul_le_mul_of_nonneg_right h2.1 h3) h1.1,
        add_le_add (mul_le_mul_of_nonneg_right h2.2 h3) h1.2⟩
  have h := key l hw hb
  exact ⟨(le_div_iff₀ hs).mpr h.1, (div_le_iff₀ hs).mpr h.2⟩

theorem mean_shift (l : List (P3 K × K)) (t : P3 K) (hs : (l.map (·.2)).sum ≠ 0) (i : Fin 3) :
    mean (l.map (fun x => ((fun i => x.1 i + t i : P3 K), x.2))) i = mean l i + t i := by
  have key : ∀ l : List (P3 K × K),
      ((l.map (fun x => ((fun i => x.1 i + t i : P3 K), x.2))).map (fun x => x.1 i * x.2)).sum =
        (l.map (fun x => x.1 i * x.2)).sum + t i * (l.map (·.2)).sum := by
    intro l
    induction l with
    | nil => simp
    | cons x l ih => simp only [List.map_cons, List.sum_cons, ih]; ring
  have hw : (l.map (fun x => ((fun i => x.1 i + t i : P3 K), x.2))).map (·.2) = l.map (·.2) := by
    simp [List.map_map, Function.comp_def]
  unfold mean
  rw [key, hw]
  field_simp

theorem foldl_sums {α : Type} (f : α → P3 K × K) (l : List α) (s : P3 K × K) :
    l.foldl (fun (s : P3 K × K) a => (fun i => s.1 i + (f a).1 i * (f a).2, s.2 + (f a).2)) s =
      (fun i => s.1 i + ((l.map f).map (fun x => x.1 i * x.2)).sum,
        s.2 + ((l.map f).map (·.2)).sum) := by
  induction l generalizing s with
  | nil => simp
  | cons a l ih =>
    rw [List.foldl_cons, ih]
    simp only [List.map_cons, List.sum_cons]
    refine Prod.ext ?_ ?_
    · funext i; simp only; ring
    · simp only; ring

end RSVS.Geo
