import Mathlib.Algebra.BigOperators.Fin
import Verif.Model.MatTools
import Verif.Lemmas.Mesh
import Verif.Lemmas.Calculus

/-! # Properties of the chain rule (C51) -/

namespace RSVS.Props

open RSVS RSVS.Spec

theorem sumTo_eq {K : Type} [CommRing K] (n : Nat) (f : Nat → K) :
    DMat.sumTo n f = ∑ k : Fin n, f k := by
  unfold DMat.sumTo
  have h : ∀ (l : List Nat) (s : K), l.foldl (fun s k => s + f k) s = s + (l.map f).sum := by
    intro l
    induction l with
    | nil => simp
    | cons a l ih =>
      intro s
      rw [List.foldl_cons, ih, List.map_cons, List.sum_cons, add_assoc]
  rw [h, zero_add, Fin.sum_univ_eq_sum_range f n]
  induction n with
  | zero => simp
  | succ n ih => rw [List.range_succ, List.map_append, List.sum_append, Finset.sum_range_succ, ih]; simp

/-- The matrix `M` has the given sizes and entries. -/
structure Entries (M : DMat ℝ) {m n : Nat} (f : Fin m → Fin n → ℝ) : Prop where
  rows : M.rows = m
  cols : M.cols = n
  val : ∀ (i : Fin m) (j : Fin n), M.val i j = f i j

/-- What `deriv2nd` returns when it succeeds. -/
theorem deriv2nd_ok {dSdc dcdd hSc hcd D : DMat ℝ} {m n : Nat} (hm : 0 < m) (h1 : dSdc.cols = m)
    (h2 : dcdd.rows = m) (h4c : hcd.cols = m * n)
    (hD : DMat.deriv2nd dSdc dcdd hSc hcd = .ok D) :
    hSc.cols = m ∧ D.rows = hcd.rows ∧ D.cols = n ∧ ∀ i j,
      D.val i j = ∑ a : Fin m, hcd.val i (j + a * n) * dSdc.val 0 a
        + ∑ b : Fin m, (∑ a : Fin m, dcdd.val a i * hSc.val a b) * dcdd.val b j := by
  have hq : hcd.cols / dSdc.cols = n := by rw [h4c, h1, Nat.mul_div_cancel_left _ hm]
  unfold DMat.deriv2nd at hD
  obtain ⟨M, hM, hD⟩ := bind_ok_iff.mp hD
  split at hD
  · cases hD
  rename_i hne
  obtain ⟨A, hA, hD⟩ := bind_ok_iff.mp hD
  obtain ⟨B, hB, hD⟩ := bind_ok_iff.mp hD
  unfold DMat.vecBy3Dim at hM
  rw [if_neg (by omega), if_neg (by rw [hq, h4c, h1]; simp)] at hM
  split at hM
  · cases hM
  cases hM
  unfold DMat.mul at hA hB
  split at hA
  swap
  · cases hA
  cases hA
  split at hB
  swap
  · cases hB
  cases hB
  unfold DMat.add at hD
  split at hD
  swap
  · cases hD
  cases hD
  have h3 : hSc.cols = m := by omega
  refine ⟨h3, rfl, hq, fun i j => ?_⟩
  show DMat.sumTo dSdc.cols _ + DMat.sumTo hSc.cols (fun k => DMat.sumTo dcdd.rows _ * _) = _
  rw [hq, h1, h2, h3]
  simp only [sumTo_eq]
  rfl

/-- C51: the first derivative of a composition. -/
theorem C51_grad {m n : Nat} (S : (Fin m → ℝ) → ℝ) (c : (Fin n → ℝ) → Fin m → ℝ) (x : Fin n → ℝ)
    (s : Fin m → ℝ) (C : Fin m → Fin n → ℝ) (hs : IsGrad S s (c x))
    (hc : ∀ a, IsGrad (fun y => c y a) (C a) x) (dSdc dcdd : DMat ℝ)
    (h1 : Entries dSdc (fun _ : Fin 1 => s)) (h2 : Entries dcdd C) :
    ∃ (D : DMat ℝ) (d : Fin n → ℝ), DMat.deriv1st dSdc dcdd = .ok D ∧
      Entries D (fun _ : Fin 1 => d) ∧ IsGrad (fun y => S (c y)) d x := by
  obtain ⟨r1, c1, v1⟩ := h1
  obtain ⟨r2, c2, v2⟩ := h2
  refine ⟨{ rows := dSdc.rows, cols := dcdd.cols, val := fun i j =>
      DMat.sumTo dSdc.cols (fun k => dSdc.val i k * dcdd.val k j) },
    fun j => ∑ a, s a * C a j, ?_, ⟨?_, ?_, ?_⟩, hs.comp hc⟩
  · unfold DMat.deriv1st DMat.mul
    rw [if_pos (c1.trans r2.symm)]
  · exact r1
  · exact c2
  · intro i j
    show DMat.sumTo dSdc.cols _ = _
    rw [c1, sumTo_eq]
    exact Finset.sum_congr rfl fun a _ => by rw [v1 i a, v2 a j]

/-- C51, with at least one intermediate value: the second derivative of a composition.  The Hessians
of the intermediate values are side by side in `hcd`. -/
theorem C51_hess_partial {m n : Nat} (hm : 0 < m) (S : (Fin m → ℝ) → ℝ)
    (c : (Fin n → ℝ) → Fin m → ℝ) (x : Fin n → ℝ) (s : Fin m → ℝ) (C : Fin m → Fin n → ℝ)
    (HS : Fin m → Fin m → ℝ) (HC : Fin m → Fin n → Fin n → ℝ) (hs : IsGrad S s (c x))
    (hc : ∀ a, IsGrad (fun y => c y a) (C a) x) (hS : IsHess S HS (c x))
    (hC : ∀ a, IsHess (fun y => c y a) (HC a) x) (dSdc dcdd hSc hcd : DMat ℝ)
    (h1 : Entries dSdc (fun _ : Fin 1 => s)) (h2 : Entries dcdd C) (h3 : Entries hSc HS)
    (h4r : hcd.rows = n) (h4c : hcd.cols = m * n)
    (h4 : ∀ (a : Fin m) (i j : Fin n), hcd.val i (j + a * n) = HC a i j) :
    ∃ (D : DMat ℝ) (H : Fin n → Fin n → ℝ), DMat.deriv2nd dSdc dcdd hSc hcd = .ok D ∧
      Entries D H ∧ IsHess (fun y => S (c y)) H x := by
  obtain ⟨r1, c1, v1⟩ := h1
  obtain ⟨r2, c2, v2⟩ := h2
  obtain ⟨r3, c3, v3⟩ := h3
  have hq : hcd.cols / dSdc.cols = n := by rw [h4c, c1, Nat.mul_div_cancel_left _ hm]
  have hok : ∃ D, DMat.deriv2nd dSdc dcdd hSc hcd = .ok D := by
    unfold DMat.deriv2nd DMat.vecBy3Dim
    rw [if_neg (by omega), if_neg (by rw [hq, h4c, c1]; simp), if_neg (by omega)]
    simp only [Except.bind]
    rw [if_neg (by rw [hq]; omega)]
    unfold DMat.mul
    rw [if_pos (show dcdd.transpose.cols = hSc.rows from r2.trans r3.symm)]
    simp only
    rw [if_pos (c3.trans r2.symm)]
    simp only
    unfold DMat.add
    rw [if_pos ⟨show hcd.rows = dcdd.cols by omega,
      show hcd.cols / dSdc.cols = dcdd.cols by rw [hq]; omega⟩]
    exact ⟨_, rfl⟩
  obtain ⟨D, hD⟩ := hok
  obtain ⟨-, e1, e2, e3⟩ := deriv2nd_ok hm c1 r2 h4c hD
  refine ⟨D, fun i j => ∑ a, s a * HC a i j + ∑ a, ∑ b, C a i * HS a b * C b j, hD,
    ⟨e1.trans h4r, e2, fun i j => ?_⟩, IsHess.comp hs hS hc hC⟩
  rw [e3]
  congr 1
  · refine Finset.sum_congr rfl fun a _ => ?_
    rw [h4 a i j, mul_comm]
    exact congrArg (· * _) (v1 0 a)
  · rw [Finset.sum_comm]
    refine Finset.sum_congr rfl fun b _ => ?_
    rw [Finset.sum_mul]
    refine Finset.sum_congr rfl fun a _ => ?_
    rw [v2 b j, v2 a i, v3 a b]

/-- C51: the matrices made from arrays have the rows of the arrays. -/
theorem C51_array {m n : Nat} (hm : 0 < m) (A : Fin m → Fin n → ℝ) :
    ∃ D, DMat.ofArrayVec (List.ofFn fun i => List.ofFn (A i)) = .ok D ∧ Entries D A := by
  obtain ⟨m, rfl⟩ := Nat.exists_eq_succ_of_ne_zero hm.ne'
  have hc : ((List.ofFn fun i => List.ofFn (A i)).headD []).length = n := by
    rw [List.ofFn_succ]
    simp
  unfold DMat.ofArrayVec
  simp only [hc]
  rw [if_pos (by simp only [List.mem_ofFn]; rintro r ⟨i, rfl⟩; simp)]
  refine ⟨_, rfl, by simp, rfl, fun i j => ?_⟩
  have h1 : (List.ofFn fun i => List.ofFn (A i))[(i : Nat)]? = some (List.ofFn (A i)) := by
    rw [List.getElem?_ofFn, dif_pos i.2]
  show (((List.ofFn fun i => List.ofFn (A i))[(i : Nat)]?).bind (·[(j : Nat)]?)).getD 0 = A i j
  rw [h1, Option.bind_some, List.getElem?_ofFn, dif_pos j.2]
  rfl

/-- C51: a row shorter than the first is read out of range. -/
theorem C51_ragged (r s : List ℝ) (l : List (List ℝ)) (hs : s ∈ l) (h : s.length < r.length) :
    DMat.ofArrayVec (r :: l) = .error .ub := by
  unfold DMat.ofArrayVec
  exact if_neg fun hc => absurd (hc s (List.mem_cons_of_mem _ hs)) (by simp [h])

/-- C51: the result is symmetric if the Hessians given are. -/
theorem C51_symm {m n : Nat} (hm : 0 < m) (dSdc dcdd hSc hcd D : DMat ℝ)
    (h1 : dSdc.cols = m) (h2 : dcdd.rows = m) (h4c : hcd.cols = m * n)
    (hs1 : ∀ a b : Nat, a < m → b < m → hSc.val a b = hSc.val b a)
    (hs2 : ∀ a i j : Nat, a < m → i < n → j < n → hcd.val i (j + a * n) = hcd.val j (i + a * n))
    (hD : DMat.deriv2nd dSdc dcdd hSc hcd = .ok D) (i j : Nat) (hi : i < n) (hj : j < n) :
    D.val i j = D.val j i := by
  obtain ⟨-, -, -, e⟩ := deriv2nd_ok hm h1 h2 h4c hD
  rw [e, e]
  simp only [Finset.sum_mul]
  congr 1
  · exact Finset.sum_congr rfl fun a _ => by rw [hs2 a i j a.2 hi hj]
  · rw [Finset.sum_comm]
    refine Finset.sum_congr rfl fun a _ => Finset.sum_congr rfl fun b _ => ?_
    rw [hs1 a b a.2 b.2]
    ring

/-- C51 as stated for the second derivative, with any number of intermediate values. -/
def C51_statement : Prop :=
  ∀ (m n : Nat) (dSdc dcdd hSc hcd : DMat ℝ), dSdc.rows = 1 → dSdc.cols = m → dcdd.rows = m →
    dcdd.cols = n → hSc.rows = m → hSc.cols = m → hcd.rows = n → hcd.cols = m * n →
    ∃ D, DMat.deriv2nd dSdc dcdd hSc hcd = .ok D

/-- C51 fails without intermediate values: the number of columns is divided by 0. -/
theorem C51_violated : ¬ C51_statement := by
  intro h
  obtain ⟨D, hD⟩ := h 0 1 ⟨1, 0, fun _ _ => 0⟩ ⟨0, 1, fun _ _ => 0⟩ ⟨0, 0, fun _ _ => 0⟩
    ⟨1, 0, fun _ _ => 0⟩ rfl rfl rfl rfl rfl rfl rfl rfl
  have : DMat.deriv2nd (K := ℝ) ⟨1, 0, fun _ _ => 0⟩ ⟨0, 1, fun _ _ => 0⟩ ⟨0, 0, fun _ _ => 0⟩
      ⟨1, 0, fun _ _ => 0⟩ = .error .ub := rfl
  rw [this] at hD
  cases hD

/-- Two variables with the intermediate values `x y` and `x + y`, composed with the product. -/
example : IsGrad (fun y : Fin 2 → ℝ => y 0 * y 1) (fun i => if i = 0 then 3 else 2) ![2, 3] ∧
    IsHess (fun y : Fin 2 → ℝ => y 0 * y 1) (fun i j => if i = j then 0 else 1) ![2, 3] := by
  have h : ∀ x : Fin 2 → ℝ, IsGrad (fun y : Fin 2 → ℝ => y 0 * y 1)
      (fun i => if i = 0 then x 1 else x 0) x := by
    intro x
    refine ((IsGrad.coord 0).mul (IsGrad.coord 1)).congr fun i => ?_
    fin_cases i <;> simp
  refine ⟨(h _).congr fun i => by fin_cases i <;> simp, fun x i => if i = 0 then x 1 else x 0,
    Filter.Eventually.of_forall h, fun i => ?_⟩
  fin_cases i
  · simpa using (IsGrad.coord 1).congr fun j => by fin_cases j <;> simp
  · simpa using (IsGrad.coord 0).congr fun j => by fin_cases j <;> simp

end RSVS.Props
