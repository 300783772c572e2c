import Mathlib.Analysis.Calculus.FDeriv.Mul
import Mathlib.Analysis.Calculus.FDeriv.Pi
import Mathlib.Analysis.Calculus.Deriv.Inv
import Mathlib.Analysis.SpecialFunctions.Sqrt
import Mathlib.Tactic.Ring
import Verif.Spec.Calculus

/-! # Rules for gradients -/

namespace RSVS.Spec

open Topology

variable {ι κ : Type} [Fintype ι] [Fintype κ] {f h : (ι → ℝ) → ℝ} {g k : ι → ℝ} {x : ι → ℝ}

/-- The linear map of a gradient. -/
noncomputable def gradMap (g : ι → ℝ) : (ι → ℝ) →L[ℝ] ℝ :=
  ∑ i, g i • (ContinuousLinearMap.proj i : (ι → ℝ) →L[ℝ] ℝ)

theorem gradMap_apply (g v : ι → ℝ) : gradMap g v = ∑ i, g i * v i := by
  simp [gradMap]

theorem gradMap_eq_iff {g k : ι → ℝ} : gradMap g = gradMap k ↔ g = k := by
  classical
  constructor
  · intro h
    funext i
    have := congrArg (fun L : (ι → ℝ) →L[ℝ] ℝ => L (Pi.single i 1)) h
    simpa [gradMap_apply, Pi.single_apply] using this
  · rintro rfl; rfl

theorem IsGrad.of_map {L : (ι → ℝ) →L[ℝ] ℝ} (hf : HasFDerivAt f L x)
    (hL : ∀ v, L v = ∑ i, g i * v i) : IsGrad f g x := by
  have : L = gradMap g := by
    ext v
    rw [hL, gradMap_apply]
  unfold IsGrad
  rw [this] at hf
  exact hf

theorem IsGrad.unique (h1 : IsGrad f g x) (h2 : IsGrad f k x) : g = k :=
  gradMap_eq_iff.mp (HasFDerivAt.unique h1 h2)

theorem IsGrad.congr (h1 : IsGrad f g x) (hg : ∀ i, g i = k i) : IsGrad f k x := by
  have : g = k := funext hg
  rwa [this] at h1

theorem IsGrad.coord [DecidableEq ι] (i : ι) : IsGrad (fun y => y i) (fun j => if j = i then 1 else 0) x := by
  refine IsGrad.of_map (hasFDerivAt_apply i x) fun v => ?_
  simp

theorem IsGrad.const (c : ℝ) : IsGrad (fun _ => c) (fun _ => (0 : ℝ)) x := by
  refine IsGrad.of_map (hasFDerivAt_const c x) fun v => ?_
  simp

theorem IsGrad.add (hf : IsGrad f g x) (hh : IsGrad h k x) :
    IsGrad (fun y => f y + h y) (fun i => g i + k i) x := by
  refine IsGrad.of_map (HasFDerivAt.add hf hh) fun v => ?_
  have e1 := gradMap_apply g v
  have e2 := gradMap_apply k v
  unfold gradMap at e1 e2
  rw [add_apply, e1, e2, ← Finset.sum_add_distrib]
  exact Finset.sum_congr rfl fun _ _ => by ring

theorem IsGrad.sub (hf : IsGrad f g x) (hh : IsGrad h k x) :
    IsGrad (fun y => f y - h y) (fun i => g i - k i) x := by
  refine IsGrad.of_map (HasFDerivAt.sub hf hh) fun v => ?_
  have e1 := gradMap_apply g v
  have e2 := gradMap_apply k v
  unfold gradMap at e1 e2
  rw [sub_apply, e1, e2, ← Finset.sum_sub_distrib]
  exact Finset.sum_congr rfl fun _ _ => by ring

theorem IsGrad.neg (hf : IsGrad f g x) : IsGrad (fun y => - f y) (fun i => - g i) x := by
  refine IsGrad.of_map (HasFDerivAt.neg hf) fun v => ?_
  have e1 := gradMap_apply g v
  unfold gradMap at e1
  rw [neg_apply, e1, ← Finset.sum_neg_distrib]
  exact Finset.sum_congr rfl fun _ _ => by ring

theorem IsGrad.mul (hf : IsGrad f g x) (hh : IsGrad h k x) :
    IsGrad (fun y => f y * h y) (fun i => f x * k i + g i * h x) x := by
  refine IsGrad.of_map (HasFDerivAt.mul hf hh) fun v => ?_
  have e1 := gradMap_apply g v
  have e2 := gradMap_apply k v
  unfold gradMap at e1 e2
  rw [add_apply, smul_apply,
    smul_apply, e1, e2, smul_eq_mul, smul_eq_mul, Finset.mul_sum,
    Finset.mul_sum, ← Finset.sum_add_distrib]
  exact Finset.sum_congr rfl fun _ _ => by ring

/-- Composition with a function of one variable. -/
theorem IsGrad.scalar {φ : ℝ → ℝ} {c : ℝ} (hf : IsGrad f g x) (hφ : HasDerivAt φ c (f x)) :
    IsGrad (fun y => φ (f y)) (fun i => c * g i) x := by
  refine IsGrad.of_map (HasDerivAt.comp_hasFDerivAt x hφ hf) fun v => ?_
  have e1 := gradMap_apply g v
  unfold gradMap at e1
  rw [smul_apply, e1, smul_eq_mul, Finset.mul_sum]
  exact Finset.sum_congr rfl fun _ _ => by ring

theorem IsGrad.sqrt (hf : IsGrad f g x) (h0 : f x ≠ 0) :
    IsGrad (fun y => Real.sqrt (f y)) (fun i => 1 / (2 * Real.sqrt (f x)) * g i) x :=
  hf.scalar (Real.hasDerivAt_sqrt h0)

theorem IsGrad.inv (hf : IsGrad f g x) (h0 : f x ≠ 0) :
    IsGrad (fun y => (f y)⁻¹) (fun i => -((f x) ^ 2)⁻¹ * g i) x :=
  hf.scalar (hasDerivAt_inv h0)

theorem IsGrad.one_div (hf : IsGrad f g x) (h0 : f x ≠ 0) :
    IsGrad (fun y => 1 / f y) (fun i => -((f x) ^ 2)⁻¹ * g i) x := by
  simpa only [_root_.one_div] using hf.inv h0

theorem IsGrad.div (hf : IsGrad f g x) (hh : IsGrad h k x) (h0 : h x ≠ 0) :
    IsGrad (fun y => f y / h y) (fun i => f x * (-((h x) ^ 2)⁻¹ * k i) + g i * (h x)⁻¹) x := by
  simpa only [div_eq_mul_inv] using hf.mul (hh.inv h0)

theorem IsGrad.sum {α : Type} (s : Finset α) {F : α → (ι → ℝ) → ℝ} {D : α → ι → ℝ}
    (hF : ∀ a ∈ s, IsGrad (F a) (D a) x) :
    IsGrad (fun y => ∑ a ∈ s, F a y) (fun i => ∑ a ∈ s, D a i) x := by
  classical
  induction s using Finset.induction with
  | empty => simpa using IsGrad.const (x := x) 0
  | insert a s ha ih =>
    have h1 := (hF a (Finset.mem_insert_self ..)).add
      (ih fun b hb => hF b (Finset.mem_insert_of_mem hb))
    simpa [Finset.sum_insert ha] using h1

/-- Chain rule. -/
theorem IsGrad.comp {S : (κ → ℝ) → ℝ} {s : κ → ℝ} {c : (ι → ℝ) → κ → ℝ}
    {C : κ → ι → ℝ} (hS : IsGrad S s (c x)) (hc : ∀ a, IsGrad (fun y => c y a) (C a) x) :
    IsGrad (fun y => S (c y)) (fun i => ∑ a, s a * C a i) x := by
  have hc' : HasFDerivAt c (ContinuousLinearMap.pi fun a => gradMap (C a)) x :=
    hasFDerivAt_pi.mpr hc
  refine IsGrad.of_map (HasFDerivAt.comp x hS hc') fun v => ?_
  have e1 := gradMap_apply s
  unfold gradMap at e1
  rw [ContinuousLinearMap.comp_apply, e1]
  simp only [ContinuousLinearMap.pi_apply, gradMap_apply, Finset.mul_sum, Finset.sum_mul]
  rw [Finset.sum_comm]
  exact Finset.sum_congr rfl fun _ _ => Finset.sum_congr rfl fun _ _ => by ring

theorem IsGrad.continuousAt (hf : IsGrad f g x) : ContinuousAt f x :=
  HasFDerivAt.continuousAt hf

/-- Second derivative of a composition. -/
theorem IsHess.comp {S : (κ → ℝ) → ℝ} {s : κ → ℝ} {HS : κ → κ → ℝ}
    {c : (ι → ℝ) → κ → ℝ} {C : κ → ι → ℝ} {HC : κ → ι → ι → ℝ}
    (hs : IsGrad S s (c x)) (hS : IsHess S HS (c x))
    (hc : ∀ a, IsGrad (fun y => c y a) (C a) x) (hC : ∀ a, IsHess (fun y => c y a) (HC a) x) :
    IsHess (fun y => S (c y)) (fun i j =>
      ∑ a, s a * HC a i j + ∑ a, ∑ b, C a i * HS a b * C b j) x := by
  obtain ⟨G, hG, hG2⟩ := hS
  choose D hD hD2 using hC
  have hcont : ContinuousAt c x := continuousAt_pi.mpr fun a => (hc a).continuousAt
  refine ⟨fun y i => ∑ a, G (c y) a * D a y i, ?_, fun i => ?_⟩
  · have h1 : ∀ᶠ y in 𝓝 x, IsGrad S (G (c y)) (c y) := hcont.eventually hG
    have h2 : ∀ᶠ y in 𝓝 x, ∀ a, IsGrad (fun y => c y a) (D a y) y :=
      Filter.eventually_all.mpr hD
    filter_upwards [h1, h2] with y h1 h2
    exact h1.comp h2
  · have hGs : G (c x) = s := (hG.self_of_nhds).unique hs
    have hDC : ∀ a, D a x = C a := fun a => ((hD a).self_of_nhds).unique (hc a)
    have h1 : ∀ a ∈ Finset.univ, IsGrad (fun y => G (c y) a * D a y i)
        (fun j => G (c x) a * HC a i j + (∑ b, HS a b * C b j) * D a x i) x := fun a _ =>
      ((hG2 a).comp hc).mul (hD2 a i)
    refine (IsGrad.sum Finset.univ h1).congr fun j => ?_
    rw [hGs]
    simp only [hDC]
    rw [Finset.sum_add_distrib]
    congr 1
    refine Finset.sum_congr rfl fun a _ => ?_
    rw [Finset.sum_mul]
    exact Finset.sum_congr rfl fun b _ => by ring

/-- Differentiates sums, products, square roots and inverses of coordinates. -/
macro "grad" : tactic => `(tactic| repeat' (first
  | apply IsGrad.coord | apply IsGrad.const | apply IsGrad.add | apply IsGrad.sub
  | apply IsGrad.neg | apply IsGrad.sqrt | apply IsGrad.one_div | apply IsGrad.mul))

end RSVS.Spec
