import Mathlib.Analysis.Calculus.FDeriv.Basic
import Mathlib.Topology.Algebra.Module.ContinuousLinearMap.PiProd
import Mathlib.Analysis.Normed.Module.FiniteDimension

/-! # Gradients and Hessians of functions of several real variables

The variables are indexed by a finite type. -/

namespace RSVS.Spec

open Topology

/-- `g` is the gradient of `f` at `x` (total derivative). -/
def IsGrad {ι : Type} [Fintype ι] (f : (ι → ℝ) → ℝ) (g : ι → ℝ) (x : ι → ℝ) : Prop :=
  HasFDerivAt f (∑ i, g i • (ContinuousLinearMap.proj i : (ι → ℝ) →L[ℝ] ℝ)) x

/-- `H` is the Hessian of `f` at `x`: the rows are the gradients of the components of the gradient
of `f`, which has to exist around `x`. -/
def IsHess {ι : Type} [Fintype ι] (f : (ι → ℝ) → ℝ) (H : ι → ι → ℝ) (x : ι → ℝ) : Prop :=
  ∃ G : (ι → ℝ) → ι → ℝ, (∀ᶠ y in 𝓝 x, IsGrad f (G y) y) ∧
    ∀ i, IsGrad (fun y => G y i) (H i) x

end RSVS.Spec
