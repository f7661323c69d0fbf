import Mathlib.MeasureTheory.Integral.IntegralEqImproper
import Mathlib.Analysis.SpecialFunctions.Gaussian.GaussianIntegral
import Verif.Model.Outcome

/-!
# Standard normal distribution

Model of `/repo/src/math/normal.rs`.  The functions of the `statrs` crate used there are
idealised to the exact density, distribution function and quantile function.
-/

namespace Verif

open MeasureTheory Classical

/-- `pdf` (`normal.rs` 20-22): `exp(-x²/2) / √(2π)`. -/
noncomputable def normPdf (x : ℝ) : ℝ := Real.exp (-(x ^ 2) / 2) / √(2 * Real.pi)

/-- `cdf` (`normal.rs` 15-17): the integral of the density up to `x`. -/
noncomputable def normCdf (x : ℝ) : ℝ := ∫ t in Set.Iic x, normPdf t

/-- `inverse_cdf` (`normal.rs` 25-32): panics outside the open unit interval, otherwise
the point with distribution function `p` (it exists, `exists_quantile`). -/
noncomputable def normInv (p : ℝ) : Outcome ℝ :=
  if 0 < p ∧ p < 1 then .ok (Classical.epsilon fun x => normCdf x = p) else .panic

end Verif
