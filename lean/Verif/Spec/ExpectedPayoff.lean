import Mathlib.Probability.Distributions.Gaussian.Real

/-!
# Expected payoffs
-/

namespace Verif

open MeasureTheory ProbabilityTheory

/-- A level with mean `F` whose logarithm has variance `v`, driven by a standard normal draw `z`. -/
noncomputable def lognormalLevel (F v z : ℝ) : ℝ := F * Real.exp (√v * z - v / 2)

/-- A level with mean `F` and variance `v`, driven by a standard normal draw `z`. -/
noncomputable def normalLevel (F v z : ℝ) : ℝ := F + √v * z

/-- What a call (`true`) or a put (`false`) with strike `K` pays at level `x`. -/
noncomputable def vanillaPayoff (isCall : Bool) (K x : ℝ) : ℝ :=
  if isCall then max (x - K) 0 else max (K - x) 0

/-- The mean of `g` over a standard normal draw. -/
noncomputable def meanOverDraw (g : ℝ → ℝ) : ℝ := ∫ z, g z ∂gaussianReal 0 1

end Verif
