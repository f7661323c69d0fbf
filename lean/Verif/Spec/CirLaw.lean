import Verif.Spec.ShortRate
import Mathlib.Probability.Distributions.Gamma

/-!
# The law of a CIR process at a fixed time

The documentation of `cir.rs` (75-80, 108-115) computes with the scaled non-central chi-squared
law.  It is stated here as the Poisson mixture of gamma laws.
-/

namespace Verif

open MeasureTheory ProbabilityTheory

/-- The number `N` of extra degrees of freedom is Poisson with mean `x`; given it, the value has the
gamma law of shape `a + N` and rate `r`. -/
noncomputable def mixedGamma (x a r : ℝ) : Measure ℝ :=
  Measure.sum fun k : ℕ => ENNReal.ofReal (Real.exp (-x) * x ^ k / k.factorial) • gammaMeasure (a + k) r

/-- Law of `σ(t)` for `dσ = κ(θ - σ)dt + γ√σ dW` started at `σ₀`. -/
noncomputable def Cir.law (p : Cir) (t : ℝ) : Measure ℝ :=
  mixedGamma
    (2 * p.kappa * p.sigma0 * Real.exp (-p.kappa * t) / (p.gamma ^ 2 * (1 - Real.exp (-p.kappa * t))))
    (2 * p.kappa * p.theta / p.gamma ^ 2)
    (2 * p.kappa / (p.gamma ^ 2 * (1 - Real.exp (-p.kappa * t))))

/-- Derivative of the scale function of the process: zero is not reached from above exactly when the
scale function is unbounded there (Feller's test). -/
noncomputable def cirScaleDensity (p : Cir) (y : ℝ) : ℝ :=
  y ^ (-(2 * p.kappa * p.theta / p.gamma ^ 2)) * Real.exp (2 * p.kappa * y / p.gamma ^ 2)

end Verif
