import Verif.Spec.HhwChf
import Verif.Spec.Hlmm

/-!
# The log-forward without volatility of variance

With `γ = 0` the variance of the exchange rate is deterministic and so is the variance of the
logarithm of its forward.
-/

namespace Verif

/-- The deterministic variance of the exchange rate: decays from its initial value to its mean. -/
noncomputable def Cir.decayed (p : Cir) (t : ℝ) : ℝ :=
  p.sigma0 * Real.exp (-p.kappa * t) + p.theta * (1 - Real.exp (-p.kappa * t))

/-- Variance of the log-forward to `T`, gained per unit of time at time `t`. -/
noncomputable def HhwParams.varianceRate (p : HhwParams) (T t : ℝ) : ℝ :=
  fwdVarX p √(p.heston.decayed t) (p.domestic.b t T) (p.foreign.b t T) (p.heston.decayed t)

/-- Variance of the log-forward to `T`. -/
noncomputable def HhwParams.forwardVariance (p : HhwParams) (T : ℝ) : ℝ :=
  ∫ t in (0 : ℝ)..T, p.varianceRate T t

/-- What `2 m` Simpson intervals make of it: the part that decays with the initial variance is
exact, the rest is a Simpson sum. -/
noncomputable def HhwParams.simpsonVariance (p : HhwParams) (T : ℝ) (m : ℕ) : ℝ :=
  p.heston.sigma0 * ((1 - Real.exp (-p.heston.kappa * T)) / p.heston.kappa)
    + simpsonOn m 0 T fun t => p.varianceRate T t - p.heston.sigma0 * Real.exp (-p.heston.kappa * t)

end Verif
