import Verif.Model.HhwChf
import Mathlib.Analysis.Calculus.Deriv.Basic
import Mathlib.Algebra.BigOperators.Group.Finset.Basic

/-!
# What the FX-HHW1 characteristic function has to satisfy

Independent of the code: the log-forward `x = log (ξ P_f / P_d)` has the factor loadings `√σ` on
`W_ξ`, `-η_d B_d` on `W_d` and `η_f B_f` on `W_f`; under the domestic `T`-forward measure the
variance has the additional drift `γ ρ_σd η_d B_d √σ`.  The linearised model replaces `√σ` by
`φ` in the products with the rate loadings.
-/

namespace Verif

/-- Instantaneous variance of `x`: the quadratic form of the correlation matrix at the loadings. -/
def fwdVarX (p : HhwParams) (phi bd bf v : ℝ) : ℝ :=
  let d := -(p.domestic.sigma * bd)
  let f := p.foreign.sigma * bf
  v + d * d + f * f
    + 2 * (p.correlations.xiD * phi * d + p.correlations.xiF * phi * f + p.correlations.dF * d * f)

/-- Instantaneous covariance of `x` and the variance `v`. -/
def fwdCovXV (p : HhwParams) (phi bd bf v : ℝ) : ℝ :=
  let d := -(p.domestic.sigma * bd)
  let f := p.foreign.sigma * bf
  p.heston.gamma * (p.correlations.xiSigma * v + p.correlations.sigmaD * phi * d
    + p.correlations.sigmaF * phi * f)

/-- Drift of the variance under the `T`-forward measure. -/
def fwdDriftV (p : HhwParams) (phi bd v : ℝ) : ℝ :=
  p.heston.kappa * (p.heston.theta - v)
    + p.heston.gamma * p.correlations.sigmaD * (p.domestic.sigma * bd) * phi

/-- The generator of `(x, v)` at fixed values of the deterministic coefficients. -/
noncomputable def fwdGenerator (p : HhwParams) (phi bd bf : ℝ) (F : ℝ → ℝ → ℂ) (x v : ℝ) : ℂ :=
  ((-(fwdVarX p phi bd bf v) / 2 : ℝ) : ℂ) * deriv (fun y => F y v) x
    + ((fwdDriftV p phi bd v : ℝ) : ℂ) * deriv (fun w => F x w) v
    + ((fwdVarX p phi bd bf v / 2 : ℝ) : ℂ) * deriv (fun z => deriv (fun y => F y v) z) x
    + ((fwdCovXV p phi bd bf v : ℝ) : ℂ) * deriv (fun z => deriv (fun w => F z w) v) x
    + ((p.heston.gamma * p.heston.gamma * v / 2 : ℝ) : ℂ)
        * deriv (fun z => deriv (fun w => F x w) z) v

/-- The right-hand side of the equation for `C`. -/
noncomputable def riccatiRate (p : HhwParams) (u c : ℂ) : ℂ :=
  ((Complex.I * u) ^ 2 - Complex.I * u) / 2
    + (p.heston.gamma * p.correlations.xiSigma * (Complex.I * u) - p.heston.kappa) * c
    + (p.heston.gamma : ℂ) ^ 2 / 2 * c ^ 2

/-- The right-hand side of the equation for `A`, given the values of `φ`, `B_d`, `B_f` and `C`. -/
noncomputable def driftRate (p : HhwParams) (phi bd bf : ℝ) (u c : ℂ) : ℂ :=
  (p.heston.kappa * p.heston.theta + p.heston.gamma * p.correlations.sigmaD
      * (p.domestic.sigma * bd) * phi : ℝ) * c
    + (fwdCovXV p phi bd bf 0 : ℝ) * (Complex.I * u) * c
    + (fwdVarX p phi bd bf 0 / 2 : ℝ) * ((Complex.I * u) ^ 2 - Complex.I * u)

/-- Composite Simpson rule with `m` panels on `[0, T]`. -/
noncomputable def simpsonPanels (m : ℕ) (T : ℝ) (f : ℝ → ℂ) : ℂ :=
  ∑ j ∈ Finset.range m, ((T / (2 * m) / 3 : ℝ) : ℂ) * (f ((2 * j : ℕ) * (T / (2 * m)))
    + 4 * f ((2 * j + 1 : ℕ) * (T / (2 * m))) + f ((2 * j + 2 : ℕ) * (T / (2 * m))))

end Verif
