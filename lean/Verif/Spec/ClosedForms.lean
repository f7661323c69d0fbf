import Verif.Spec.ModelMc
import Verif.Spec.ExpectedPayoff

/-!
# Euler schemes of mean-reverting quantities
-/

namespace Verif

/-- A quantity that starts at `r0` and moves by the fraction `x` of its distance to `θ` in each step,
after `k` steps. -/
noncomputable def reverting (x θ r0 : ℝ) (k : ℕ) : ℝ := θ + (1 - x) ^ k * (r0 - θ)

/-- The sum of its values over `N` steps of length `T / N`, with reversion `lam` per unit of time. -/
noncomputable def revertingSum (lam θ r0 T : ℝ) (N : ℕ) : ℝ :=
  ∑ k ∈ Finset.range N, reverting (lam * (T / N)) θ r0 k * (T / N)

/-- The variance after `N` steps of length `T / N` when each step adds independent noise of variance
`σ² T / N` to a quantity that reverts with speed `lam`. -/
noncomputable def revertingVariance (lam σ T : ℝ) (N : ℕ) : ℝ :=
  ∑ k ∈ Finset.range N, ((1 - lam * (T / N)) ^ k) ^ 2 * (σ ^ 2 * (T / N))

end Verif
