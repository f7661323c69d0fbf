import Mathlib.Analysis.SpecialFunctions.Pow.Real

/-!
# The SABR smile functions as in Hagan et al. (2002)
-/

namespace Verif

/-- `x(z) = ln((√(1 - 2ρz + z²) + z - ρ) / (1 - ρ))`. -/
noncomputable def sabrX (rho z : ℝ) : ℝ :=
  Real.log ((√(1 - 2 * rho * z + z ^ 2) + z - rho) / (1 - rho))

/-- The logarithm of the volatility after correlated draws, from the SDE `dα = ν α dW`: a sum of
`-½ν²dt + ν√dt(ρ z₁ + √(1-ρ²) z₂)`. -/
noncomputable def sabrLogVol (rho nu dt : ℝ) (draws : List (ℝ × ℝ)) : ℝ :=
  (draws.map fun d => -(nu ^ 2 * dt / 2) + nu * (√dt * (rho * d.1 + √(1 - rho ^ 2) * d.2))).sum

end Verif
