import Verif.Model.Sabr

/-!
# Prices without arbitrage between expiries
-/

namespace Verif

/-- The coefficient of the expiry in Hagan's formula (Hagan et al., 2002, formula 2.17). -/
noncomputable def haganSlope (p : Sabr) (f k : ℝ) : ℝ :=
  (1 - p.beta) ^ 2 / 24 * (p.alpha ^ 2 / (f * k) ^ (1 - p.beta))
    + 1 / 4 * (p.rho * p.beta * p.nu * p.alpha / (f * k) ^ ((1 - p.beta) / 2))
    + (2 - 3 * p.rho ^ 2) / 24 * p.nu ^ 2

end Verif
