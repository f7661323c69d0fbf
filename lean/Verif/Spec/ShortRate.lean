import Verif.Model.ShortRate
import Mathlib.Analysis.SpecialFunctions.Integrals.Basic

/-!
# What the CIR and Hull-White code is supposed to compute
-/

namespace Verif

/-- The path `CirSimulator` produces from `state` when its successive steps use the pairs
`(dt, z)` of step length and draw. -/
noncomputable def cirPath (p : Cir) : ℝ → List (ℝ × ℝ) → List ℝ
  | s, [] => [s]
  | s, (dt, z) :: rest => s :: cirPath p (p.step s dt z) rest

/-- The weight with which a rate shock at `t` decays until `u` under mean reversion `l`. -/
noncomputable def hwDecay (l t u : ℝ) : ℝ := Real.exp (-l * (u - t))

/-- Loading of the log bond price on the short rate: minus the accumulated decay. -/
noncomputable def hwLoading (l t T : ℝ) : ℝ := -∫ u in t..T, hwDecay l t u

/-- Terms of the non-central chi-squared series for the mean of the square root. -/
noncomputable def sqrtTerm (x a b : ℝ) (k : ℕ) : ℝ :=
  x ^ k / k.factorial * (Real.Gamma (b + k) / Real.Gamma (a + k))

/-- Second-order Taylor approximation of `E[√X]` for mean `m` and variance `v`, as quoted in the
documentation of `sqrt_mean_tol`. -/
noncomputable def sqrtTaylor (m v : ℝ) : ℝ := √m * (1 - v / (8 * m ^ 2))

end Verif
