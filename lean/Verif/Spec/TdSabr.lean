import Verif.Spec.Chain
import Verif.Spec.GaussVec
import Mathlib.Analysis.SpecialFunctions.Pow.Real

/-!
# The discretised time-dependent SABR model

`dF = α(t) ξ F^β dW`, `dξ = ν(t) ξ dB`, `d⟨W, B⟩ = ρ(t) dt`: Euler steps for the forward, kept
non-negative, and exact steps for the unit volatility factor `ξ`.
-/

namespace Verif

/-- One step of the scheme on `(F, ξ)`; step `k` has length `dt k` and parameters `a k`, `r k`,
`v k`. -/
noncomputable def sabrScheme (a r v dt : ℕ → ℝ) (β : ℝ) (k : ℕ) (s : ℝ × ℝ) (z : Fin 2 → ℝ) :
    ℝ × ℝ :=
  (max (s.1 + a k * s.2 * s.1 ^ β * (√(dt k) * z 0)) 0,
   s.2 * Real.exp (-(v k ^ 2 / 2 * dt k)
    + v k * (√(dt k) * (r k * z 0 + √(1 - r k ^ 2) * z 1))))

/-- What keeping the forward non-negative adds to it in step `k`. -/
noncomputable def sabrCut (a dt : ℕ → ℝ) (β : ℝ) (k : ℕ) (s : ℝ × ℝ) (z : Fin 2 → ℝ) : ℝ :=
  max (-(s.1 + a k * s.2 * s.1 ^ β * (√(dt k) * z 0))) 0

/-- A parameter of the scheme with `n` steps on `[0, T]`: the function at the middle of the step. -/
noncomputable def atMid (f : ℝ → ℝ) (T : ℝ) (n k : ℕ) : ℝ := f ((k + 1 / 2) * (T / n))

end Verif
