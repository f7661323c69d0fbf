import Mathlib.MeasureTheory.Integral.Bochner.Basic

/-!
# Prices without arbitrage between strikes

Undiscounted call prices to one expiry leave no arbitrage between strikes when they are the mean
payoffs of some law of the exchange rate whose mean is the forward.
-/

namespace Verif

open MeasureTheory

/-- The call prices `C` are the mean payoffs of a law on the non-negative numbers with mean `F`. -/
def CallsOfLaw (F : ℝ) (C : ℝ → ℝ) : Prop :=
  ∃ μ : Measure ℝ, IsProbabilityMeasure μ ∧ (∀ᵐ s ∂μ, 0 ≤ s) ∧ Integrable (fun s => s) μ ∧
    ∫ s, s ∂μ = F ∧ ∀ K > 0, C K = ∫ s, max (s - K) 0 ∂μ

/-- The time term of Hagan's formula for `β = 1` (Hagan et al., 2002, formula 2.17). -/
noncomputable def lognormalCorrection (alpha rho nu t : ℝ) : ℝ :=
  1 + (1 / 4 * rho * nu * alpha + (2 - 3 * rho ^ 2) * nu ^ 2 / 24) * t

end Verif
