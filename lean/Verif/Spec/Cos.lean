import Mathlib.Analysis.SpecialFunctions.Trigonometric.Inverse
import Mathlib.Analysis.SpecialFunctions.Exp
import Mathlib.MeasureTheory.Measure.CharacteristicFunction.Basic

/-!
# What a cosine-expansion price should be

The price of a European option is the discounted expectation of its payoff; the cosine series
of a payoff on `[a, b]` represents it on `[a, b]` and repeats its mirror image outside.
-/

namespace Verif

/-- Payoff of a call on `exp y`. -/
noncomputable def callPayoff (strike y : ℝ) : ℝ := max (Real.exp y - strike) 0

/-- Payoff of a put on `exp y`. -/
noncomputable def putPayoff (strike y : ℝ) : ℝ := max (strike - Real.exp y) 0

/-- The point of `[a, b]` that `y` is folded onto when the line is folded like a strip of paper
at `a + n (b - a)`: distances to `a` are reduced by the even function of period `2 (b - a)`. -/
noncomputable def foldInto (a b y : ℝ) : ℝ :=
  a + (b - a) / Real.pi * Real.arccos (Real.cos (Real.pi * (y - a) / (b - a)))

/-- The frequency factor of term `k`: `Re (φ(u) e^{-iua})` at `u = kπ/(b-a)`. -/
noncomputable def cosFactor (φ : ℂ → ℂ) (a b : ℝ) (k : ℕ) : ℝ :=
  (φ (k * Real.pi / (b - a) : ℝ) * Complex.exp (-(k * Real.pi / (b - a) * a : ℝ) * Complex.I)).re

end Verif
