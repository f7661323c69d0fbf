import Mathlib.Probability.Distributions.Gaussian.Real
import Mathlib.MeasureTheory.Constructions.Pi

/-!
# Independent standard normal draws
-/

namespace Verif

/-- The law of `n` independent standard normal draws. -/
noncomputable def stdNormal (n : ℕ) : MeasureTheory.Measure (Fin n → ℝ) :=
  MeasureTheory.Measure.pi fun _ => ProbabilityTheory.gaussianReal 0 1

end Verif
