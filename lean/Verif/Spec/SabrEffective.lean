import Mathlib.MeasureTheory.Integral.IntervalIntegral.Basic
import Mathlib.Analysis.SpecialFunctions.Exp

/-!
# Specification of the effective SABR parameters

Time-dependent parameters are functions of time; the moments are integrals (van der Stoep,
Grzelak, Oosterlee, Lemma 4.1, as quoted in the documentation of the module).
-/

namespace Verif

/-- `f` takes the listed values between consecutive knots. -/
def StepOn (f : ℝ → ℝ) : List ℝ → List ℝ → Prop
  | a :: b :: ks, v :: vs => (∀ t, a < t → t < b → f t = v) ∧ StepOn f (b :: ks) vs
  | _, _ => True

/-- `∫₀ᵗ γ²`. -/
noncomputable def varOf (γ : ℝ → ℝ) (t : ℝ) : ℝ := ∫ s in 0..t, γ s ^ 2

/-- First moment: `∫₀ᵀ ω(t)² exp(∫₀ᵗ γ²) dt`. -/
noncomputable def moment1 (γ ω : ℝ → ℝ) (T : ℝ) : ℝ :=
  ∫ t in 0..T, ω t ^ 2 * Real.exp (varOf γ t)

/-- Second moment: `∫₀ᵀ ω(t)² ∫₀ᵗ ω(s)² exp(6∫₀ˢγ² + ∫ₛᵗγ²) ds dt`. -/
noncomputable def moment2 (γ ω : ℝ → ℝ) (T : ℝ) : ℝ :=
  ∫ t in 0..T, ω t ^ 2 * ∫ s in 0..t, ω s ^ 2 * Real.exp (6 * varOf γ s + (varOf γ t - varOf γ s))

/-- `x` is the squared effective vol-vol times expiry for the moments `i` and `m`: the constant
parameters with first moment `i` have second moment `m`. -/
def MatchesMoments (i m x : ℝ) : Prop :=
  (0 < x ∧ m = 1 / 5 * (i / (Real.exp x - 1)) ^ 2 *
    (Real.exp (6 * x) / 6 - Real.exp x + 5 / 6)) ∨ (x = 0 ∧ m = i ^ 2 / 2)

/-- The listed knots and values describe the function `f`: knots increase from zero and `f` takes
the `k`-th value between knots `k` and `k + 1`. -/
def IsSchedule (knots values : List ℝ) (f : ℝ → ℝ) : Prop :=
  knots.head? = some 0 ∧ knots.IsChain (· < ·) ∧ values.length + 1 = knots.length ∧ StepOn f knots values

/-- `T` is a knot after zero, and no later knot is closer than `1e-12`. -/
def IsExpiry (knots : List ℝ) (T : ℝ) : Prop :=
  0 < T ∧ T ∈ knots ∧ ∀ k ∈ knots, T < k → T + 1 / 10 ^ 12 < k

end Verif
