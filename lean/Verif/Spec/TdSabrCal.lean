import Verif.Spec.SabrEffective

/-!
# Specification of the time-dependent SABR calibration

The exact effective vol-vol of a pair of schedules, independent of how the code computes it.
-/

namespace Verif

/-- `x` is the exact effective variance of volatility `γ̃² T` of the schedules with the given knots
and values: some step functions with these values have moments which constant parameters with
`γ̃² T = x` reproduce. -/
def EffVar (ks nus oms : List ℝ) (T x : ℝ) : Prop :=
  ∃ γ ω, IsSchedule ks nus γ ∧ IsSchedule ks oms ω ∧ MatchesMoments (moment1 γ ω T) (moment2 γ ω T) x

end Verif
