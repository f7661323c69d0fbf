import Mathlib.Analysis.Calculus.Deriv.Basic
import Mathlib.Data.Real.Basic

/-!
# Rates that follow a forward curve
-/

namespace Verif

/-- `m` is the mean of a rate that reverts with speed `lam` towards `θ`, up to the horizon `T`. -/
def IsMean (lam : ℝ) (θ m : ℝ → ℝ) (T : ℝ) : Prop :=
  ∀ s ∈ Set.Icc 0 T, HasDerivWithinAt m (lam * (θ s - m s)) (Set.Icc 0 T) s

/-- Times of a grid from 0 to the horizon with steps of length at most `h`. -/
structure Mesh (t : ℕ → ℝ) (K : ℕ) (h : ℝ) : Prop where
  start : t 0 = 0
  up : ∀ k < K, t k ≤ t (k + 1)
  fine : ∀ k < K, t (k + 1) - t k ≤ h

/-- The target with which the mean rate is the forward rate `f`. -/
noncomputable def fittedTarget (lam : ℝ) (f f' : ℝ → ℝ) (t : ℝ) : ℝ := f t + f' t / lam

end Verif
