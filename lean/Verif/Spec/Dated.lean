import Verif.Model.Outcome
import Verif.Spec.Chain
import Mathlib.Data.Real.Basic

/-!
# Integration dates and runs of a simulator
-/

namespace Verif

/-- `later` are the integration dates after `val` for the observation dates `dates`: in increasing
order, the observation dates and every `step`-th day up to the last of them. -/
structure IsGrid (val : Int) (dates : List Int) (step : ℕ) (later : List Int) : Prop where
  increasing : (val :: later).Pairwise (· < ·)
  mem : ∀ g, g ∈ later ↔ g ∈ dates ∨ (val < g ∧ (step : Int) ∣ g - val ∧ ∃ d ∈ dates, g ≤ d)

/-- The results of several runs; the first that stops decides. -/
def together {S : Type} : List (Outcome S) → Outcome (List S)
  | [] => .ok []
  | .ok s :: l =>
    match together l with
    | .ok r => .ok (s :: r)
    | .fail e => .fail e
    | .panic => .panic
  | .fail e :: _ => .fail e
  | .panic :: _ => .panic

/-- `n` steps of length `dt`, each told the middle of its time interval. -/
noncomputable def regularRun {S E : Type} (g : E → S → ℝ → ℝ → S) (dt : ℝ) (n : ℕ) (s0 : S) (z : ℕ → E) : S :=
  chain (fun k s x => g x s ((k + 1 / 2) * dt) dt) n s0 z

/-- Observation dates on the regular grid of `N` steps, its end among them. -/
structure OnGrid (val : Int) (dates : List Int) (step N : ℕ) : Prop where
  after : ∀ d ∈ dates, val < d ∧ (step : Int) ∣ d - val ∧ d ≤ val + N * step
  ends : val + N * step ∈ dates

/-- The mean of a rate that reverts with speed `lam` towards `θ`, after `k` Euler steps between the times
`t`; each step reads the target in its middle. -/
noncomputable def steppedMean (lam : ℝ) (θ : ℝ → ℝ) (t : ℕ → ℝ) (r0 : ℝ) : ℕ → ℝ
  | 0 => r0
  | k + 1 => steppedMean lam θ t r0 k
      + lam * (θ ((t k + t (k + 1)) / 2) - steppedMean lam θ t r0 k) * (t (k + 1) - t k)

/-- Its variance. -/
noncomputable def steppedVariance (lam σ : ℝ) (t : ℕ → ℝ) : ℕ → ℝ
  | 0 => 0
  | k + 1 => (1 - lam * (t (k + 1) - t k)) ^ 2 * steppedVariance lam σ t k + σ ^ 2 * (t (k + 1) - t k)

end Verif
