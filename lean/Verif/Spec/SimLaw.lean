import Verif.Spec.Simulation
import Mathlib.Probability.Independence.Basic
import Mathlib.Probability.Distributions.Gaussian.Real

/-!
# Random draws
-/

namespace Verif

open MeasureTheory ProbabilityTheory

/-- A sequence of independent random draws with common law `ν`. -/
structure IidDraws {Ω E : Type} [MeasurableSpace Ω] [MeasurableSpace E] (P : Measure Ω)
    (ν : Measure E) (ξ : ℕ → Ω → E) : Prop where
  measurable : ∀ i, Measurable (ξ i)
  independent : iIndepFun ξ P
  law : ∀ i, P.map (ξ i) = ν

/-- Independent standard normal draws. -/
def NormalDraws {Ω : Type} [MeasurableSpace Ω] (P : Measure Ω) (ξ : ℕ → Ω → ℝ) : Prop :=
  IidDraws P (gaussianReal 0 1) ξ

/-- A simulator that consumes one draw per step: the state after a step is `g draw state time
length`. -/
def drawSim {S E : Type} (s0 : S) (g : E → S → ℝ → ℝ → S) (draws : ℕ → E) : SimModel S ℕ where
  initial _ := s0
  step n s t dt := (g (draws n) s t dt, n + 1)

/-- `W` is, at the dates `dates` after `val` with times `f`, a Brownian motion with drift started at
`x0`: its increments between dates are normal with mean `drift Δ` and variance `vol² Δ`, and
independent of the path so far. -/
structure IsBrownianAt {Ω : Type} [MeasurableSpace Ω] (P : Measure Ω) (val : Int) (dates : List Int)
    (f : Int → ℝ) (x0 drift vol : ℝ) (W : Int → Ω → ℝ) : Prop where
  start : ∀ ω, W val ω = x0
  increment : ∀ a b, a ∈ val :: dates → b ∈ dates → a < b →
    P.map (fun ω => W b ω - W a ω)
        = gaussianReal (drift * (f b - f a)) (vol ^ 2 * (f b - f a)).toNNReal ∧
      IndepFun (fun ω => W b ω - W a ω) (fun ω (d : {d // d ≤ a}) => W d ω) P

end Verif
