import Verif.Model.Fmm
import Verif.Spec.FxFmm
import Verif.Spec.Cholesky
import Mathlib.Analysis.Calculus.Deriv.Basic

/-!
# What the forward market model has to satisfy

The rates follow `dR_j = μ_j dt + s_j dW_j` with instantaneous correlations `ρ`.  A price process is
driftless when the generator of the diffusion sends the price function to zero.
-/

namespace Verif

open Classical

/-- The state vectors have one entry per rate. -/
structure FmmPath.Fits (p : FmmPath) (m : ℕ) : Prop where
  rates : p.rates.length = m
  yDiag : p.yDiag.length = m
  ratesAtStart : p.ratesAtStart.length = m
  yAtStart : p.yAtStart.length = m

/-- The `j`-th rate, counted from one. -/
noncomputable def FmmPath.R (p : FmmPath) (j : ℕ) : ℝ := p.rates.getD (j - 1) 0

/-- The accumulated variance of the `j`-th rate. -/
noncomputable def FmmPath.Y (p : FmmPath) (j : ℕ) : ℝ := p.yDiag.getD (j - 1) 0

/-- The snapshot of the `j`-th rate. -/
noncomputable def FmmPath.startR (p : FmmPath) (j : ℕ) : ℝ := p.ratesAtStart.getD (j - 1) 0

/-- The snapshot of the `j`-th accumulated variance. -/
noncomputable def FmmPath.startY (p : FmmPath) (j : ℕ) : ℝ := p.yAtStart.getD (j - 1) 0

/-- The length of the `j`-th application period. -/
noncomputable def FmmTenor.len (q : FmmTenor) (j : ℕ) : ℝ := q.T j - q.T (j - 1)

/-- The dimensions that the constructors enforce. -/
structure Fmm.Valid (f : Fmm) : Prop where
  tenor : f.tenor.Ordered
  sigmas : f.sigmas.length = f.tenor.m
  correlation : f.correlation.length = f.tenor.m
  rows : ∀ row ∈ f.correlation, row.length = f.tenor.m
  betas : ∀ b, f.betas = some b → b.length = f.tenor.m
  knots : ∀ l, f.schedule = some (.piecewiseConstant l) → l.length = f.tenor.m ∧ ∀ k ∈ l, k ≠ []

/-- The value of a step function given by its knots: that of the last knot not after `t`, or of the
first knot if all are after `t`. -/
def StepValue (l : List (ℝ × ℝ)) (t v : ℝ) : Prop :=
  (∃ i < l.length, (l.getD i (0, 0)).1 ≤ t ∧ v = (l.getD i (0, 0)).2
    ∧ ∀ j < l.length, i < j → t < (l.getD j (0, 0)).1)
  ∨ (∀ i < l.length, t < (l.getD i (0, 0)).1) ∧ v = (l.getD 0 (0, 0)).2

/-- The drift of the `j`-th rate when the bank account is the numeraire. -/
noncomputable def fmmDrift (ρ : ℕ → ℕ → ℝ) (τ R s : ℕ → ℝ) (j : ℕ) : ℝ :=
  s j * ∑ i ∈ Finset.Icc 1 j, ρ i j * (s i * τ i / (1 + τ i * R i))

/-- The partial derivative in the `j`-th rate. -/
noncomputable def partialR (j : ℕ) (F : (ℕ → ℝ) → ℝ) (R : ℕ → ℝ) : ℝ :=
  deriv (fun x => F (Function.update R j x)) (R j)

/-- The generator of `n` rates with drifts `μ` and covariances `c`. -/
noncomputable def fmmGen (n : ℕ) (μ : ℕ → ℝ) (c : ℕ → ℕ → ℝ) (F : (ℕ → ℝ) → ℝ) (R : ℕ → ℝ) : ℝ :=
  ∑ j ∈ Finset.Icc 1 n, μ j * partialR j F R
    + 1 / 2 * ∑ i ∈ Finset.Icc 1 n, ∑ j ∈ Finset.Icc 1 n, c i j * partialR i (partialR j F) R

/-- A bond maturing at the `k`-th date in units of the bank account. -/
noncomputable def discBond (τ : ℕ → ℝ) (k : ℕ) (R : ℕ → ℝ) : ℝ :=
  ∏ i ∈ Finset.Icc 1 k, (1 + τ i * R i)⁻¹

/-- Drift of `F(t, R, x, y)` when one rate moves by `μ dt + s dW`, `x` by `μx dt + sx dW` and `y` by
`μy dt`. -/
noncomputable def stubGen (μ s μx sx μy : ℝ) (F : ℝ → ℝ → ℝ → ℝ → ℝ) (t r x y : ℝ) : ℝ :=
  deriv (fun t => F t r x y) t + μ * deriv (fun r => F t r x y) r
    + μx * deriv (fun x => F t r x y) x + μy * deriv (fun y => F t r x y) y
    + 1 / 2 * (s ^ 2 * deriv (fun r => deriv (fun r => F t r x y) r) r
      + 2 * (s * sx * deriv (fun r => deriv (fun x => F t r x y) x) r)
      + sx ^ 2 * deriv (fun x => deriv (fun x => F t r x y) x) x)

/-- The state with another time, `k`-th rate, `x` and `k`-th accumulated variance. -/
def FmmPath.move (p : FmmPath) (k : ℕ) (t r x y : ℝ) : FmmPath :=
  { p with rates := p.rates.set (k - 1) r, yDiag := p.yDiag.set (k - 1) y, xActive := x, t := t }

/-- No tenor date is closer to `t` than the tolerance of the code, unless it equals `t`. -/
def OffTolerance (q : FmmTenor) (t : ℝ) : Prop :=
  ∀ j ≤ q.m, q.T j = t ∨ 1 / 10 ^ 15 < |q.T j - t|

end Verif
