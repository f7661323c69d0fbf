import Verif.Model.FxFmm
import Verif.Spec.Hlmm

/-!
# What the FX-FMM1 characteristic function has to satisfy

Independent of the code: the `j`-th rate has the absolute volatility `σ_j γ_j(t)`, where `γ_j(t)` is
the part of its application period still ahead, so a bond has the loading `σ_j γ_j(t)` times the
derivative of `log (1 + τ_j R)`.
-/

namespace Verif

open Classical

/-- The `k`-th tenor date. -/
noncomputable def FmmTenor.T (q : FmmTenor) (k : ℕ) : ℝ := q.dates.getD k 0

/-- The initial `k`-th rate, counted from one. -/
noncomputable def FmmTenor.R (q : FmmTenor) (k : ℕ) : ℝ := q.rates.getD (k - 1) 0

/-- There is a rate, and the dates are non-negative and increasing, one more than there are
rates. -/
def FmmTenor.Ordered (q : FmmTenor) : Prop :=
  1 ≤ q.m ∧ q.dates.length = q.m + 1 ∧ 0 ≤ q.T 0 ∧ ∀ i < q.m, q.T i < q.T (i + 1)

/-- The part of the `j`-th application period still ahead at `t`. -/
noncomputable def ahead (q : FmmTenor) (j : ℕ) (t : ℝ) : ℝ :=
  max 0 (min 1 ((q.T j - t) / (q.T j - q.T (j - 1))))

/-- The rates whose application period has not ended before `t`. -/
noncomputable def liveRates (q : FmmTenor) (t : ℝ) : Finset ℕ :=
  (Finset.Icc 1 q.m).filter fun j => t ≤ q.T j

/-- Loading of a zero-coupon bond on the `j`-th rate at time `t`. -/
noncomputable def fmmLoading (l : FmmSide) (q : FmmTenor) (t : ℝ) (j : ℕ) : ℝ :=
  l.sigmas.getD (j - 1) 0 * ahead q j t
    * deriv (fun x => Real.log (1 + (q.T j - q.T (j - 1)) * x)) (q.R j)

/-- Variance of `x·dW_ξ + Σ d_j dW_{d,j} + Σ f_j dW_{f,j}` per unit of time. -/
noncomputable def fmmVariance (p : FmmParams) (s : Finset ℕ) (x : ℝ) (d f : ℕ → ℝ) : ℝ :=
  x * x + quadOn p.domestic.rateCorr d s + quadOn p.foreign.rateCorr f s
    + 2 * (x * ∑ j ∈ s, d j * p.correlations.xiD.getD (j - 1) 0)
    + 2 * (x * ∑ j ∈ s, f j * p.correlations.xiF.getD (j - 1) 0)
    + 2 * ∑ i ∈ s, ∑ j ∈ s, d i * f j * matAt p.correlations.cross i j

/-- The variance that a currency's rates with unit variance add to the log-forward at time `t`. -/
noncomputable def sideVariance (l : FmmSide) (q : FmmTenor) (t : ℝ) : ℝ :=
  quadOn l.rateCorr (fmmLoading l q t) (liveRates q t)

/-- A bound on the speed at which `sideVariance` changes. -/
noncomputable def sideSpeed (l : FmmSide) (q : FmmTenor) : ℝ :=
  ∑ i ∈ Finset.Icc 1 q.m, ∑ j ∈ Finset.Icc 1 q.m,
    |l.sigmas.getD (i - 1) 0 * deriv (fun x => Real.log (1 + (q.T i - q.T (i - 1)) * x)) (q.R i)|
      * |l.sigmas.getD (j - 1) 0 * deriv (fun x => Real.log (1 + (q.T j - q.T (j - 1)) * x)) (q.R j)|
      * |matAt l.rateCorr i j| * (1 / (q.T i - q.T (i - 1)) + 1 / (q.T j - q.T (j - 1)))

/-- The live rates whose application period ends by the expiry. -/
noncomputable def liveUntil (q : FmmTenor) (t expiry : ℝ) : Finset ℕ :=
  (liveRates q t).filter fun j => q.T j ≤ expiry

/-- The reversed times at which the code cuts the life of an option: both ends and the tenor dates
but the last. -/
def CutPoint (q : FmmTenor) (T x : ℝ) : Prop :=
  x = 0 ∨ x = T ∨ ∃ k < q.m, x = T - q.T k

/-- `[a, b]` lies between neighbouring cut points. -/
def CutInterval (q : FmmTenor) (T a b : ℝ) : Prop :=
  CutPoint q T a ∧ CutPoint q T b ∧ 0 ≤ a ∧ a < b ∧ b ≤ T
    ∧ ∀ k < q.m, ¬ (a < T - q.T k ∧ T - q.T k < b)

end Verif
