import Verif.Model.Hlmm
import Verif.Spec.HhwChf
import Mathlib.MeasureTheory.Integral.IntervalIntegral.Basic
import Mathlib.Analysis.SpecialFunctions.Log.Basic

/-!
# What the FX-HLMM1 characteristic function has to satisfy

Independent of the code: the log-forward has the loadings `√σ` on the FX factor, `√v_d ψ_{d,j}` on
the domestic and `-√v_f ψ_{f,j}` on the foreign Libor factors, `j` running over the Libors still
open, where `ψ_j` is `σ_j L_j` times the derivative of `log (1 + τ_j L)`.
-/

namespace Verif

open Classical

/-- The `k`-th tenor date. -/
noncomputable def LiborTenor.T (t : LiborTenor) (k : ℕ) : ℝ := t.dates.getD k 0

/-- The initial `k`-th Libor, counted from one. -/
noncomputable def LiborTenor.L (t : LiborTenor) (k : ℕ) : ℝ := t.libors.getD (k - 1) 0

/-- The dates are non-negative and increasing, one more than there are Libors. -/
def LiborTenor.Ordered (t : LiborTenor) : Prop :=
  t.dates.length = t.n + 1 ∧ 0 ≤ t.T 0 ∧ ∀ i < t.n, t.T i < t.T (i + 1)

/-- Loading of the zero-coupon bond on the `k`-th Libor. -/
noncomputable def loading (l : DdSvLmm) (t : LiborTenor) (k : ℕ) : ℝ :=
  l.sigmas.getD (k - 1) 0 * t.L k
    * deriv (fun x => Real.log (1 + (t.T k - t.T (k - 1)) * x)) (t.L k)

/-- Matrix entry, counted from one. -/
def matAt (m : List (List ℝ)) (i j : ℕ) : ℝ := (m.getD (i - 1) []).getD (j - 1) 0

/-- The correlation matrix is symmetric with unit diagonal. -/
def UnitSymm (m : List (List ℝ)) (n : ℕ) : Prop :=
  (∀ i, 1 ≤ i → i ≤ n → matAt m i i = 1) ∧
    ∀ i j, 1 ≤ i → i ≤ n → 1 ≤ j → j ≤ n → matAt m i j = matAt m j i

/-- The quadratic form of a matrix on the Libors of a set. -/
noncomputable def quadOn (m : List (List ℝ)) (w : ℕ → ℝ) (s : Finset ℕ) : ℝ :=
  ∑ i ∈ s, ∑ j ∈ s, w i * w j * matAt m i j

/-- Variance of `x·dW_ξ + Σ d_j dW_{d,j} + Σ f_j dW_{f,j}` per unit of time. -/
noncomputable def forwardVariance (p : HlmmParams) (s : Finset ℕ) (x : ℝ) (d f : ℕ → ℝ) : ℝ :=
  x * x + quadOn p.domestic.liborCorr d s + quadOn p.foreign.liborCorr f s
    + 2 * (x * ∑ j ∈ s, d j * p.correlations.xiD.getD (j - 1) 0)
    + 2 * (x * ∑ j ∈ s, f j * p.correlations.xiF.getD (j - 1) 0)
    + 2 * ∑ i ∈ s, ∑ j ∈ s, d i * f j * matAt p.correlations.cross i j

/-- The Libors whose accrual period begins at `t` or later. -/
noncomputable def openLibors (q : LiborTenor) (t : ℝ) : Finset ℕ :=
  (Finset.Icc 1 q.n).filter fun j => t ≤ q.T (j - 1)

/-- The Libors whose accrual period lies between `t` and the expiry. -/
noncomputable def openUntil (q : LiborTenor) (t expiry : ℝ) : Finset ℕ :=
  (openLibors q t).filter fun j => q.T j ≤ expiry

/-- The coefficients of the variance of the log-forward: those of `σ`, `v_d` and `v_f`, and the
deterministic rest. -/
structure VarCoeffs where
  ad : ℝ
  af : ℝ
  f : ℝ

/-- The generator of `(x, σ, v_d, v_f)` of the linearised model: `x` has the variance
`σ + A_d v_d + A_f v_f + f` and half its negative as drift, `σ` and `x` have the covariance
`γ ρ σ`, the Libor variances are uncorrelated with everything else. -/
noncomputable def hlmmGenerator (p : HlmmParams) (q : VarCoeffs) (F : ℝ → ℝ → ℝ → ℝ → ℂ)
    (x v y z : ℝ) : ℂ :=
  let w := v + q.ad * y + q.af * z + q.f
  ((-w / 2 : ℝ) : ℂ) * deriv (fun a => F a v y z) x
    + ((w / 2 : ℝ) : ℂ) * deriv (fun b => deriv (fun a => F a v y z) b) x
    + ((p.heston.kappa * (p.heston.theta - v) : ℝ) : ℂ) * deriv (fun a => F x a y z) v
    + ((p.heston.gamma ^ 2 * v / 2 : ℝ) : ℂ) * deriv (fun b => deriv (fun a => F x a y z) b) v
    + ((p.heston.gamma * p.correlations.xiSigma * v : ℝ) : ℂ)
        * deriv (fun b => deriv (fun a => F b a y z) v) x
    + ((p.domestic.lambda * (p.domestic.v0 - y) : ℝ) : ℂ) * deriv (fun a => F x v a z) y
    + ((p.domestic.eta ^ 2 * y / 2 : ℝ) : ℂ) * deriv (fun b => deriv (fun a => F x v a z) b) y
    + ((p.foreign.lambda * (p.foreign.v0 - z) : ℝ) : ℂ) * deriv (fun a => F x v y a) z
    + ((p.foreign.eta ^ 2 * z / 2 : ℝ) : ℂ) * deriv (fun b => deriv (fun a => F x v y a) b) z

/-- Composite Simpson rule with `m` panels on `[a, b]`. -/
noncomputable def simpsonOn (m : ℕ) (a b : ℝ) (f : ℝ → ℝ) : ℝ :=
  ∑ j ∈ Finset.range m, (b - a) / (2 * m) / 3 * (f (a + (2 * j : ℕ) * ((b - a) / (2 * m)))
    + 4 * f (a + (2 * j + 1 : ℕ) * ((b - a) / (2 * m)))
    + f (a + (2 * j + 2 : ℕ) * ((b - a) / (2 * m))))

/-- The segments tile the interval from `prev` to `T`. -/
def Tiles (T : ℝ) : ℝ → List Segment → Prop
  | prev, [] => prev = T
  | prev, s :: rest => prev < s.tau ∧ s.length = s.tau - prev ∧ Tiles T s.tau rest

/-- `D` solves the Riccati equation `D' = a q/2 - λ D + η²/2 D²` on `[0, T]` with `D(0) = 0`, the
coefficient `a` being constant on every segment. -/
def SolvesD (segs : List Segment) (a : Segment → ℝ) (lambda eta T : ℝ) (q : ℂ) (D : ℝ → ℂ) : Prop :=
  D 0 = 0 ∧ ContinuousOn D (Set.Icc 0 T) ∧
    ∀ s ∈ segs, ∀ t ∈ Set.Ioo (s.tau - s.length) s.tau,
      HasDerivAt D (a s * q / 2 - lambda * D t + ((eta ^ 2 : ℝ) : ℂ) / 2 * D t ^ 2) t

end Verif
