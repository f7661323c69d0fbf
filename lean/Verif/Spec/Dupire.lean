import Verif.Model.Dupire
import Mathlib.Analysis.Calculus.Deriv.Basic

/-!
# What a local-volatility surface has to satisfy

A price surface `C(T, K)` belongs to the local variance `s` at `(T, K)` when it solves the forward
equation `∂C/∂T = ½ s K² ∂²C/∂K² − (rd − rf) K ∂C/∂K − rf C` there.
-/

namespace Verif

open Filter Topology

/-- The price surface `C` with slope `D` in the strike has local variance `s` at `(T, K)`. -/
structure HasLocalVariance (C : ℝ → ℝ → ℝ) (D : ℝ → ℝ) (rd rf T K ct ckk s : ℝ) : Prop where
  time : HasDerivAt (fun t => C t K) ct T
  slope : ∀ᶠ k in 𝓝 K, HasDerivAt (C T) (D k) k
  convexity : HasStrictDerivAt D ckk K
  equation : ct = 1 / 2 * s * K ^ 2 * ckk - (rd - rf) * K * D K - rf * C T K

/-- The market price of a call: the Black formula at the quoted volatility. -/
noncomputable def quotedCall (spot rd rf t k vol : ℝ) : ℝ :=
  bsCallForward (spot * Real.exp ((rd - rf) * t)) k vol t (Real.exp (-rd * t))

/-- The node `(i, j)` of a grid lies at `(T, K)`, the nodes its finite differences use are closer
than `δ`, and the quotes at these nodes are those of the price surface `C`. -/
structure GridNear (expiries strikes : List ℝ) (vols : List (List ℝ)) (spot rd rf : ℝ)
    (C : ℝ → ℝ → ℝ) (T K δ : ℝ) (i j : ℕ) : Prop where
  row : i < expiries.length
  col : j < strikes.length
  expiry : expiries.getD i 0 = T
  strike : strikes.getD j 0 = K
  times : ∀ a < expiries.length, a ≤ i + 1 → i ≤ a + 1 → |expiries.getD a 0 - T| < δ
    ∧ quotedCall spot rd rf (expiries.getD a 0) K ((vols.getD a []).getD j 0)
      = C (expiries.getD a 0) K
  strikes : ∀ b < strikes.length, b ≤ j + 2 → j ≤ b + 2 → |strikes.getD b 0 - K| < δ
    ∧ quotedCall spot rd rf T (strikes.getD b 0) ((vols.getD i []).getD b 0)
      = C T (strikes.getD b 0)

/-- The band of admissible variances: volatilities between 1% and 200%. -/
noncomputable def intoBand (x : ℝ) : ℝ := max (1 / 10000) (min 4 x)

/-- The value at node `(i, j)`. -/
noncomputable def LocalVol.node (v : LocalVol) (i j : ℕ) : ℝ := (v.variance.getD i []).getD j 0

/-- The bilinear interpolation of four corner values. -/
def bilinear (a b v00 v01 v10 v11 : ℝ) : ℝ :=
  (1 - a) * ((1 - b) * v00 + b * v01) + a * ((1 - b) * v10 + b * v11)

/-- `t` moved into the range of the increasing list `xs`. -/
noncomputable def intoRange (xs : List ℝ) (t : ℝ) : ℝ :=
  max (xs.getD 0 0) (min (xs.getD (xs.length - 1) 0) t)

/-- Black call prices of total variance `w(T)`, the same for all strikes. -/
noncomputable def termCall (spot rd rf : ℝ) (w : ℝ → ℝ) (t k : ℝ) : ℝ :=
  quotedCall spot rd rf t k (√(w t / t))

end Verif
