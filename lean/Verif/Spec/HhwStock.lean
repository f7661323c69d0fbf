import Verif.Model.HhwStock
import Verif.Spec.HhwSim

/-!
# Correlations and chains of the foreign-stock simulator
-/

namespace Verif

/-- The correlations of the six factors `ξ, σ, r_d, r_f, S, ω`: the base matrix `m`, `x` between the
FX rate and the stock, `w` between the stock and its variance; the stock factors see the rest of
the base block through the FX rate only. -/
noncomputable def stockCorr (m : ℕ → ℕ → ℝ) (x w : ℝ) : ℕ → ℕ → ℝ
  | 4, 4 => 1
  | 5, 5 => 1
  | 4, 5 => w
  | 5, 4 => w
  | 4, j => x * m 0 j
  | 5, j => x * w * m 0 j
  | i, 4 => x * m 0 i
  | i, 5 => x * w * m 0 i
  | i, j => m i j

/-- Step `k` of a path of the foreign-stock simulator, of length `dt k`. -/
noncomputable def stockChainStep (q : HhwStockSim) (dt : ℕ → ℝ) (k : ℕ) (s : HhwStockState)
    (z : Fin 6 → ℝ) : HhwStockState :=
  q.euler s (dt k) z

/-- The first four of six draws. -/
def baseDraws (z : Fin 6 → ℝ) : Fin 4 → ℝ := fun j => z (j.castLE (by norm_num))

/-- The domestic account along a path: `exp (∑ r_d dt)`. -/
noncomputable def stockAccount (q : HhwStockSim) (dt : ℕ → ℝ) (n : ℕ) (s : HhwStockState)
    (z : ℕ → Fin 6 → ℝ) : ℝ :=
  Real.exp (∑ k ∈ Finset.range n, (chain (stockChainStep q dt) k s z).fx.rd * dt k)

end Verif
