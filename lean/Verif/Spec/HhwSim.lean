import Verif.Model.HhwSim
import Verif.Spec.Chain
import Verif.Spec.GaussVec

/-!
# Chains of simulator steps
-/

namespace Verif

/-- Step `k` of a path of the FX-HHW simulator: length `dt k`, mean-reversion targets `θ k`. -/
noncomputable def hhwChainStep (q : HhwSim) (dt : ℕ → ℝ) (θ : ℕ → ℝ × ℝ) (k : ℕ) (s : HhwState)
    (z : Fin 4 → ℝ) : HhwState :=
  q.euler s (dt k) (θ k).1 (θ k).2 z

/-- The law of the draws of `n` steps: independent standard normals, four per step. -/
noncomputable def hhwDraws (n : ℕ) : MeasureTheory.Measure (Fin n → Fin 4 → ℝ) :=
  iidLaw (stdNormal 4) n

/-- The domestic account divided by the foreign account along a path: `exp (∑ (r_d − r_f) dt)`. -/
noncomputable def hhwCarry (q : HhwSim) (dt : ℕ → ℝ) (θ : ℕ → ℝ × ℝ) (n : ℕ) (s : HhwState)
    (z : ℕ → Fin 4 → ℝ) : ℝ :=
  Real.exp (∑ k ∈ Finset.range n, ((chain (hhwChainStep q dt θ) k s z).rd
    - (chain (hhwChainStep q dt θ) k s z).rf) * dt k)

/-- The mean of a mean-reverting Euler scheme. -/
noncomputable def eulerMean (lambda : ℝ) (dt target : ℕ → ℝ) (r0 : ℝ) : ℕ → ℝ
  | 0 => r0
  | k + 1 => (1 - lambda * dt k) * eulerMean lambda dt target r0 k + lambda * target k * dt k

end Verif
