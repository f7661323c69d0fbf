import Mathlib.Analysis.SpecialFunctions.Pow.Real
import Mathlib.Data.List.Sort
import Mathlib.Algebra.BigOperators.Group.List.Basic

/-!
# Equal-count bins and the compensated step

Particles are pairs of a forward and a volatility.
-/

namespace Verif

/-- The groups partition the particles, by increasing forward, into at most `n` groups of the same
size; only the last one may be smaller. -/
structure IsBinning (xs : List (ℝ × ℝ)) (n : ℕ) (groups : List (List (ℝ × ℝ))) : Prop where
  parts : groups.flatten.Perm xs
  nonempty : ∀ g ∈ groups, g ≠ []
  count : groups.length ≤ n
  equal : ∃ c, (∀ i (hi : i + 1 < groups.length), groups[i].length = c) ∧ ∀ g ∈ groups, g.length ≤ c
  ordered : groups.Pairwise fun g h => ∀ s ∈ g, ∀ t ∈ h, s.1 ≤ t.1

/-- The mean squared volatility of a group. -/
noncomputable def meanSq (g : List (ℝ × ℝ)) : ℝ := (g.map fun s => s.2 ^ 2).sum / g.length

/-- `e` is the mean squared volatility of the first group that reaches `f`, or of the last group if
none does. -/
def IsBinMean (groups : List (List (ℝ × ℝ))) (f e : ℝ) : Prop :=
  (∃ i, ∃ hi : i < groups.length, (∃ s ∈ groups[i], f ≤ s.1)
      ∧ (∀ j (hj : j < i), ∀ s ∈ groups[j], s.1 < f) ∧ e = meanSq groups[i])
  ∨ (∀ g ∈ groups, ∀ s ∈ g, s.1 < f) ∧ ∃ g, groups.getLast? = some g ∧ e = meanSq g

/-- The forward a particle starts the step from. -/
noncomputable def liftF (f : ℝ) : ℝ := max f (1 / 10 ^ 12)

/-- The diffusion coefficient of the forward with local variance `x` and conditional mean `e` of the
squared volatility: `√(x / (e F^(2β−2))) σ F^β`, the denominator being kept away from zero. -/
noncomputable def slvCoef (x e β : ℝ) (s : ℝ × ℝ) : ℝ :=
  √(x / max (e * liftF s.1 ^ (2 * β - 2)) (1 / 10 ^ 12)) * s.2 * liftF s.1 ^ β

/-- One step: Euler for the forward, kept non-negative, exact for the volatility. -/
noncomputable def slvStep (x e β r v dt : ℝ) (s : ℝ × ℝ) (z : Fin 2 → ℝ) : ℝ × ℝ :=
  (max (liftF s.1 + slvCoef x e β s * (√dt * z 0)) 0,
   s.2 * Real.exp (-(v ^ 2 / 2 * dt) + v * (√dt * (r * z 0 + √(1 - r ^ 2) * z 1))))

/-- The population `Q` is the population `P` after one step with local variance `L`, bins of `P`, and
draws `z i` for particle `i`. -/
def SlvAdvance (L : ℝ → ℝ) (nBins : ℕ) (β r v dt : ℝ) (z : ℕ → Fin 2 → ℝ) (P Q : List (ℝ × ℝ)) :
    Prop :=
  Q.length = P.length ∧ ∃ groups, IsBinning P nBins groups
    ∧ ∀ i s, P[i]? = some s → ∃ e, IsBinMean groups (liftF s.1) e
      ∧ Q[i]? = some (slvStep (L (liftF s.1)) e β r v dt s (z i))

end Verif
