import Verif.Spec.SimLaw

/-!
# Runs of a simulator as samples
-/

namespace Verif

open MeasureTheory ProbabilityTheory

/-- The runs `r n` (the terminal states of `n` paths, for every `n`) are samples: what is observed of
path `j` is the `j`-th term of one sequence of independent random quantities with a common law, which
does not depend on the number of paths. -/
def IidSample {Ω S V : Type} [MeasurableSpace Ω] [MeasurableSpace V] (P : Measure Ω) (obs : S → V)
    (r : ℕ → Ω → List S) : Prop :=
  ∃ X : ℕ → Ω → V, (∀ n ω, 0 < n → (r n ω).map obs = (List.range n).map fun j => X j ω)
    ∧ (∀ j, Measurable (X j)) ∧ iIndepFun X P ∧ ∀ j, P.map (X j) = P.map (X 0)

/-- The average of `G` over the states of a run. -/
noncomputable def average {S : Type} (G : S → ℝ) (l : List S) : ℝ := (l.map G).sum / l.length

end Verif
