import Verif.Spec.Fmm
import Verif.Spec.ModelMc
import Verif.Spec.GaussVec

/-!
# Averages over paths of the forward market model
-/

namespace Verif

/-- The rates of a path. -/
noncomputable def FmmPath.rateVector (m : ℕ) (p : FmmPath) : Fin m → ℝ := fun j => p.R (j + 1)

/-- The value of the bank account on a path. -/
noncomputable def bankValue (f : Fmm) (p0 : ℝ → ℝ) (p : FmmPath) : ℝ :=
  match bankAccount f p p0 with
  | .ok b => b
  | _ => 0

/-- Successive vectors of draws as the code stores them. -/
def drawLists {Ω : Type} {m : ℕ} (ξ : ℕ → Ω → Fin m → ℝ) (ω : Ω) (k : ℕ) : List ℝ := List.ofFn (ξ k ω)

end Verif
