import Mathlib.Data.Real.Basic

/-!
# Which quotes a date looks at
-/

namespace Verif

/-- No date of the list lies between `d` and `e` (other than `d` itself): `d` is `e` or a neighbour of
`e` among the listed dates. -/
def Neighbour (dates : List Int) (d e : Int) : Prop :=
  ∀ x ∈ dates, ¬ (d < x ∧ x ≤ e) ∧ ¬ (e ≤ x ∧ x < d)

end Verif
