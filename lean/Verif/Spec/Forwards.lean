import Verif.Model.Forwards

/-!
# What the forward-point lookup promises
-/

namespace Verif

/-- The quotes of a helper with their settlement dates, in quote order. -/
def Dated (h : FwdHelper) (c : Cal) (l : List (Int × ℝ)) : Prop :=
  List.Forall₂ (fun q p => settlementDateWithLag q.tenor h.valuation c h.spotLag = .ok p.1 ∧
    p.2 = q.value) h.quotes l

/-- `a` and `b` are dated quotes around day `t` with no quoted date in between. -/
def Brackets (l : List (Int × ℝ)) (a b : Int × ℝ) (t : Int) : Prop :=
  a ∈ l ∧ b ∈ l ∧ a.1 < t ∧ t < b.1 ∧ ∀ q ∈ l, q.1 ≤ a.1 ∨ b.1 ≤ q.1

/-- The height at `t` of the straight line through `a` and `b`. -/
noncomputable def lineThrough (a b : Int × ℝ) (t : Int) : ℝ :=
  ((b.1 - t : Int) * a.2 + (t - a.1 : Int) * b.2) / (b.1 - a.1 : Int)

end Verif
