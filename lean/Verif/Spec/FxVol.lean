import Verif.Model.FxVol

/-!
# Specification vocabulary for the FX volatility surface
-/

namespace Verif

/-- `K` is the strike whose call has forward delta `delta` at volatility `sigma`:
`Φ(d₁) = delta`. -/
def IsCallStrike (delta sigma F T K : ℝ) : Prop :=
  0 < K ∧ normCdf ((Real.log (F / K) + sigma ^ 2 * T / 2) / (sigma * √T)) = delta

/-- `K` is the strike whose put has absolute forward delta `delta` at volatility `sigma`:
`Φ(-d₁) = delta`. -/
def IsPutStrike (delta sigma F T K : ℝ) : Prop :=
  0 < K ∧ normCdf (-((Real.log (F / K) + sigma ^ 2 * T / 2) / (sigma * √T))) = delta

/-- `K` is the delta-neutral straddle strike: call and put delta cancel. -/
def IsAtmStrike (sigma F T K : ℝ) : Prop :=
  0 < K ∧ normCdf ((Real.log (F / K) + sigma ^ 2 * T / 2) / (sigma * √T)) =
    normCdf (-((Real.log (F / K) + sigma ^ 2 * T / 2) / (sigma * √T)))

/-- The delta a quote refers to. -/
def FxVolQuote.delta? : FxVolQuote → Option ℝ
  | .atm _ => none
  | .call d _ => some d
  | .put d _ => some d
  | .riskReversal d _ => some d
  | .butterfly d _ => some d

open Classical in
/-- The call volatility quoted last for `delta`. -/
noncomputable def lastCall (delta : ℝ) (qs : List FxVolQuote) : Option ℝ :=
  (qs.filterMap fun | .call d v => if d = delta then some v else none | _ => none).getLast?

open Classical in
/-- The put volatility quoted last for `delta`. -/
noncomputable def lastPut (delta : ℝ) (qs : List FxVolQuote) : Option ℝ :=
  (qs.filterMap fun | .put d v => if d = delta then some v else none | _ => none).getLast?

open Classical in
/-- The risk reversal quoted last for `delta`. -/
noncomputable def lastRr (delta : ℝ) (qs : List FxVolQuote) : Option ℝ :=
  (qs.filterMap fun | .riskReversal d v => if d = delta then some v else none | _ => none).getLast?

open Classical in
/-- The butterfly quoted last for `delta`. -/
noncomputable def lastBf (delta : ℝ) (qs : List FxVolQuote) : Option ℝ :=
  (qs.filterMap fun | .butterfly d v => if d = delta then some v else none | _ => none).getLast?

/-- Any two quoted deltas are equal or at least 1e-9 apart. -/
def DeltasSeparated (qs : List FxVolQuote) : Prop :=
  ∀ q ∈ qs, ∀ r ∈ qs, ∀ a b, q.delta? = some a → r.delta? = some b → a = b ∨ 1 / 10 ^ 9 ≤ |a - b|

/-- Total variance of a pillar at a strike: the squared volatility times the year fraction. -/
noncomputable def Smile.totalVar (s : Smile) (K : ℝ) : ℝ := s.volatility K ^ 2 * s.yearFraction

end Verif
