import Verif.Spec.Sensitivity
import Verif.Spec.Forwards
import Verif.Model.FxTrade

/-!
# Two sets of FX market data that are close
-/

namespace Verif

/-- Market data for the same day in which the spot differs by at most `σ`, every forward-point quote by at
most `π` and every zero rate of the domestic curve by at most `ε`. -/
structure MarketNear (σ π ε : ℝ) (p : Pair) (m m' : FxMarket) : Prop where
  valuation : m'.valuation = m.valuation
  spot : |m'.spot - m.spot| ≤ σ
  quoted : m'.forwards.valuation = m.forwards.valuation
  points : ∃ l l', Dated m.forwards p.calendar l ∧ Dated m'.forwards p.calendar l' ∧ (l.map Prod.fst).Nodup ∧
    List.Forall₂ (ValueNear π) l l'
  curveDate : m'.domestic.valuation = m.domestic.valuation
  curve : List.Forall₂ (PillarNear ε) m.domestic.pillars m'.domestic.pillars
  order : m.domestic.pillars.Pairwise fun a b => a.date < b.date

end Verif
