import Verif.Spec.Forwards
import Verif.Model.FxTrade
import Verif.Model.FxVol
import Verif.Model.Cap

/-!
# Moving every date by the same number of days
-/

namespace Verif

/-- A pillar of a curve `n` days later. -/
def Pillar.later (n : Int) (p : Pillar) : Pillar :=
  { p with firstSettle := p.firstSettle + n, date := p.date + n }

/-- A curve with all its dates `n` days later. -/
def Curve.later (n : Int) (cv : Curve) : Curve := ⟨cv.valuation + n, cv.pillars.map (Pillar.later n)⟩

/-- The quotes of an FX smile for an expiry `n` days later. -/
def VolPillar.later (n : Int) (p : VolPillar) : VolPillar := { p with expiry := p.expiry + n }

/-- A smile for an expiry `n` days later. -/
def Smile.later (n : Int) (s : Smile) : Smile := { s with expiry := s.expiry + n }

/-- An FX volatility surface `n` days later. -/
def FxVolSurface.later (n : Int) (s : FxVolSurface) : FxVolSurface :=
  ⟨s.valuation + n, s.smiles.map (Smile.later n)⟩

/-- Dated quotes `n` days later. -/
def quotesLater (n : Int) (l : List (Int × ℝ)) : List (Int × ℝ) := l.map fun q => (q.1 + n, q.2)

/-- Caplet volatilities for an expiry `n` days later. -/
def CapletPillar.later (n : Int) (p : CapletPillar) : CapletPillar := { p with expiry := p.expiry + n }

/-- A period of a schedule `n` days later. -/
def SchedPeriod.later (n : Int) (p : SchedPeriod) : SchedPeriod :=
  { p with start := p.start + n, fin := p.fin + n, pay := p.pay + n, reset := p.reset + n }

/-- A cap or floor `n` days later. -/
def CapFloor.later (n : Int) (c : CapFloor) : CapFloor :=
  { c with valuation := c.valuation + n, schedule := c.schedule.map (SchedPeriod.later n) }

/-- A leg of a swap with its schedule `n` days later. -/
def SwapLeg.later (n : Int) (l : SwapLeg) : SwapLeg := { l with schedule := l.schedule.map (SchedPeriod.later n) }

/-- A swap with its schedules `n` days later. -/
def Swap.later (n : Int) (s : Swap) : Swap := ⟨s.legs.map (SwapLeg.later n)⟩

/-- A forward contract `n` days later. -/
def FxForward.later (n : Int) (x : FxForward) : FxForward := { x with expiry := x.expiry + n }

/-- An option `n` days later. -/
def FxOption.later (n : Int) (x : FxOption) : FxOption := { x with expiry := x.expiry + n }

/-- The day after `d` is a date, and so is the day after `d + n`. -/
def Movable (n d : Int) : Prop := Valid (d + 1) ∧ Valid (d + n + 1)

/-- A leg that carries its schedule, and whose day counter counts the moved periods like the original ones. -/
def LegMovable (n : Int) (l : SwapLeg) : Prop :=
  l.schedule ≠ [] ∧ ∀ p ∈ l.schedule, (Movable n p.start ∧ Movable n p.fin ∧ Movable n p.pay) ∧
    l.yearFraction (p.start + n) (p.fin + n) = l.yearFraction p.start p.fin ∧
    l.dayCount (p.start + n) (p.fin + n) = l.dayCount p.start p.fin

/-- The same market `n` days later: the settlement dates of the quotes are `n` days later as well. -/
structure MarketLater (n : Int) (p : Pair) (m m' : FxMarket) : Prop where
  valuation : m'.valuation = m.valuation + n
  spot : m'.spot = m.spot
  curve : m'.domestic = m.domestic.later n
  quoted : m'.forwards.valuation = m.forwards.valuation + n
  points : ∃ l, Dated m.forwards p.calendar l ∧ Dated m'.forwards p.calendar (quotesLater n l) ∧
    (l.map Prod.fst).Nodup

end Verif
