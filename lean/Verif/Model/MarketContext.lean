import Verif.Model.FxTrade
import Verif.Model.FxVol
import Verif.Model.CurveStrip
import Verif.Model.Cap

/-!
# Market contexts

Model of `/repo/src/markets/forex/market_context.rs` 67-254 and
`/repo/src/markets/interestrate/market_context.rs` 47-122.  The calendar and the day counter of a
`YieldTermStructure` are never read by its lookups and are left out (as in `Curve`), so the
constructors lose the four arguments that only fill them.  Both curves are bootstrapped with the
same root finder; Brent's method keeps no state between calls.
-/

namespace Verif

open Classical

/-- `FxMarketContext` (`forex/market_context.rs` 68-77). -/
structure FxContext where
  valuation : Int
  spot : ℝ
  pair : Ccy × Ccy
  domestic : Curve
  foreign : Curve
  forwards : FwdHelper
  surface : FxVolSurface

/-- `YieldTermMarketData` (`yieldcurve.rs` 92-99) without its observers. -/
structure CurveData where
  valuation : Int
  cash : List OisRate
  futures : List FuturesQuote
  swaps : List Swap

/-- `get_stripped_curve` (`yieldcurve.rs` 116-171) of the bundle: it uses the bundle's own valuation
date. -/
noncomputable def CurveData.stripped (solve : RateSolver) (d : CurveData) : Outcome (List Pillar) :=
  strippedCurve solve d.valuation d.cash d.futures d.swaps

/-- `FxMarketContext::from_raw_quotes` (`forex/market_context.rs` 118-155). -/
noncomputable def FxContext.fromRawQuotes (solve : RateSolver) (val : Int) (spot : ℝ)
    (pair : Ccy × Ccy) (dom frn : CurveData) (fwd : List FwdQuote) (pillars : List VolPillar) :
    Outcome FxContext := do
  let d ← dom.stripped solve
  let f ← frn.stripped solve
  let forwards := FwdHelper.new val fwd
  let surface ← FxVolSurface.new val pillars
  .ok ⟨val, spot, pair, ⟨val, d⟩, ⟨val, f⟩, forwards, surface⟩

/-- `forward_at` (`forex/market_context.rs` 160-167). -/
noncomputable def FxContext.forwardAt (ops : SliceOps) (x : FxContext) (date : Int) (c : Cal) :
    Outcome ℝ := do
  match ← getForward ops x.forwards date c with
  | none => .fail .invalidData
  | some v => .ok v

/-- `rate_d` (`forex/market_context.rs` 170-173). -/
noncomputable def FxContext.rateD (x : FxContext) (date : Int) : Outcome ℝ := x.domestic.zeroRate date

/-- `rate_f` (`forex/market_context.rs` 176-179). -/
noncomputable def FxContext.rateF (x : FxContext) (date : Int) : Outcome ℝ := x.foreign.zeroRate date

/-- `discount_d` (`forex/market_context.rs` 182-185). -/
noncomputable def FxContext.discountD (x : FxContext) (date : Int) : Outcome ℝ :=
  x.domestic.discount date

/-- `discount_f` (`forex/market_context.rs` 188-191). -/
noncomputable def FxContext.discountF (x : FxContext) (date : Int) : Outcome ℝ :=
  x.foreign.discount date

/-- `implied_vol` (`forex/market_context.rs` 194-196). -/
noncomputable def FxContext.impliedVol (ks : KeySearch) (x : FxContext) (expiry : Int) (strike : ℝ) :
    Outcome ℝ := x.surface.volatility ks expiry strike

/-- The pillar of `trivial_vol_surface` (`forex/market_context.rs` 238-252). -/
noncomputable def trivialPillar (expiry : Int) : VolPillar :=
  ⟨expiry, 1, [.atm (1 / 10), .put (1 / 4) (1 / 10), .call (1 / 4) (1 / 10)]⟩

/-- `trivial_vol_surface` (`forex/market_context.rs` 236-254).  Adding the 365 days panics beyond
the last date. -/
noncomputable def trivialVolSurface (val : Int) : Outcome FxVolSurface := do
  let expiry ← addDays val 365
  FxVolSurface.new val [trivialPillar expiry]

/-- `for_linear` (`forex/market_context.rs` 211-230). -/
noncomputable def FxContext.forLinear (val : Int) (spot : ℝ) (pair : Ccy × Ccy) (dom frn : Curve)
    (forwards : FwdHelper) : Outcome FxContext := do
  let surface ← trivialVolSurface val
  .ok ⟨val, spot, pair, dom, frn, forwards, surface⟩

/-- What the FX pricers read of a context (`forward.rs` 19-72, `option.rs` 109-225). -/
def FxContext.market (x : FxContext) : FxMarket := ⟨x.valuation, x.spot, x.domestic, x.forwards⟩

/-- `FXUnderlying::forward_helper` (`/repo/src/derivatives/forex/basic.rs` 227-234). -/
def Pair.forwardHelper (p : Pair) (val : Int) (quotes : List FwdQuote) : FwdHelper :=
  ⟨val, p.settles, quotes⟩

/-- `IrMarketContext` (`interestrate/market_context.rs` 50-57).  The valuation date of the surface
is never read. -/
structure IrContext where
  valuation : Int
  currency : Ccy
  curve : Curve
  capSurface : Option (List CapletPillar)

/-- `IRCapMarketData` (`interestrate/volsurface.rs` 73-77) without its observers. -/
structure CapData where
  valuation : Int
  quotes : List CapQuote

/-- `IrMarketContext::from_raw_quotes` (`interestrate/market_context.rs` 77-96).  The caps are
stripped as of the valuation date of their own bundle (`volsurface.rs` 160-164). -/
noncomputable def IrContext.fromRawQuotes (solve : RateSolver) (solveVol : RootFinder) (val : Int)
    (ccy : Ccy) (data : CurveData) (caps : Option CapData) : Outcome IrContext := do
  let ps ← data.stripped solve
  let curve : Curve := ⟨val, ps⟩
  match caps with
  | none => .ok ⟨val, ccy, curve, none⟩
  | some md => do
    let vs ← stripCapletVols solveVol curve md.valuation md.quotes
    .ok ⟨val, ccy, curve, some vs⟩

/-- `rate` (`interestrate/market_context.rs` 99-102). -/
noncomputable def IrContext.rate (x : IrContext) (date : Int) : Outcome ℝ := x.curve.zeroRate date

/-- `discount` (`interestrate/market_context.rs` 105-108). -/
noncomputable def IrContext.discount (x : IrContext) (date : Int) : Outcome ℝ := x.curve.discount date

/-- `caplet_vol` (`interestrate/market_context.rs` 112-121). -/
noncomputable def IrContext.capletVol (x : IrContext) (expiry : Int) (strike : ℝ) : Outcome ℝ :=
  match x.capSurface with
  | none => .fail .invalidData
  | some vs => capletVolatility vs expiry strike

end Verif
