import Verif.Model.FxPair
import Verif.Model.Forwards
import Verif.Model.YieldCurve
import Verif.Model.Options

/-!
# FX forwards and vanilla options

Model of `/repo/src/derivatives/forex/forward.rs` 9-71 and
`/repo/src/derivatives/forex/option.rs` 78-225.  `FxMarketContext`
(`/repo/src/markets/forex/market_context.rs` 68-80) is reduced to the fields these
pricers read; trade date, style, delivery date and serialisation are left out.
-/

namespace Verif

open Classical

/-- `Direction` (`/repo/src/derivatives/basic.rs` 5-8). -/
inductive Direction where
  | buy | sell
  deriving DecidableEq

/-- `direction as i8 as f64` (`basic.rs` 5-8: `Buy = 1`, `Sell = -1`). -/
def Direction.sign : Direction → ℝ
  | .buy => 1
  | .sell => -1

/-- The part of `FxMarketContext` (`market_context.rs` 68-80) read by the pricers. -/
structure FxMarket where
  valuation : Int
  spot : ℝ
  domestic : Curve
  forwards : FwdHelper

/-- `CurrencyValue` (`/repo/src/derivatives/forex/basic.rs` 252-255). -/
structure CurrencyValue where
  currency : Ccy
  value : ℝ

/-- Outright forward: spot plus scaled forward points, an expired-trade error when there
are none (`forward.rs` 20-32, `option.rs` 110-120). -/
noncomputable def outright (ops : SliceOps) (p : Pair) (m : FxMarket) (expiry : Int) : Outcome ℝ := do
  match ← getForward ops m.forwards expiry p.calendar with
  | none => .fail .tradeExpired
  | some pts => .ok (m.spot + pts / ((p.converter : Int) : ℝ))

/-- `FXForward` (`forward.rs` 10-16). -/
structure FxForward where
  expiry : Int
  direction : Direction
  asset : Pair
  notionalCcy : Ccy
  notional : ℝ
  strike : ℝ

/-- `FXForward::mtm` (`forward.rs` 19-50). -/
noncomputable def FxForward.mtm (ops : SliceOps) (x : FxForward) (m : FxMarket) :
    Outcome CurrencyValue := do
  let forward ← outright ops x.asset m x.expiry
  let discount ← m.domestic.discount x.expiry
  let frn ← x.asset.frn
  let payoff :=
    if x.notionalCcy = frn then x.notional * x.direction.sign * (forward - x.strike)
    else -x.notional / x.strike * x.direction.sign * (forward - x.strike)
  let dom ← x.asset.dom
  .ok ⟨dom, payoff * discount⟩

/-- `FXForward::delta` (`forward.rs` 54-64). -/
noncomputable def FxForward.delta (x : FxForward) : Outcome CurrencyValue := do
  let frn ← x.asset.frn
  let delta :=
    if x.notionalCcy = frn then x.notional * x.direction.sign
    else -x.notional / x.strike * x.direction.sign
  .ok ⟨frn, delta⟩

/-- `FXForward::gamma` (`forward.rs` 66-68). -/
def FxForward.gamma (_ : FxForward) : Outcome ℝ := .ok 0

/-- `FXForward::vega` (`forward.rs` 70-72). -/
def FxForward.vega (_ : FxForward) : Outcome ℝ := .ok 0

/-- `FXVanillaOption` (`option.rs` 82-93). -/
structure FxOption where
  expiry : Int
  direction : Direction
  asset : Pair
  optionType : OptionType
  notionalCcy : Ccy
  notional : ℝ
  strike : ℝ
  volatility : ℝ

/-- `BsContext` (`option.rs` 98-106). -/
structure BsContext where
  forward : ℝ
  spot : ℝ
  strike : ℝ
  yearFraction : ℝ
  discount : ℝ
  sqrtV : ℝ
  d1 : ℝ

/-- `FXVanillaOption::bs_context` (`option.rs` 109-139). -/
noncomputable def FxOption.context (ops : SliceOps) (x : FxOption) (m : FxMarket) :
    Outcome BsContext := do
  let forward ← outright ops x.asset m x.expiry
  let yf := yf365 m.valuation x.expiry
  let variance := x.volatility * x.volatility * yf
  let sqrtV := √variance
  let d1 := (Real.log (forward / x.strike) + 1 / 2 * variance) / sqrtV
  let discount ← m.domestic.discount x.expiry
  .ok ⟨forward, m.spot, x.strike, yf, discount, sqrtV, d1⟩

/-- `FXVanillaOption::mtm` (`option.rs` 149-178). -/
noncomputable def FxOption.mtm (ops : SliceOps) (x : FxOption) (m : FxMarket) :
    Outcome CurrencyValue := do
  let ctx ← x.context ops m
  let variance := ctx.sqrtV * ctx.sqrtV
  let unit := blackScholes ctx.forward ctx.strike variance ctx.discount x.optionType
  let sign := -x.direction.sign
  let frn ← x.asset.frn
  let premium :=
    if x.notionalCcy = frn then sign * x.notional * unit / ctx.spot
    else sign * x.notional * unit / ctx.strike
  .ok ⟨x.notionalCcy, premium⟩

/-- `FXVanillaOption::delta` (`option.rs` 184-193). -/
noncomputable def FxOption.delta (ops : SliceOps) (x : FxOption) (m : FxMarket) :
    Outcome CurrencyValue := do
  let ctx ← x.context ops m
  let omega := x.optionType.omega
  let unit := omega * normCdf (omega * ctx.d1)
  let frn ← x.asset.frn
  .ok ⟨frn, x.notional * x.direction.sign * unit⟩

/-- `FXVanillaOption::gamma` (`option.rs` 197-204). -/
noncomputable def FxOption.gamma (ops : SliceOps) (x : FxOption) (m : FxMarket) : Outcome ℝ := do
  let ctx ← x.context ops m
  if ctx.sqrtV ≤ 0 then .ok 0
  else
    let unit := ctx.discount * normPdf ctx.d1 / (ctx.forward * ctx.sqrtV)
    .ok (x.notional * x.direction.sign * unit)

/-- `FXVanillaOption::vega` (`option.rs` 211-224). -/
noncomputable def FxOption.vega (ops : SliceOps) (x : FxOption) (m : FxMarket) : Outcome ℝ := do
  let ctx ← x.context ops m
  if ctx.yearFraction ≤ 0 then .ok 0
  else
    let unit := ctx.discount * ctx.forward * normPdf ctx.d1 * √ctx.yearFraction
    let frn ← x.asset.frn
    let scale := if x.notionalCcy = frn then x.notional / ctx.spot else x.notional / ctx.strike
    .ok (x.direction.sign * scale * unit / 100)

end Verif
