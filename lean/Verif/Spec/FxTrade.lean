import Verif.Model.FxTrade

/-!
# Specification vocabulary for FX trades
-/

namespace Verif

/-- The opposite side of a trade. -/
def Direction.flip : Direction → Direction
  | .buy => .sell
  | .sell => .buy

/-- The same option with its notional `n` in foreign currency written in domestic currency:
`n` times the strike of the other currency (the right to exchange `n` foreign for
`n * strike` domestic). -/
def FxOption.inDomestic (x : FxOption) (dom : Ccy) : FxOption :=
  { x with notionalCcy := dom, notional := x.notional * x.strike }

end Verif
