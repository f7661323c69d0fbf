import Verif.Model.MarketContext

/-!
# Specification of the market contexts
-/

namespace Verif

/-- The quotes describe a smile without skew at the volatility `v`. -/
def FlatQuotes (v : ℝ) (qs : List FxVolQuote) : Prop :=
  ∀ q ∈ qs, match q with
    | .atm w => w = v
    | .call _ w => w = v
    | .put _ w => w = v
    | .riskReversal _ w => w = 0
    | .butterfly _ w => w = 0

/-- Covered interest parity at a date, as the documentation of the context has it:
`F · P_d = S · P_f`. -/
def ParityAt (spot forward dfDomestic dfForeign : ℝ) : Prop :=
  forward * dfDomestic = spot * dfForeign

end Verif
