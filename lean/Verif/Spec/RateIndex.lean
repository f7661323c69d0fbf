import Verif.Model.RateIndex

/-!
# What the indices are

The currency an index is quoted in, the calendar of the place where it is fixed and the day count
of its market, written down from the administrators' definitions, not from the code.
-/

namespace Verif

/-- Currency, calendar and days of a year of the market of an index. -/
def indexMarket : IndexCode → Ccy × Shipped × ℚ
  | .aonia => (.aud, .australia none, 365)
  | .cdor _ => (.cad, .canada none, 365)
  | .eonia | .estr | .euribor _ => (.eur, .target, 360)
  | .sofr => (.usd, .unitedStates (some .sofr), 360)
  | .sonia => (.gbp, .unitedKingdom none, 365)

/-- The overnight indices. -/
def IndexCode.overnight : IndexCode → Prop
  | .aonia | .eonia | .estr | .sonia | .sofr => True
  | .cdor _ | .euribor _ => False

end Verif
