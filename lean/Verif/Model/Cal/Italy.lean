import Verif.Model.CalBase

/-! # `/repo/src/time/calendars/italy.rs`

Transcribed by a script from the Rust source. -/

namespace Verif.Italy

/-- `settlement_is_business_day` (`italy.rs` 20-53). -/
def settlementIsBusinessDay (t : DateInfo) (em : Int) : Bool :=
  bif t.w.isWeekend
            || (t.d == 1 && t.m == 1)
            || (t.d == 6 && t.m == 1)
            || t.dd == em
            || (t.d == 25 && t.m == 4)
            || (t.d == 1 && t.m == 5)
            || (t.d == 2 && t.m == 6 && decide (t.y ≥ 2000))
            || (t.d == 15 && t.m == 8)
            || (t.d == 1 && t.m == 11)
            || (t.d == 8 && t.m == 12)
            || (t.d == 25 && t.m == 12)
            || (t.d == 26 && t.m == 12)
            || (t.d == 31 && t.m == 12 && t.y == 1999) then
    false
  else true

/-- `exchange_is_business_day` (`italy.rs` 55-81). -/
def exchangeIsBusinessDay (t : DateInfo) (em : Int) : Bool :=
  bif t.w.isWeekend
            || (t.d == 1 && t.m == 1)
            || t.dd == em - 3
            || t.dd == em
            || (t.d == 1 && t.m == 5)
            || (t.d == 15 && t.m == 8)
            || (t.d == 24 && t.m == 12)
            || (t.d == 25 && t.m == 12)
            || (t.d == 26 && t.m == 12)
            || (t.d == 31 && t.m == 12) then
    false
  else true

end Verif.Italy

namespace Verif

/-- `enum ItalyMarket` (`italy.rs`). -/
inductive ItalyMarket where
  | settlement | exchange
  deriving DecidableEq, Repr

/-- `Italy::is_business_day` (`italy.rs` 86-92). -/
def italy : Option ItalyMarket → Cal
  | some .settlement => easterCal Italy.settlementIsBusinessDay
  | some .exchange => easterCal Italy.exchangeIsBusinessDay
  | none => easterCal Italy.settlementIsBusinessDay

end Verif
