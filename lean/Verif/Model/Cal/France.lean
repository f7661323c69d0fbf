import Verif.Model.CalBase

/-! # `/repo/src/time/calendars/france.rs`

Transcribed by a script from the Rust source. -/

namespace Verif.France

/-- `settlement_is_business_day` (`france.rs` 20-51). -/
def settlementIsBusinessDay (t : DateInfo) (em : Int) : Bool :=
  bif t.w.isWeekend
            || (t.d == 1 && t.m == 1)
            || t.dd == em
            || (t.d == 1 && t.m == 5)
            || (t.d == 8 && t.m == 5)
            || (t.d == 10 && t.m == 5)
            || (t.d == 21 && t.m == 5)
            || (t.d == 14 && t.m == 7)
            || (t.d == 15 && t.m == 8)
            || (t.d == 1 && t.m == 11)
            || (t.d == 11 && t.m == 11)
            || (t.d == 25 && t.m == 12) then
    false
  else true

/-- `exchange_is_business_day` (`france.rs` 53-79). -/
def exchangeIsBusinessDay (t : DateInfo) (em : Int) : Bool :=
  bif t.w.isWeekend
        || (t.d == 1 && t.m == 1)
        || t.dd == em - 3
        || t.dd == em
        || (t.d == 1 && t.m == 5)
        || (t.d == 24 && t.m == 12)
        || (t.d == 25 && t.m == 12)
        || (t.d == 26 && t.m == 12)
        || (t.d == 31 && t.m == 12) then
    false
  else
    true

end Verif.France

namespace Verif

/-- `enum FranceMarket` (`france.rs`). -/
inductive FranceMarket where
  | settlement | exchange
  deriving DecidableEq, Repr

/-- `France::is_business_day` (`france.rs` 84-90). -/
def france : Option FranceMarket → Cal
  | some .settlement => easterCal France.settlementIsBusinessDay
  | some .exchange => easterCal France.exchangeIsBusinessDay
  | none => easterCal France.settlementIsBusinessDay

end Verif
