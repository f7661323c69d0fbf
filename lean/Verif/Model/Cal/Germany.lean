import Verif.Model.CalBase

/-! # `/repo/src/time/calendars/germany.rs`

Transcribed by a script from the Rust source. -/

namespace Verif.Germany

/-- `settlement_is_business_day` (`germany.rs` 23-54). -/
def settlementIsBusinessDay (t : DateInfo) (em : Int) : Bool :=
  bif t.w.isWeekend
            || (t.d == 1 && t.m == 1)
            || t.dd == em - 3
            || t.dd == em
            || t.dd == em + 38
            || t.dd == em + 49
            || t.dd == em + 59
            || (t.d == 1 && t.m == 5)
            || (t.d == 3 && t.m == 10)
            || (t.d == 24 && t.m == 12)
            || (t.d == 25 && t.m == 12)
            || (t.d == 26 && t.m == 12) then
    false
  else true

/-- `frankfurt_stock_exchange_is_business_day` (`germany.rs` 56-79). -/
def frankfurtStockExchangeIsBusinessDay (t : DateInfo) (em : Int) : Bool :=
  bif t.w.isWeekend
            || (t.d == 1 && t.m == 1)
            || t.dd == em - 3
            || t.dd == em
            || (t.d == 1 && t.m == 5)
            || (t.d == 24 && t.m == 12)
            || (t.d == 25 && t.m == 12)
            || (t.d == 26 && t.m == 12) then
    false
  else true

/-- `eurex_is_business_day` (`germany.rs` 81-85). -/
def eurexIsBusinessDay (t : DateInfo) (em : Int) : Bool :=
  !(!(frankfurtStockExchangeIsBusinessDay t em) || (t.d == 31 && t.m == 12))

/-- `euwax_is_business_day` (`germany.rs` 87-92). -/
def euwaxIsBusinessDay (t : DateInfo) (em : Int) : Bool :=
  frankfurtStockExchangeIsBusinessDay t em && !(t.dd == em + 49)

end Verif.Germany

namespace Verif

/-- `enum GermanyMarket` (`germany.rs`). -/
inductive GermanyMarket where
  | settlement | frankfurtStockExchange | xetra | eurex | euwax
  deriving DecidableEq, Repr

/-- `Germany::is_business_day` (`germany.rs` 97-108). -/
def germany : Option GermanyMarket → Cal
  | some .settlement => easterCal Germany.settlementIsBusinessDay
  | some .frankfurtStockExchange => easterCal Germany.frankfurtStockExchangeIsBusinessDay
  | some .xetra => easterCal Germany.frankfurtStockExchangeIsBusinessDay
  | some .eurex => easterCal Germany.eurexIsBusinessDay
  | some .euwax => easterCal Germany.euwaxIsBusinessDay
  | none => easterCal Germany.frankfurtStockExchangeIsBusinessDay

end Verif
