import Verif.Model.CalBase

/-! # `/repo/src/time/calendars/russia.rs`

Transcribed by a script from the Rust source. -/

namespace Verif.Russia

/-- `is_extra_holiday_settlement` (`russia.rs` 20-29). -/
def isExtraHolidaySettlement (t : DateInfo) : Bool :=
  bif (t.y == 2017) then
      ((t.m == 2 && t.d == 24) || (t.m == 5 && t.d == 8) || (t.m == 11 && t.d == 6))
    else bif (t.y == 2018) then
      ((t.m == 3 && t.d == 9) || (t.m == 4 && t.d == 30) || (t.m == 5 && t.d == 2)
      || (t.m == 6 && t.d == 11) || (t.m == 12 && t.d == 31))
    else bif (t.y == 2019) then
      ((t.m == 5 && t.d == 2) || (t.m == 5 && t.d == 3) || (t.m == 5 && t.d == 9))
    else bif (t.y == 2020) then
      ((t.m == 3 && t.d == 30) || (t.m == 3 && t.d == 31) || (t.m == 4 && t.d == 1)
      || (t.m == 4 && t.d == 2) || (t.m == 4 && t.d == 3))
    else false

/-- `is_extra_holiday_exchange` (`russia.rs` 31-51). -/
def isExtraHolidayExchange (t : DateInfo) : Bool :=
  bif (t.y == 2012) then
      ((t.m == 1 && t.d == 2) || (t.m == 3 && t.d == 9) || (t.m == 4 && t.d == 30)
      || (t.m == 6 && t.d == 11))
    else bif (t.y == 2013) then
      ((t.m == 1 && t.d == 1) || (t.m == 1 && t.d == 2) || (t.m == 1 && t.d == 3)
      || (t.m == 1 && t.d == 4) || (t.m == 1 && t.d == 7))
    else bif (t.y == 2014) then
      ((t.m == 1 && t.d == 1) || (t.m == 1 && t.d == 2) || (t.m == 1 && t.d == 3)
      || (t.m == 1 && t.d == 7))
    else bif (t.y == 2015) then
      ((t.m == 1 && t.d == 1) || (t.m == 1 && t.d == 2) || (t.m == 1 && t.d == 7))
    else bif (t.y == 2016) then
      ((t.m == 1 && t.d == 1) || (t.m == 1 && t.d == 7) || (t.m == 1 && t.d == 8)
      || (t.m == 5 && t.d == 2) || (t.m == 5 && t.d == 3)
      || (t.m == 6 && t.d == 13) || (t.m == 12 && t.d == 30))
    else bif (t.y == 2017) then
      ((t.m == 1 && t.d == 2) || (t.m == 5 && t.d == 8))
    else bif (t.y == 2018) then
      ((t.m == 1 && t.d == 1) || (t.m == 1 && t.d == 2) || (t.m == 1 && t.d == 8)
      || (t.m == 12 && t.d == 31))
    else bif (t.y == 2019) then
      ((t.m == 1 && t.d == 1) || (t.m == 1 && t.d == 2) || (t.m == 1 && t.d == 7)
      || (t.m == 12 && t.d == 31))
    else bif (t.y == 2020) then
      ((t.m == 1 && t.d == 1) || (t.m == 1 && t.d == 2) || (t.m == 1 && t.d == 7)
      || (t.m == 2 && t.d == 24) || (t.m == 6 && t.d == 24)
      || (t.m == 7 && t.d == 1))
    else false

/-- `is_working_weekend` (`russia.rs` 53-61). -/
def isWorkingWeekend (t : DateInfo) : Bool :=
  bif (t.y == 2012) then
      ((t.m == 3 && t.d == 11) || (t.m == 4 && t.d == 28) || (t.m == 5 && t.d == 5)
      || (t.m == 5 && t.d == 12) || (t.m == 6 && t.d == 9))
    else bif (t.y == 2016) then
      (t.m == 2 && t.d == 20)
    else bif (t.y == 2018) then
      ((t.m == 4 && t.d == 28) || (t.m == 6 && t.d == 9) || (t.m == 12 && t.d == 29))
    else false

/-- `settlement_is_business_day` (`russia.rs` 63-100). -/
def settlementIsBusinessDay (t : DateInfo) : Bool :=
  bif t.w.isWeekend
        || isExtraHolidaySettlement t
        || (decide (t.y ≤ 2005) && decide (t.d ≤ 2) && t.m == 1)
        || (decide (t.y ≥ 2005) && decide (t.d ≤ 5) && t.m == 1)
        || (t.y == 2012 && t.d == 6 && t.m == 1)
        || ((t.d == 7 || ((t.d == 8 || t.d == 9) && t.w == .mon)) && t.m == 1)
        || ((t.d == 23 || ((t.d == 24 || t.d == 25) && t.w == .mon)) && t.m == 2)
        || ((t.d == 8 || ((t.d == 9 || t.d == 10) && t.w == .mon)) && t.m == 3)
        || ((t.d == 1 || ((t.d == 2 || t.d == 3) && t.w == .mon)) && t.m == 5)
        || ((t.d == 9 || ((t.d == 10 || t.d == 11) && t.w == .mon)) && t.m == 5)
        || ((t.d == 12 || ((t.d == 13 || t.d == 14) && t.w == .mon)) && t.m == 6)
        || ((t.d == 4 || ((t.d == 5 || t.d == 6) && t.w == .mon)) && t.m == 11) then
    false
  else
    true

/-- `exchange_is_business_day` (`russia.rs` 102-131). -/
def exchangeIsBusinessDay (t : DateInfo) : Bool :=
  bif isWorkingWeekend t then
    true
  else bif t.w.isWeekend
            || isExtraHolidayExchange t
            || (t.d == 23 && t.m == 2)
            || ((t.d == 8 || ((t.d == 9 || t.d == 10) && t.w == .mon)) && t.m == 3)
            || (t.d == 1 && t.m == 5)
            || ((t.d == 9 || ((t.d == 10 || t.d == 11) && t.w == .mon)) && t.m == 5)
            || (t.d == 12 && t.m == 6)
            || ((t.d == 4 || ((t.d == 5 || t.d == 6) && t.w == .mon)) && t.m == 11)
            || (t.d == 31 && t.m == 12) then
    false
  else true

end Verif.Russia

namespace Verif

/-- `enum RussiaMarket` (`russia.rs`). -/
inductive RussiaMarket where
  | settlement | exchange
  deriving DecidableEq, Repr

/-- `Russia::is_business_day` (`russia.rs` 136-142). -/
def russia : Option RussiaMarket → Cal
  | some .settlement => plainCal Russia.settlementIsBusinessDay
  | some .exchange => plainCal Russia.exchangeIsBusinessDay
  | none => plainCal Russia.settlementIsBusinessDay

end Verif
