import Verif.Model.CalBase

/-! # `/repo/src/time/calendars/unitedkingdom.rs`

Transcribed by a script from the Rust source. -/

namespace Verif.UnitedKingdom

/-- `special_bank_holiday` (`unitedkingdom.rs` 20-48). -/
def specialBankHoliday (t : DateInfo) : Bool :=
  bif (decide (t.d ≤ 7) && t.w == .mon && t.m == 5 && !(t.y == 1995) && !(t.y == 2020))
        || (t.d == 8 && t.m == 5 && (t.y == 1995 || t.y == 2020))
        || (decide (t.d ≥ 25) && t.w == .mon && t.m == 5 && !(t.y == 2002) && !(t.y == 2012) && !(t.y == 2022))
        || ((t.d == 3 || t.d == 4) && t.m == 6 && t.y == 2002)
        || ((t.d == 4 || t.d == 5) && t.m == 6 && t.y == 2012)
        || ((t.d == 2 || t.d == 3) && t.m == 6 && t.y == 2022)
        || (decide (t.d ≥ 25) && t.w == .mon && t.m == 8)
        || (t.d == 29 && t.m == 4 && t.y == 2011)
        || (t.d == 19 && t.m == 9 && t.y == 2022)
        || (t.d == 8 && t.m == 5 && t.y == 2023) then
    true
  else
    false

/-- `settlement_is_business_day` (`unitedkingdom.rs` 50-72). -/
def settlementIsBusinessDay (t : DateInfo) (em : Int) : Bool :=
  bif t.w.isWeekend
        || ((t.d == 1 || ((t.d == 2 || t.d == 3) && t.w == .mon)) && t.m == 1)
        || t.dd == em - 3
        || t.dd == em
        || specialBankHoliday t
        || ((t.d == 25 || (t.d == 27 && (t.w == .mon || t.w == .tue))) && t.m == 12)
        || ((t.d == 26 || (t.d == 28 && (t.w == .mon || t.w == .tue))) && t.m == 12)
        || (t.d == 31 && t.m == 12 && t.y == 1999) then
    false
  else
    true

/-- `exchange_is_business_day` (`unitedkingdom.rs` 73-75). -/
def exchangeIsBusinessDay (t : DateInfo) (em : Int) : Bool :=
  settlementIsBusinessDay t em

/-- `metals_is_business_day` (`unitedkingdom.rs` 76-78). -/
def metalsIsBusinessDay (t : DateInfo) (em : Int) : Bool :=
  settlementIsBusinessDay t em

end Verif.UnitedKingdom

namespace Verif

/-- `enum UnitedKingdomMarket` (`unitedkingdom.rs`). -/
inductive UnitedKingdomMarket where
  | settlement | exchange | metals
  deriving DecidableEq, Repr

/-- `UnitedKingdom::is_business_day` (`unitedkingdom.rs` 83-90). -/
def unitedKingdom : Option UnitedKingdomMarket → Cal
  | some .settlement => easterCal UnitedKingdom.settlementIsBusinessDay
  | some .exchange => easterCal UnitedKingdom.exchangeIsBusinessDay
  | some .metals => easterCal UnitedKingdom.metalsIsBusinessDay
  | none => easterCal UnitedKingdom.settlementIsBusinessDay

end Verif
