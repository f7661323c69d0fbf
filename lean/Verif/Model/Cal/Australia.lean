import Verif.Model.CalBase

/-! # `/repo/src/time/calendars/australia.rs`

Transcribed by a script from the Rust source. -/

namespace Verif.Australia

/-- `shared_holiday` (`australia.rs` 19-49). -/
def sharedHoliday (t : DateInfo) (em : Int) : Bool :=
  bif t.w.isWeekend
        || ((t.d == 1 || ((t.d == 2 || t.d == 3) && t.w == .mon)) && t.m == 1)
        || ((t.d == 26 || ((t.d == 27 || t.d == 28) && t.w == .mon)) && t.m == 1)
        || t.dd == em - 3
        || t.dd == em
        || (t.d == 25 && t.m == 4)
        || (decide (t.d > 7) && decide (t.d ≤ 14) && t.w == .mon && t.m == 6)
        || ((t.d == 25 || (t.d == 27 && (t.w == .mon || t.w == .tue))) && t.m == 12)
        || ((t.d == 26 || (t.d == 28 && (t.w == .mon || t.w == .tue))) && t.m == 12)
        || (t.d == 22 && t.m == 9 && t.y == 2022) then
    true
  else
    false

/-- `extra_holiday` (`australia.rs` 50-56). -/
def extraHoliday (t : DateInfo) : Bool :=
  (t.m == 10 || t.m == 8) && t.w == .mon && decide (t.d ≤ 7)

/-- `settlement_is_business_day` (`australia.rs` 57-59). -/
def settlementIsBusinessDay (t : DateInfo) (em : Int) : Bool :=
  !(sharedHoliday t em || extraHoliday t)

/-- `asx_is_business_day` (`australia.rs` 60-62). -/
def asxIsBusinessDay (t : DateInfo) (em : Int) : Bool :=
  !(sharedHoliday t em)

end Verif.Australia

namespace Verif

/-- `enum AustraliaMarket` (`australia.rs`). -/
inductive AustraliaMarket where
  | settlement | asx
  deriving DecidableEq, Repr

/-- `Australia::is_business_day` (`australia.rs` 67-73). -/
def australia : Option AustraliaMarket → Cal
  | some .settlement => easterCal Australia.settlementIsBusinessDay
  | some .asx => easterCal Australia.asxIsBusinessDay
  | none => easterCal Australia.settlementIsBusinessDay

end Verif
