import Verif.Model.CalBase

/-! # `/repo/src/time/calendars/canada.rs`

Transcribed by a script from the Rust source. -/

namespace Verif.Canada

/-- `shared_holiday` (`canada.rs` 20-55). -/
def sharedHoliday (t : DateInfo) (em : Int) : Bool :=
  bif t.w.isWeekend
        || ((t.d == 1 || ((t.d == 2 || t.d == 3) && t.w == .mon)) && t.m == 1)
        || (inRange 15 21 t.d && t.w == .mon && t.m == 2 && decide (t.y ≥ 2008))
        || t.dd == em - 3
        || (decide (t.d > 17) && decide (t.d ≤ 24) && t.w == .mon && t.m == 5)
        || ((t.d == 1 || ((t.d == 2 || t.d == 3) && t.w == .mon)) && t.m == 7)
        || (decide (t.d ≤ 7) && t.w == .mon && t.m == 8)
        || (decide (t.d ≤ 7) && t.w == .mon && t.m == 9)
        || (((t.d == 30 && t.m == 9) || (decide (t.d ≤ 2) && t.m == 10 && t.w == .mon)) && decide (t.y ≥ 2021))
        || (decide (t.d > 7) && decide (t.d ≤ 14) && t.w == .mon && t.m == 10)
        || ((t.d == 25 || (t.d == 27 && (t.w == .mon || t.w == .tue))) && t.m == 12)
        || ((t.d == 26 || (t.d == 28 && (t.w == .mon || t.w == .tue))) && t.m == 12) then
    true
  else
    false

/-- `extra_holiday` (`canada.rs` 57-61). -/
def extraHoliday (t : DateInfo) : Bool :=
  (t.d == 11 || ((t.d == 12 || t.d == 13) && t.w == .mon)) && t.m == 11

/-- `settlement_is_business_day` (`canada.rs` 63-65). -/
def settlementIsBusinessDay (t : DateInfo) (em : Int) : Bool :=
  !(sharedHoliday t em || extraHoliday t)

/-- `tsx_is_business_day` (`canada.rs` 67-69). -/
def tsxIsBusinessDay (t : DateInfo) (em : Int) : Bool :=
  !(sharedHoliday t em)

end Verif.Canada

namespace Verif

/-- `enum CanadaMarket` (`canada.rs`). -/
inductive CanadaMarket where
  | settlement | tsx
  deriving DecidableEq, Repr

/-- `Canada::is_business_day` (`canada.rs` 74-80). -/
def canada : Option CanadaMarket → Cal
  | some .settlement => easterCal Canada.settlementIsBusinessDay
  | some .tsx => easterCal Canada.tsxIsBusinessDay
  | none => easterCal Canada.settlementIsBusinessDay

end Verif
