import Verif.Model.CalBase

/-! # `/repo/src/time/calendars/southafrica.rs`

Transcribed by a script from the Rust source. -/

namespace Verif.SouthAfrica

/-- `is_business_day` (`southafrica.rs` 13-70). -/
def rule (t : DateInfo) (em : Int) : Bool :=
  bif t.w.isWeekend
        || ((t.d == 1 || (t.d == 2 && t.w == .mon)) && t.m == 1)
        || t.dd == em - 3
        || t.dd == em
        || ((t.d == 21 || (t.d == 22 && t.w == .mon)) && t.m == 3)
        || ((t.d == 27 || (t.d == 28 && t.w == .mon)) && t.m == 4)
        || (t.d == 14 && t.m == 4 && t.y == 2004)
        || ((t.d == 1 || (t.d == 2 && t.w == .mon)) && t.m == 5)
        || ((t.d == 16 || (t.d == 17 && t.w == .mon)) && t.m == 6)
        || ((t.d == 9 || (t.d == 10 && t.w == .mon)) && t.m == 8)
        || ((t.d == 24 || (t.d == 25 && t.w == .mon)) && t.m == 9)
        || ((t.d == 16 || (t.d == 17 && t.w == .mon)) && t.m == 12)
        || (t.d == 25 && t.m == 12)
        || ((t.d == 26 || (t.d == 27 && t.w == .mon)) && t.m == 12)
        || (t.d == 22 && t.m == 4 && t.y == 2009)
        || (t.d == 3 && t.m == 8 && t.y == 2016)
        || (t.d == 1 && t.m == 11 && t.y == 2021)
        || (t.d == 27 && t.m == 12 && t.y == 2022)
        || (t.d == 15 && t.m == 12 && t.y == 2023)
        || (t.d == 29 && t.m == 5 && t.y == 2024) then
    false
  else
    true

end Verif.SouthAfrica

namespace Verif

/-- `SouthAfrica::is_business_day` (`southafrica.rs` 13-70). -/
def southAfrica : Cal := easterCal SouthAfrica.rule

end Verif
