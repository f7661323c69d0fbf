import Verif.Model.CalBase

/-! # `/repo/src/time/calendars/mexico.rs`

Transcribed by a script from the Rust source. -/

namespace Verif.Mexico

/-- `is_business_day` (`mexico.rs` 13-50). -/
def rule (t : DateInfo) (em : Int) : Bool :=
  bif t.w.isWeekend
        || (t.d == 1 && t.m == 1)
        || (decide (t.y ≤ 2005) && t.d == 5 && t.m == 2)
        || (decide (t.y ≥ 2006) && decide (t.d ≤ 7) && t.w == .mon && t.m == 2)
        || (decide (t.y ≤ 2005) && t.d == 21 && t.m == 3)
        || (decide (t.y ≥ 2006) && inRange 15 21 t.d && t.w == .mon && t.m == 3)
        || t.dd == em - 4
        || t.dd == em - 3
        || (t.d == 1 && t.m == 5)
        || (t.d == 16 && t.m == 9)
        || (t.d == 1 && t.m == 10 && decide (t.y ≥ 2024) && Int.tmod (t.y - 2024) 6 == 0)
        || (t.d == 2 && t.m == 11)
        || (decide (t.y ≤ 2005) && t.d == 20 && t.m == 11)
        || (decide (t.y ≥ 2006) && inRange 15 21 t.d && t.w == .mon && t.m == 11)
        || (t.d == 12 && t.m == 12)
        || (t.d == 25 && t.m == 12) then
    false
  else
    true

end Verif.Mexico

namespace Verif

/-- `Mexico::is_business_day` (`mexico.rs` 13-50). -/
def mexico : Cal := easterCal Mexico.rule

end Verif
