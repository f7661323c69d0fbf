import Verif.Model.CalBase

/-! # `/repo/src/time/calendars/slovakia.rs`

Transcribed by a script from the Rust source. -/

namespace Verif.Slovakia

/-- `is_business_day` (`slovakia.rs` 13-55). -/
def rule (t : DateInfo) (em : Int) : Bool :=
  bif t.w.isWeekend
        || (t.d == 1 && t.m == 1)
        || (t.d == 6 && t.m == 1)
        || t.dd == em - 3
        || t.dd == em
        || (t.d == 1 && t.m == 5)
        || (t.d == 8 && t.m == 5)
        || (t.d == 5 && t.m == 7)
        || (t.d == 29 && t.m == 8)
        || (t.d == 1 && t.m == 9)
        || (t.d == 15 && t.m == 9)
        || (t.d == 1 && t.m == 11)
        || (t.d == 17 && t.m == 11)
        || (t.d == 24 && t.m == 12)
        || (t.d == 25 && t.m == 12)
        || (t.d == 26 && t.m == 12)
        || (inRange 24 31 t.d && t.m == 12 && t.y == 2004)
        || (inRange 24 31 t.d && t.m == 12 && t.y == 2005) then
    false
  else
    true

end Verif.Slovakia

namespace Verif

/-- `Slovakia::is_business_day` (`slovakia.rs` 13-55). -/
def slovakia : Cal := easterCal Slovakia.rule

end Verif
