import Verif.Model.CalBase

/-! # `/repo/src/time/calendars/iceland.rs`

Transcribed by a script from the Rust source. -/

namespace Verif.Iceland

/-- `is_business_day` (`iceland.rs` 13-46). -/
def rule (t : DateInfo) (em : Int) : Bool :=
  bif t.w.isWeekend
            || (t.d == 1 && t.m == 1)
            || t.dd == em - 4
            || t.dd == em - 3
            || t.dd == em
            || (inRange 19 25 t.d && t.w == .thu && t.m == 4)
            || t.dd == em + 38
            || t.dd == em + 49
            || (t.d == 1 && t.m == 5)
            || (t.d == 17 && t.m == 6)
            || (decide (t.d ≤ 7) && t.w == .mon && t.m == 8)
            || (t.d == 25 && t.m == 12)
            || (t.d == 26 && t.m == 12) then
    false
  else true

end Verif.Iceland

namespace Verif

/-- `Iceland::is_business_day` (`iceland.rs` 13-46). -/
def iceland : Cal := easterCal Iceland.rule

end Verif
