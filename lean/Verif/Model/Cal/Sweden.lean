import Verif.Model.CalBase

/-! # `/repo/src/time/calendars/sweden.rs`

Transcribed by a script from the Rust source. -/

namespace Verif.Sweden

/-- `is_business_day` (`sweden.rs` 13-49). -/
def rule (t : DateInfo) (em : Int) : Bool :=
  bif t.w.isWeekend
            || t.dd == em - 3
            || t.dd == em
            || t.dd == em + 38
            || (t.dd == em + 49 && decide (t.y < 2005))
            || (t.d == 1 && t.m == 1)
            || (t.d == 6 && t.m == 1)
            || (t.d == 1 && t.m == 5)
            || (t.d == 6 && t.m == 6 && decide (t.y ≥ 2005))
            || (t.w == .fri && inRange 19 25 t.d && t.m == 6)
            || (t.d == 24 && t.m == 12)
            || (t.d == 25 && t.m == 12)
            || (t.d == 26 && t.m == 12)
            || (t.d == 31 && t.m == 12) then
    false
  else true

end Verif.Sweden

namespace Verif

/-- `Sweden::is_business_day` (`sweden.rs` 13-49). -/
def sweden : Cal := easterCal Sweden.rule

end Verif
