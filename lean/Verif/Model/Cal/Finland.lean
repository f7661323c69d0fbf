import Verif.Model.CalBase

/-! # `/repo/src/time/calendars/finland.rs`

Transcribed by a script from the Rust source. -/

namespace Verif.Finland

/-- `is_business_day` (`finland.rs` 13-45). -/
def rule (t : DateInfo) (em : Int) : Bool :=
  bif t.w.isWeekend
        || (t.d == 1 && t.m == 1)
        || (t.d == 6 && t.m == 1)
        || t.dd == em - 3
        || t.dd == em
        || t.dd == em + 38
        || (t.d == 1 && t.m == 5)
        || (t.w == .fri && inRange 19 25 t.d && t.m == 6)
        || (t.d == 6 && t.m == 12)
        || (t.d == 24 && t.m == 12)
        || (t.d == 25 && t.m == 12)
        || (t.d == 26 && t.m == 12) then
    false
  else
    true

end Verif.Finland

namespace Verif

/-- `Finland::is_business_day` (`finland.rs` 13-45). -/
def finland : Cal := easterCal Finland.rule

end Verif
