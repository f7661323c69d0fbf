import Verif.Model.CalBase

/-! # `/repo/src/time/calendars/argentina.rs`

Transcribed by a script from the Rust source. -/

namespace Verif.Argentina

/-- `is_business_day` (`argentina.rs` 13-47). -/
def rule (t : DateInfo) (em : Int) : Bool :=
  bif t.w.isWeekend
            || (t.d == 1 && t.m == 1)
            || t.dd == em - 4
            || t.dd == em - 3
            || (t.d == 1 && t.m == 5)
            || (t.d == 25 && t.m == 5)
            || (inRange 15 21 t.d && t.w == .mon && t.m == 6)
            || (t.d == 9 && t.m == 7)
            || (inRange 15 21 t.d && t.w == .mon && t.m == 8)
            || ((t.d == 10 || t.d == 11 || t.d == 12 || t.d == 15 || t.d == 16) && t.w == .mon && t.m == 10)
            || (t.d == 8 && t.m == 12)
            || (t.d == 24 && t.m == 12)
            || ((t.d == 31 || (t.d == 30 && t.w == .fri)) && t.m == 12) then
    false
  else true

end Verif.Argentina

namespace Verif

/-- `Argentina::is_business_day` (`argentina.rs` 13-47). -/
def argentina : Cal := easterCal Argentina.rule

end Verif
