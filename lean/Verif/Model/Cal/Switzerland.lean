import Verif.Model.CalBase

/-! # `/repo/src/time/calendars/switzerland.rs`

Transcribed by a script from the Rust source. -/

namespace Verif.Switzerland

/-- `is_business_day` (`switzerland.rs` 13-42). -/
def rule (t : DateInfo) (em : Int) : Bool :=
  bif t.w.isWeekend
            || (t.d == 1 && t.m == 1)
            || (t.d == 2 && t.m == 1)
            || t.dd == em - 3
            || t.dd == em
            || t.dd == em + 38
            || t.dd == em + 49
            || (t.d == 1 && t.m == 5)
            || (t.d == 1 && t.m == 8)
            || (t.d == 25 && t.m == 12)
            || (t.d == 26 && t.m == 12) then
    false
  else true

end Verif.Switzerland

namespace Verif

/-- `Switzerland::is_business_day` (`switzerland.rs` 13-42). -/
def switzerland : Cal := easterCal Switzerland.rule

end Verif
