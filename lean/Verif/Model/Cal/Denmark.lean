import Verif.Model.CalBase

/-! # `/repo/src/time/calendars/denmark.rs`

Transcribed by a script from the Rust source. -/

namespace Verif.Denmark

/-- `is_business_day` (`denmark.rs` 12-48). -/
def rule (t : DateInfo) (em : Int) : Bool :=
  bif t.w.isWeekend
        || t.dd == em - 4
        || t.dd == em - 3
        || t.dd == em
        || (t.dd == em + 25 && decide (t.y ≤ 2023))
        || t.dd == em + 38
        || (t.dd == em + 39 && decide (t.y ≥ 2009))
        || t.dd == em + 49
        || (t.d == 1 && t.m == 1)
        || (t.d == 5 && t.m == 6)
        || (t.d == 24 && t.m == 12)
        || (t.d == 25 && t.m == 12)
        || (t.d == 26 && t.m == 12)
        || (t.d == 31 && t.m == 12) then
    false
  else
    true

end Verif.Denmark

namespace Verif

/-- `Denmark::is_business_day` (`denmark.rs` 12-48). -/
def denmark : Cal := easterCal Denmark.rule

end Verif
