import Verif.Model.CalBase

/-! # `/repo/src/time/calendars/target.rs`

Transcribed by a script from the Rust source. -/

namespace Verif.Target

/-- `is_business_day` (`target.rs` 12-36). -/
def rule (t : DateInfo) (em : Int) : Bool :=
  bif t.w.isWeekend
        || (t.d == 1 && t.m == 1)
        || (t.dd == em - 3 && decide (t.y ≥ 2000))
        || (t.dd == em && decide (t.y ≥ 2000))
        || (t.d == 1 && t.m == 5 && decide (t.y ≥ 2000))
        || (t.d == 25 && t.m == 12)
        || (t.d == 26 && t.m == 12 && decide (t.y ≥ 2000))
        || (t.d == 31 && t.m == 12 && (t.y == 1998 || t.y == 1999 || t.y == 2001)) then
    false
  else
    true

end Verif.Target

namespace Verif

/-- `Target::is_business_day` (`target.rs` 12-36). -/
def target : Cal := easterCal Target.rule

end Verif
