import Verif.Model.CalBase

/-! # `/repo/src/time/calendars/romania.rs`

Transcribed by a script from the Rust source. -/

namespace Verif.Romania

/-- `is_business_day` (`romania.rs` 13-47). -/
def rule (t : DateInfo) (em : Int) : Bool :=
  bif t.w.isWeekend
        || (t.d == 1 && t.m == 1)
        || (t.d == 2 && t.m == 1)
        || (t.d == 24 && t.m == 1)
        || t.dd == em
        || (t.d == 1 && t.m == 5)
        || t.dd == em + 49
        || (t.d == 1 && t.m == 6 && decide (t.y ≥ 2017))
        || (t.d == 15 && t.m == 8)
        || (t.d == 30 && t.m == 11)
        || (t.d == 1 && t.m == 12)
        || (t.d == 25 && t.m == 12)
        || (t.d == 26 && t.m == 12) then
    false
  else
    true

end Verif.Romania

namespace Verif

/-- `Romania::is_business_day` (`romania.rs` 13-47). -/
def romania : Cal := orthodoxCal Romania.rule

end Verif
