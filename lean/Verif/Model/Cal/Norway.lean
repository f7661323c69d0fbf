import Verif.Model.CalBase

/-! # `/repo/src/time/calendars/norway.rs`

Transcribed by a script from the Rust source. -/

namespace Verif.Norway

/-- `is_business_day` (`norway.rs` 13-45). -/
def rule (t : DateInfo) (em : Int) : Bool :=
  bif t.w.isWeekend
        || t.dd == em - 4
        || t.dd == em - 3
        || t.dd == em
        || t.dd == em + 38
        || t.dd == em + 49
        || (t.d == 1 && t.m == 1)
        || (t.d == 1 && t.m == 5)
        || (t.d == 17 && t.m == 5)
        || (t.d == 24 && t.m == 12 && decide (t.y ≥ 2002))
        || (t.d == 25 && t.m == 12)
        || (t.d == 26 && t.m == 12) then
    false
  else
    true

end Verif.Norway

namespace Verif

/-- `Norway::is_business_day` (`norway.rs` 13-45). -/
def norway : Cal := easterCal Norway.rule

end Verif
