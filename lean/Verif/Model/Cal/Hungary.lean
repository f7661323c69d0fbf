import Verif.Model.CalBase

/-! # `/repo/src/time/calendars/hungary.rs`

Transcribed by a script from the Rust source. -/

namespace Verif.Hungary

/-- `is_business_day` (`hungary.rs` 13-48). -/
def rule (t : DateInfo) (em : Int) : Bool :=
  bif t.w.isWeekend
            || (t.dd == em - 3 && decide (t.y ≥ 2017))
            || t.dd == em
            || t.dd == em + 49
            || (t.d == 1 && t.m == 1)
            || (t.d == 15 && t.m == 3)
            || (t.d == 1 && t.m == 5)
            || (t.d == 20 && t.m == 8)
            || (t.d == 23 && t.m == 10)
            || (t.d == 1 && t.m == 11)
            || (t.d == 25 && t.m == 12)
            || (t.d == 26 && t.m == 12) then
    false
  else true

end Verif.Hungary

namespace Verif

/-- `Hungary::is_business_day` (`hungary.rs` 13-48). -/
def hungary : Cal := easterCal Hungary.rule

end Verif
