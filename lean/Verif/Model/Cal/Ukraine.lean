import Verif.Model.CalBase

/-! # `/repo/src/time/calendars/ukraine.rs`

Transcribed by a script from the Rust source. -/

namespace Verif.Ukraine

/-- `is_business_day` (`ukraine.rs` 13-45). -/
def rule (t : DateInfo) (em : Int) : Bool :=
  bif t.w.isWeekend
        || ((t.d == 1 || ((t.d == 2 || t.d == 3) && t.w == .mon)) && t.m == 1)
        || ((t.d == 7 || ((t.d == 8 || t.d == 9) && t.w == .mon)) && t.m == 1)
        || ((t.d == 8 || ((t.d == 9 || t.d == 10) && t.w == .mon)) && t.m == 3)
        || t.dd == em
        || t.dd == em + 49
        || ((t.d == 1 || t.d == 2 || (t.d == 3 && t.w == .mon)) && t.m == 5)
        || ((t.d == 9 || ((t.d == 10 || t.d == 11) && t.w == .mon)) && t.m == 5)
        || (t.d == 28 && t.m == 6)
        || (t.d == 24 && t.m == 8)
        || (t.d == 14 && t.m == 10 && decide (t.y ≥ 2015)) then
    false
  else
    true

end Verif.Ukraine

namespace Verif

/-- `Ukraine::is_business_day` (`ukraine.rs` 13-45). -/
def ukraine : Cal := easterCal Ukraine.rule

end Verif
