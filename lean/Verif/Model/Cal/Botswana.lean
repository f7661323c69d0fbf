import Verif.Model.CalBase

/-! # `/repo/src/time/calendars/botswana.rs`

Transcribed by a script from the Rust source. -/

namespace Verif.Botswana

/-- `is_business_day` (`botswana.rs` 13-50). -/
def rule (t : DateInfo) (em : Int) : Bool :=
  bif t.w.isWeekend
            || ((t.d == 1 || (t.d == 2 && t.w == .mon) || (t.d == 3 && t.w == .tue)) && t.m == 1)
            || t.dd == em - 3
            || t.dd == em
            || ((t.d == 1 || (t.d == 2 && t.w == .mon)) && t.m == 5)
            || t.dd == em + 38
            || ((t.d == 1 || (t.d == 2 && t.w == .mon)) && t.m == 7)
            || (inRange 15 21 t.d && t.w == .mon && t.m == 7)
            || (t.d == 30 && t.m == 9)
            || (t.d == 1 && t.w == .mon && t.m == 10)
            || ((t.d == 1 || (t.d == 2 && t.w == .mon) || (t.d == 3 && t.w == .tue)) && t.m == 10)
            || (t.d == 25 && t.m == 12)
            || ((t.d == 26 || (t.d == 27 && t.w == .mon)) && t.m == 12) then
    false
  else true

end Verif.Botswana

namespace Verif

/-- `Botswana::is_business_day` (`botswana.rs` 13-50). -/
def botswana : Cal := easterCal Botswana.rule

end Verif
