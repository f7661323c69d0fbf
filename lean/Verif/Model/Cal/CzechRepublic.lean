import Verif.Model.CalBase

/-! # `/repo/src/time/calendars/czechrepublic.rs`

Transcribed by a script from the Rust source. -/

namespace Verif.CzechRepublic

/-- `is_business_day` (`czechrepublic.rs` 13-52). -/
def rule (t : DateInfo) (em : Int) : Bool :=
  bif t.w.isWeekend
        || (t.d == 1 && t.m == 1)
        || (t.dd == em - 3 && decide (t.y ≥ 2016))
        || t.dd == em
        || (t.d == 1 && t.m == 5)
        || (t.d == 8 && t.m == 5)
        || (t.d == 5 && t.m == 7)
        || (t.d == 6 && t.m == 7)
        || (t.d == 28 && t.m == 9)
        || (t.d == 28 && t.m == 10)
        || (t.d == 17 && t.m == 11)
        || (t.d == 24 && t.m == 12)
        || (t.d == 25 && t.m == 12)
        || (t.d == 26 && t.m == 12)
        || (t.d == 2 && t.m == 1 && t.y == 2004)
        || (t.d == 31 && t.m == 12 && t.y == 2004) then
    false
  else
    true

end Verif.CzechRepublic

namespace Verif

/-- `CzechRepublic::is_business_day` (`czechrepublic.rs` 13-52). -/
def czechRepublic : Cal := easterCal CzechRepublic.rule

end Verif
