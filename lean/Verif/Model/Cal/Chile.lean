import Verif.Model.CalBase

/-! # `/repo/src/time/calendars/chile.rs`

Transcribed by a script from the Rust source. -/

namespace Verif.Chile

/-- `static ABORIGINAL_PEOPLE_DAY: [u32; 179]` (`chile.rs` 8-30), years 2021-2199. -/
def aboriginalPeopleDay : List Int := [
  21, 21, 21, 20, 20, 21, 21, 20, 20, 21, 21, 20, 20, 21, 21, 20, 20, 21, 21, 20,
  20, 21, 21, 20, 20, 21, 21, 20, 20, 20, 21, 20, 20, 20, 21, 20, 20, 20, 21, 20,
  20, 20, 21, 20, 20, 20, 21, 20, 20, 20, 21, 20, 20, 20, 21, 20, 20, 20, 20, 20,
  20, 20, 20, 20, 20, 20, 20, 20, 20, 20, 20, 20, 20, 20, 20, 20, 20, 20, 20, 21,
  21, 21, 21, 21, 21, 21, 21, 20, 21, 21, 21, 20, 21, 21, 21, 20, 21, 21, 21, 20,
  21, 21, 21, 20, 21, 21, 21, 20, 21, 21, 21, 20, 21, 21, 21, 20, 20, 21, 21, 20,
  20, 21, 21, 20, 20, 21, 21, 20, 20, 21, 21, 20, 20, 21, 21, 20, 20, 21, 21, 20,
  20, 21, 21, 20, 20, 21, 21, 20, 20, 20, 21, 20, 20, 20, 21, 20, 20, 20, 21, 20,
  20, 20, 21, 20, 20, 20, 21, 20, 20, 20, 21, 20, 20, 20, 21, 20, 20, 20, 20]

/-- `is_aboriginal_people_day` (`chile.rs` 33-36). -/
def isAboriginalPeopleDay (t : DateInfo) : Bool :=
  t.m == 6 && decide (t.y ≥ 2021) && t.d == tableAt aboriginalPeopleDay (t.y - 2021)

/-- `is_business_day` (`chile.rs` 40-95). -/
def rule (t : DateInfo) (em : Int) : Bool :=
  bif t.w.isWeekend
            || (t.d == 1 && t.m == 1)
            || (t.d == 2 && t.m == 1 && t.w == .mon && decide (t.y > 2016))
            || (t.d == 16 && t.m == 1 && t.y == 2018)
            || t.dd == em - 3
            || t.dd == em - 2
            || (t.d == 19 && t.m == 4 && t.y == 2017)
            || (t.d == 1 && t.m == 5)
            || (t.d == 21 && t.m == 5)
            || isAboriginalPeopleDay t
            || (inRange 26 29 t.d && t.m == 6 && t.w == .mon)
            || (t.d == 2 && t.m == 7 && t.w == .mon)
            || (t.d == 16 && t.m == 7)
            || (t.d == 15 && t.m == 8)
            || (t.d == 16 && t.m == 9 && t.y == 2022)
            || (t.d == 17 && t.m == 9 && ((t.w == .mon && decide (t.y ≥ 2007)) || (t.w == .fri && decide (t.y > 2016))))
            || (t.d == 18 && t.m == 9)
            || (t.d == 19 && t.m == 9)
            || (t.d == 20 && t.m == 9 && t.w == .fri && decide (t.y ≥ 2007))
            || (inRange 9 12 t.d && t.m == 10 && t.w == .mon)
            || (t.d == 15 && t.m == 10 && t.w == .mon)
            || (((t.d == 27 && t.m == 10 && t.w == .fri)
                  || (t.d == 31 && t.m == 10 && !(t.w == .tue) && !(t.w == .wed))
                  || (t.d == 2 && t.m == 11 && t.w == .fri)) && decide (t.y ≥ 2008))
            || (t.d == 1 && t.m == 11)
            || (t.d == 8 && t.m == 12)
            || (t.d == 25 && t.m == 12)
            || (t.d == 31 && t.m == 12) then
    false
  else true

end Verif.Chile

namespace Verif

/-- `Chile::is_business_day` (`chile.rs` 40-95). -/
def chile : Cal := easterCal Chile.rule

end Verif
