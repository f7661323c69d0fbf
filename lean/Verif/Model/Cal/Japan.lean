import Verif.Model.CalBase

/-! # `/repo/src/time/calendars/japan.rs`

Transcribed by a script from the Rust source. -/

namespace Verif.Japan

/-- `vernal_equinox_day` (`japan.rs` 12-17). -/
def vernalEquinoxDay (y : Int) : Int :=
  bif (y == 2014 || y == 2015 || y == 2018 || y == 2019 || y == 2022
      || y == 2023 || y == 2027) then
      21
    else 20

/-- `autumnal_equinox_day` (`japan.rs` 18-23). -/
def autumnalEquinoxDay (y : Int) : Int :=
  bif (y == 2020 || y == 2024 || y == 2028) then
      22
    else 23

/-- `is_business_day` (`japan.rs` 28-133). -/
def rule (t : DateInfo) : Bool :=
  bif t.w.isWeekend
        || (t.d == 1 && t.m == 1)
        || (t.d == 2 && t.m == 1)
        || (t.d == 3 && t.m == 1)
        || (t.w == .mon && inRange 8 14 t.d && t.m == 1 && decide (t.y ≥ 2000))
        || ((t.d == 15 || (t.d == 16 && t.w == .mon)) && t.m == 1 && decide (t.y < 2000))
        || ((t.d == 11 || (t.d == 12 && t.w == .mon)) && t.m == 2)
        || ((t.d == 23 || (t.d == 24 && t.w == .mon)) && t.m == 2 && decide (t.y ≥ 2020))
        || ((t.d == 23 || (t.d == 24 && t.w == .mon)) && t.m == 12 && inRange 1989 (2019 - 1) t.y)
        || ((t.d == (vernalEquinoxDay t.y)
              || (t.d == (vernalEquinoxDay t.y) + 1 && t.w == .mon)) && t.m == 3)
        || ((t.d == 29 || (t.d == 30 && t.w == .mon)) && t.m == 4)
        || (t.d == 3 && t.m == 5)
        || (t.d == 4 && t.m == 5)
        || (t.d == 5 && t.m == 5)
        || (t.d == 6 && t.m == 5 && (t.w == .mon || t.w == .tue || t.w == .wed))
        || (t.w == .mon && inRange 15 21 t.d && t.m == 7 && (inRange 2003 (2020 - 1) t.y || decide (t.y ≥ 2022)))
        || ((t.d == 20 || (t.d == 21 && t.w == .mon)) && t.m == 7 && inRange 1996 (2003 - 1) t.y)
        || (t.d == 23 && t.m == 7 && t.y == 2020)
        || (t.d == 22 && t.m == 7 && t.y == 2021)
        || ((t.d == 11 || (t.d == 12 && t.w == .mon)) && t.m == 8 && (inRange 2016 (2020 - 1) t.y || decide (t.y ≥ 2022)))
        || (t.d == 10 && t.m == 8 && t.y == 2020)
        || (t.d == 9 && t.m == 8 && t.y == 2021)
        || (t.w == .mon && inRange 15 21 t.d && t.m == 9 && decide (t.y ≥ 2003))
        || ((t.d == 15 || (t.d == 16 && t.w == .mon)) && t.m == 9 && decide (t.y < 2003))
        || (t.w == .tue && t.d + 1 == (autumnalEquinoxDay t.y) && inRange 16 22 t.d && t.m == 9 && decide (t.y ≥ 2003))
        || ((t.d == (autumnalEquinoxDay t.y)
              || (t.d == (autumnalEquinoxDay t.y) + 1 && t.w == .mon)) && t.m == 9)
        || (t.w == .mon && inRange 8 14 t.d && t.m == 10 && (inRange 2000 (2020 - 1) t.y || decide (t.y ≥ 2022)))
        || ((t.d == 10 || (t.d == 11 && t.w == .mon)) && t.m == 10 && decide (t.y < 2000))
        || (t.d == 24 && t.m == 7 && t.y == 2020)
        || (t.d == 23 && t.m == 7 && t.y == 2021)
        || ((t.d == 3 || (t.d == 4 && t.w == .mon)) && t.m == 11)
        || ((t.d == 23 || (t.d == 24 && t.w == .mon)) && t.m == 11)
        || (t.d == 31 && t.m == 12)
        || (t.d == 10 && t.m == 4 && t.y == 1959)
        || (t.d == 24 && t.m == 2 && t.y == 1989)
        || (t.d == 12 && t.m == 11 && t.y == 1990)
        || (t.d == 9 && t.m == 6 && t.y == 1993)
        || (t.d == 30 && t.m == 4 && t.y == 2019)
        || (t.d == 1 && t.m == 5 && t.y == 2019)
        || (t.d == 2 && t.m == 5 && t.y == 2019)
        || (t.d == 22 && t.m == 10 && t.y == 2019) then
    false
  else
    true

end Verif.Japan

namespace Verif

/-- `Japan::is_business_day` (`japan.rs` 28-133). -/
def japan : Cal := plainCal Japan.rule

end Verif
