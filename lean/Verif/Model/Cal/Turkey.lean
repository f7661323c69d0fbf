import Verif.Model.CalBase

/-! # `/repo/src/time/calendars/turkey.rs`

Transcribed by a script from the Rust source. -/

namespace Verif.Turkey

/-- `is_business_day` (`turkey.rs` 13-295). -/
def rule (t : DateInfo) : Bool :=
  bif t.w.isWeekend
            || (t.d == 1 && t.m == 1)
            || (t.d == 23 && t.m == 4)
            || (t.d == 1 && t.m == 5)
            || (t.d == 19 && t.m == 5)
            || (t.d == 15 && t.m == 7 && decide (t.y ≥ 2017))
            || (t.d == 30 && t.m == 8)
            || (t.d == 29 && t.m == 10) then
    false
  else bif (bif t.y == 2004 then
          (t.m == 2 && decide (t.d ≤ 4)) || (t.m == 11 && inRange 14 16 t.d)
        else bif t.y == 2005 then
          (t.m == 1 && inRange 19 21 t.d) || (t.m == 11 && inRange 2 5 t.d)
        else bif t.y == 2006 then
          (t.m == 1 && inRange 10 13 t.d)
              || (t.m == 10 && inRange 23 25 t.d)
              || (t.m == 12 && t.d == 31)
        else bif t.y == 2007 then
          (t.m == 1 && decide (t.d ≤ 3))
              || (t.m == 10 && inRange 12 14 t.d)
              || (t.m == 12 && inRange 20 23 t.d)
        else bif t.y == 2008 then
          (t.m == 9 && t.d == 30)
              || (t.m == 10 && decide (t.d ≤ 2))
              || (t.m == 12 && inRange 8 11 t.d)
        else bif t.y == 2009 then
          (t.m == 9 && inRange 20 22 t.d) || (t.m == 11 && inRange 27 30 t.d)
        else bif t.y == 2010 then
          (t.m == 9 && inRange 9 11 t.d) || (t.m == 11 && inRange 16 19 t.d)
        else bif t.y == 2011 then
          (t.m == 10 && t.d == 1) || (t.m == 11 && inRange 9 13 t.d)
        else bif t.y == 2012 then
          (t.m == 8 && inRange 18 21 t.d) || (t.m == 10 && inRange 24 28 t.d)
        else bif t.y == 2013 then
          (t.m == 8 && inRange 7 10 t.d)
              || (t.m == 10 && inRange 14 18 t.d)
              || (t.m == 10 && t.d == 28)
        else bif t.y == 2014 then
          (t.m == 7 && inRange 27 30 t.d)
              || (t.m == 10 && inRange 4 7 t.d)
              || (t.m == 10 && t.d == 29)
        else bif t.y == 2015 then
          (t.m == 7 && inRange 17 19 t.d) || (t.m == 10 && inRange 24 27 t.d)
        else bif t.y == 2016 then
          (t.m == 7 && inRange 5 7 t.d) || (t.m == 9 && inRange 12 15 t.d)
        else bif t.y == 2017 then
          (t.m == 6 && inRange 25 27 t.d) || (t.m == 9 && inRange 1 4 t.d)
        else bif t.y == 2018 then
          (t.m == 6 && inRange 15 17 t.d) || (t.m == 8 && inRange 21 24 t.d)
        else bif t.y == 2019 then
          (t.m == 6 && inRange 4 6 t.d) || (t.m == 8 && inRange 11 14 t.d)
        else bif t.y == 2020 then
          (t.m == 5 && inRange 24 26 t.d)
              || (t.m == 7 && t.d == 31)
              || (t.m == 8 && inRange 1 3 t.d)
        else bif t.y == 2021 then
          (t.m == 5 && inRange 13 15 t.d) || (t.m == 7 && inRange 20 23 t.d)
        else bif t.y == 2022 then
          (t.m == 5 && inRange 2 4 t.d) || (t.m == 7 && inRange 9 12 t.d)
        else bif t.y == 2023 then
          (t.m == 4 && inRange 21 23 t.d) || (t.m == 6 && inRange 28 30 t.d)
        else bif t.y == 2024 then
          (t.m == 4 && inRange 10 12 t.d) || (t.m == 6 && inRange 17 19 t.d)
        else bif t.y == 2025 then
          (t.m == 3 && t.d == 31)
              || (t.m == 4 && inRange 1 2 t.d)
              || (t.m == 6 && inRange 6 9 t.d)
        else bif t.y == 2026 then
          (t.m == 3 && inRange 20 22 t.d) || (t.m == 5 && inRange 26 29 t.d)
        else bif t.y == 2027 then
          (t.m == 3 && inRange 10 12 t.d) || (t.m == 5 && inRange 16 19 t.d)
        else bif t.y == 2028 then
          (t.m == 2 && inRange 27 29 t.d) || (t.m == 5 && inRange 4 7 t.d)
        else bif t.y == 2029 then
          (t.m == 2 && inRange 15 17 t.d) || (t.m == 4 && inRange 23 26 t.d)
        else bif t.y == 2030 then
          (t.m == 2 && inRange 5 7 t.d) || (t.m == 4 && inRange 13 16 t.d)
        else bif t.y == 2031 then
          (t.m == 1 && inRange 25 27 t.d) || (t.m == 4 && inRange 2 5 t.d)
        else bif t.y == 2032 then
          (t.m == 1 && inRange 14 16 t.d) || (t.m == 3 && inRange 21 24 t.d)
        else bif t.y == 2033 then
          (t.m == 1 && inRange 3 5 t.d)
              || (t.m == 12 && t.d == 23)
              || (t.m == 3 && inRange 11 14 t.d)
        else bif t.y == 2034 then
          (t.m == 12 && inRange 12 14 t.d)
              || (t.m == 2 && t.d == 28)
              || (t.m == 3 && inRange 1 3 t.d)
        else false) then
    false
  else true

end Verif.Turkey

namespace Verif

/-- `Turkey::is_business_day` (`turkey.rs` 13-295). -/
def turkey : Cal := plainCal Turkey.rule

end Verif
