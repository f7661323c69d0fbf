import Verif.Model.CalBase

/-! # `/repo/src/time/calendars/taiwan.rs`

Transcribed by a script from the Rust source. -/

namespace Verif.Taiwan

/-- `is_business_day` (`taiwan.rs` 12-433). -/
def rule (t : DateInfo) : Bool :=
  bif t.w.isWeekend
            || (t.d == 1 && t.m == 1)
            || (t.d == 28 && t.m == 2)
            || (t.d == 5 && t.m == 4 && !(t.y == 2008) && !(t.y == 2009) && !(t.y == 2012) && !(t.y == 2017))
            || (t.d == 1 && t.m == 5)
            || (t.d == 10 && t.m == 10) then
    false
  else bif t.y == 2002 && inRange 9 17 t.d && t.m == 2 then
    false
  else bif t.y == 2003 && ((decide (t.d ≥ 31) && t.m == 1)
              || (decide (t.d ≤ 5) && t.m == 2)
              || (t.d == 4 && t.m == 6)
              || (t.d == 11 && t.m == 9)) then
    false
  else bif t.y == 2004 && ((inRange 21 26 t.d && t.m == 1)
              || (t.d == 22 && t.m == 6)
              || (t.d == 28 && t.m == 9)) then
    false
  else bif t.y == 2005 && ((inRange 6 13 t.d && t.m == 2) || (t.d == 2 && t.m == 5)) then
    false
  else bif t.y == 2006 && ((decide (t.d ≥ 28) && t.m == 1)
              || (decide (t.d ≤ 5) && t.m == 2)
              || (t.d == 31 && t.m == 5)
              || (t.d == 6 && t.m == 10)) then
    false
  else bif t.y == 2007 && ((inRange 17 25 t.d && t.m == 2)
              || (t.d == 6 && t.m == 4)
              || (t.d == 18 && t.m == 6)
              || (t.d == 19 && t.m == 6)
              || (t.d == 24 && t.m == 9)
              || (t.d == 25 && t.m == 9)) then
    false
  else bif t.y == 2008 && ((inRange 4 11 t.d && t.m == 2) || (t.d == 4 && t.m == 4)) then
    false
  else bif t.y == 2009 && (((decide (t.d ≥ 24) || t.d == 2) && t.m == 1)
              || (t.d == 4 && t.m == 4)
              || ((t.d == 28 || t.d == 29) && t.m == 5)
              || (t.d == 3 && t.m == 10)) then
    false
  else bif t.y == 2010 && ((inRange 13 21 t.d && t.m == 1)
              || (t.d == 16 && t.m == 5)
              || (t.d == 22 && t.m == 9)) then
    false
  else bif t.y == 2011 && ((inRange 2 7 t.d && t.m == 2)
              || (t.d == 4 && t.m == 4)
              || (t.d == 2 && t.m == 5)
              || (t.d == 6 && t.m == 6)
              || (t.d == 12 && t.m == 9)) then
    false
  else bif t.y == 2012 && ((inRange 23 27 t.d && t.m == 1)
              || (t.d == 27 && t.m == 2)
              || (t.d == 4 && t.m == 4)
              || (t.d == 23 && t.m == 6)
              || (t.d == 30 && t.m == 9)
              || (t.d == 31 && t.m == 12)) then
    false
  else bif t.y == 2013 && ((inRange 10 15 t.d && t.m == 2)
              || (t.d == 4 && t.m == 4)
              || (t.d == 12 && t.m == 6)
              || (inRange 19 20 t.d && t.m == 9)) then
    false
  else bif t.y == 2014 && ((inRange 28 30 t.d && t.m == 1)
              || (t.d == 31 && t.m == 1)
              || (decide (t.d ≤ 4) && t.m == 2)
              || (t.d == 4 && t.m == 4)
              || (t.d == 2 && t.m == 6)
              || (t.d == 8 && t.m == 9)) then
    false
  else bif t.y == 2015 && ((t.d == 2 && t.m == 1)
              || (inRange 18 23 t.d && t.m == 2)
              || (t.d == 27 && t.m == 2)
              || (t.d == 3 && t.m == 4)
              || (t.d == 6 && t.m == 4)
              || (t.d == 19 && t.m == 6)
              || (t.d == 28 && t.m == 9)
              || (t.d == 9 && t.m == 10)) then
    false
  else bif t.y == 2016 && (((t.d == 29 || inRange 8 12 t.d) && t.m == 2)
              || (t.d == 4 && t.m == 4)
              || (t.d == 2 && t.m == 5)
              || (t.d == 9 && t.m == 6)
              || (t.d == 10 && t.m == 6)
              || (t.d == 15 && t.m == 9)
              || (t.d == 16 && t.m == 9)) then
    false
  else bif t.y == 2017 && ((t.d == 2 && t.m == 1)
              || (decide (t.d ≥ 27) && t.m == 1)
              || (t.d == 1 && t.m == 2)
              || (t.d == 27 && t.m == 2)
              || (t.d == 3 && t.m == 4)
              || (t.d == 4 && t.m == 4)
              || (t.d == 29 && t.m == 5)
              || (t.d == 30 && t.m == 5)
              || (t.d == 4 && t.m == 10)
              || (t.d == 9 && t.m == 10)) then
    false
  else bif t.y == 2018 && ((inRange 15 20 t.d && t.m == 2)
              || (t.d == 4 && t.m == 4)
              || (t.d == 6 && t.m == 4)
              || (t.d == 18 && t.m == 6)
              || (t.d == 24 && t.m == 9)
              || (t.d == 31 && t.m == 12)) then
    false
  else bif t.y == 2019 && ((inRange 4 8 t.d && t.m == 2)
              || (t.d == 1 && t.m == 3)
              || (t.d == 4 && t.m == 4)
              || (t.d == 7 && t.m == 6)
              || (t.d == 13 && t.m == 9)
              || (t.d == 11 && t.m == 10)) then
    false
  else bif t.y == 2020 && (((inRange 24 29 t.d || t.d == 23) && t.m == 1)
              || (t.d == 2 && t.m == 4)
              || (t.d == 3 && t.m == 4)
              || (t.d == 25 && t.m == 6)
              || (t.d == 26 && t.m == 6)
              || (t.d == 1 && t.m == 10)
              || (t.d == 2 && t.m == 10)
              || (t.d == 9 && t.m == 10)) then
    false
  else bif t.y == 2021 && (((inRange 11 16 t.d || t.d == 10) && t.m == 2)
              || (t.d == 1 && t.m == 3)
              || (t.d == 2 && t.m == 4)
              || (t.d == 30 && t.m == 4)
              || (t.d == 14 && t.m == 6)
              || (t.d == 20 && t.m == 9)
              || (t.d == 21 && t.m == 9)
              || (t.d == 11 && t.m == 10)
              || (t.d == 31 && t.m == 12)) then
    false
  else bif t.y == 2022 && ((t.d == 31 && t.m == 1)
              || (decide (t.d ≤ 4) && t.m == 2)
              || (t.d == 4 && t.m == 4)
              || (t.d == 2 && t.m == 5)
              || (t.d == 3 && t.m == 6)
              || (t.d == 9 && t.m == 9)) then
    false
  else bif t.y == 2023 && (((inRange 25 27 t.d || t.d == 20 || t.d == 2 || inRange 21 24 t.d) && t.m == 1)
              || (t.d == 27 && t.m == 2)
              || (t.d == 3 && t.m == 4)
              || (t.d == 4 && t.m == 4)
              || (t.d == 22 && t.m == 6)
              || (t.d == 23 && t.m == 6)
              || (t.d == 29 && t.m == 9)
              || (t.d == 9 && t.m == 10)) then
    false
  else bif t.y == 2024 && (((t.d == 28 || inRange 8 14 t.d) && t.m == 2)
              || (t.d == 4 && t.m == 4)
              || (t.d == 10 && t.m == 6)
              || (t.d == 17 && t.m == 9)) then
    false
  else bif t.y == 2025 && (((t.d == 23 || t.d == 24 || inRange 27 31 t.d) && t.m == 1)
              || (t.d == 3 && t.m == 4)
              || (t.d == 4 && t.m == 4)
              || (t.d == 30 && t.m == 5)
              || (t.d == 6 && t.m == 10)) then
    false
  else bif t.y == 2026 && (((t.d == 12 || t.d == 13 || inRange 16 20 t.d || t.d == 27) && t.m == 2)
              || (t.d == 3 && t.m == 4)
              || (t.d == 6 && t.m == 4)
              || (t.d == 19 && t.m == 6)
              || (t.d == 25 && t.m == 9)
              || (t.d == 9 && t.m == 10)) then
    false
  else true

end Verif.Taiwan

namespace Verif

/-- `Taiwan::is_business_day` (`taiwan.rs` 12-433). -/
def taiwan : Cal := plainCal Taiwan.rule

end Verif
