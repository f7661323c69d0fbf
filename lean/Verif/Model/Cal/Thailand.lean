import Verif.Model.CalBase

/-! # `/repo/src/time/calendars/thailand.rs`

Transcribed by a script from the Rust source. -/

namespace Verif.Thailand

/-- `is_business_day` (`thailand.rs` 13-389). -/
def rule (t : DateInfo) (_em : Int) : Bool :=
  bif t.w.isWeekend
            || ((t.d == 1 || (t.d == 3 && t.w == .mon)) && t.m == 1)
            || ((t.d == 6 || ((t.d == 7 || t.d == 8) && t.w == .mon)) && t.m == 4)
            || ((t.d == 13 || t.d == 14 || t.d == 15) && t.m == 4 && !(t.y == 2020))
            || (t.d == 16 && (t.w == .mon || t.w == .tue) && t.m == 4 && !(t.y == 2020))
            || ((t.d == 1 || ((t.d == 2 || t.d == 3) && t.w == .mon)) && t.m == 5)
            || ((t.d == 4 || ((t.d == 5 || t.d == 6) && t.w == .mon)) && t.m == 5 && decide (t.y ≥ 2019))
            || ((t.d == 3 || ((t.d == 4 || t.d == 5) && t.w == .mon)) && t.m == 6 && decide (t.y ≥ 2019))
            || ((t.d == 28 || ((t.d == 29 || t.d == 30) && t.w == .mon)) && t.m == 7 && decide (t.y ≥ 2017))
            || ((t.d == 12 || ((t.d == 13 || t.d == 14) && t.w == .mon)) && t.m == 8)
            || ((t.d == 13 || ((t.d == 14 || t.d == 15) && t.w == .mon)) && t.m == 10 && decide (t.y ≥ 2017))
            || ((t.d == 23 || ((t.d == 24 || t.d == 25) && t.w == .mon)) && t.m == 10 && !(t.y == 2021))
            || ((t.d == 5 || ((t.d == 6 || t.d == 7) && t.w == .mon)) && t.m == 12)
            || ((t.d == 10 || ((t.d == 11 || t.d == 12) && t.w == .mon)) && t.m == 12)
            || (t.d == 31 && t.m == 12)
            || (t.d == 2 && t.w == .mon && t.m == 1 && !(t.y == 2024)) then
    false
  else bif t.y == 2000 && ((t.d == 21 && t.m == 2)
              || (t.d == 5 && t.m == 5)
              || (t.d == 17 && t.m == 5)
              || (t.d == 17 && t.m == 7)
              || (t.d == 23 && t.m == 10)) then
    false
  else bif t.y == 2001 && ((t.d == 8 && t.m == 2)
              || (t.d == 7 && t.m == 5)
              || (t.d == 8 && t.m == 5)
              || (t.d == 6 && t.m == 7)
              || (t.d == 23 && t.m == 10)) then
    false
  else bif t.y == 2005 && ((t.d == 23 && t.m == 2)
              || (t.d == 5 && t.m == 5)
              || (t.d == 23 && t.m == 5)
              || (t.d == 1 && t.m == 7)
              || (t.d == 22 && t.m == 7)
              || (t.d == 24 && t.m == 10)) then
    false
  else bif t.y == 2006 && ((t.d == 13 && t.m == 2)
              || (t.d == 19 && t.m == 4)
              || (t.d == 5 && t.m == 5)
              || (t.d == 12 && t.m == 5)
              || (t.d == 12 && t.m == 6)
              || (t.d == 13 && t.m == 6)
              || (t.d == 11 && t.m == 7)
              || (t.d == 23 && t.m == 10)) then
    false
  else bif t.y == 2007 && ((t.d == 5 && t.m == 3)
              || (t.d == 7 && t.m == 5)
              || (t.d == 31 && t.m == 5)
              || (t.d == 30 && t.m == 7)
              || (t.d == 23 && t.m == 10)
              || (t.d == 24 && t.m == 12)) then
    false
  else bif t.y == 2008 && ((t.d == 21 && t.m == 2)
              || (t.d == 5 && t.m == 5)
              || (t.d == 19 && t.m == 5)
              || (t.d == 1 && t.m == 7)
              || (t.d == 17 && t.m == 7)
              || (t.d == 23 && t.m == 10)) then
    false
  else bif t.y == 2009 && ((t.d == 2 && t.m == 1)
              || (t.d == 9 && t.m == 2)
              || (t.d == 5 && t.m == 5)
              || (t.d == 8 && t.m == 5)
              || (t.d == 1 && t.m == 7)
              || (t.d == 6 && t.m == 7)
              || (t.d == 7 && t.m == 7)
              || (t.d == 23 && t.m == 10)) then
    false
  else bif t.y == 2010 && ((t.d == 1 && t.m == 3)
              || (t.d == 5 && t.m == 5)
              || (t.d == 20 && t.m == 5)
              || (t.d == 21 && t.m == 5)
              || (t.d == 28 && t.m == 5)
              || (t.d == 1 && t.m == 7)
              || (t.d == 26 && t.m == 7)
              || (t.d == 13 && t.m == 8)
              || (t.d == 25 && t.m == 10)) then
    false
  else bif t.y == 2011 && ((t.d == 18 && t.m == 2)
              || (t.d == 5 && t.m == 5)
              || (t.d == 16 && t.m == 5)
              || (t.d == 17 && t.m == 5)
              || (t.d == 1 && t.m == 7)
              || (t.d == 15 && t.m == 7)
              || (t.d == 24 && t.m == 10)) then
    false
  else bif t.y == 2012 && ((t.d == 3 && t.m == 1)
              || (t.d == 7 && t.m == 3)
              || (t.d == 9 && t.m == 4)
              || (t.d == 7 && t.m == 5)
              || (t.d == 4 && t.m == 6)
              || (t.d == 2 && t.m == 8)
              || (t.d == 23 && t.m == 10)) then
    false
  else bif t.y == 2013 && ((t.d == 25 && t.m == 2)
              || (t.d == 6 && t.m == 5)
              || (t.d == 24 && t.m == 5)
              || (t.d == 1 && t.m == 7)
              || (t.d == 22 && t.m == 7)
              || (t.d == 23 && t.m == 10)
              || (t.d == 30 && t.m == 12)) then
    false
  else bif t.y == 2014 && ((t.d == 14 && t.m == 2)
              || (t.d == 5 && t.m == 5)
              || (t.d == 13 && t.m == 5)
              || (t.d == 1 && t.m == 7)
              || (t.d == 11 && t.m == 7)
              || (t.d == 11 && t.m == 8)
              || (t.d == 23 && t.m == 10)) then
    false
  else bif t.y == 2015 && ((t.d == 2 && t.m == 1)
              || (t.d == 4 && t.m == 3)
              || (t.d == 4 && t.m == 5)
              || (t.d == 5 && t.m == 5)
              || (t.d == 1 && t.m == 6)
              || (t.d == 1 && t.m == 7)
              || (t.d == 30 && t.m == 7)
              || (t.d == 23 && t.m == 10)) then
    false
  else bif t.y == 2016 && ((t.d == 22 && t.m == 2)
              || (t.d == 5 && t.m == 5)
              || (t.d == 6 && t.m == 5)
              || (t.d == 20 && t.m == 5)
              || (t.d == 1 && t.m == 7)
              || (t.d == 18 && t.m == 7)
              || (t.d == 19 && t.m == 7)
              || (t.d == 24 && t.m == 10)) then
    false
  else bif t.y == 2017 && ((t.d == 13 && t.m == 2)
              || (t.d == 10 && t.m == 5)
              || (t.d == 10 && t.m == 7)
              || (t.d == 23 && t.m == 10)
              || (t.d == 26 && t.m == 10)) then
    false
  else bif t.y == 2018 && ((t.d == 1 && t.m == 3)
              || (t.d == 29 && t.m == 5)
              || (t.d == 27 && t.m == 7)
              || (t.d == 23 && t.m == 10)) then
    false
  else bif t.y == 2019 && ((t.d == 19 && t.m == 2)
              || (t.d == 6 && t.m == 5)
              || (t.d == 20 && t.m == 5)
              || (t.d == 16 && t.m == 7)) then
    false
  else bif t.y == 2020 && ((t.d == 10 && t.m == 2)
              || (t.d == 6 && t.m == 5)
              || (t.d == 6 && t.m == 7)
              || (t.d == 27 && t.m == 7)
              || (t.d == 4 && t.m == 9)
              || (t.d == 7 && t.m == 9)
              || (t.d == 11 && t.m == 12)) then
    false
  else bif t.y == 2021 && (((t.m == 7 || t.m == 5 || t.m == 2) && (t.d == 26 || t.m == 2) && (t.d == 26 || t.d == 12))
              || (t.d == 24 && t.m == 9)
              || (t.d == 22 && t.m == 10)) then
    false
  else bif t.y == 2022 && (((t.m == 5 || t.m == 2) && t.d == 16)
              || (t.d == 13 && t.m == 7)
              || (t.d == 29 && t.m == 7)
              || (t.d == 14 && t.m == 10)
              || (t.d == 24 && t.m == 10)) then
    false
  else bif t.y == 2023 && ((t.d == 6 && t.m == 3)
              || (t.d == 5 && t.m == 5)
              || (t.d == 5 && t.m == 6)
              || (t.d == 1 && t.m == 8)
              || (t.d == 23 && t.m == 10)
              || (t.d == 29 && t.m == 12)) then
    false
  else bif t.y == 2024 && ((t.d == 26 && t.m == 2)
              || (t.d == 8 && t.m == 4)
              || (t.d == 12 && t.m == 4)
              || (t.d == 6 && t.m == 5)
              || (t.d == 22 && t.m == 5)
              || (t.d == 22 && t.m == 7)
              || (t.d == 23 && t.m == 10)) then
    false
  else bif t.y == 2025 && ((t.d == 12 && t.m == 2)
              || (t.d == 7 && t.m == 4)
              || (t.d == 5 && t.m == 5)
              || (t.d == 12 && t.m == 5)
              || (t.d == 10 && t.m == 7)
              || (t.d == 23 && t.m == 10)) then
    false
  else true

end Verif.Thailand

namespace Verif

/-- `Thailand::is_business_day` (`thailand.rs` 13-389). -/
def thailand : Cal := easterCal Thailand.rule

end Verif
