import Verif.Model.CalBase

/-! # `/repo/src/time/calendars/indonesia.rs`

Transcribed by a script from the Rust source. -/

namespace Verif.Indonesia

/-- `is_business_day` (`indonesia.rs` 13-230). -/
def rule (t : DateInfo) (em : Int) : Bool :=
  bif t.w.isWeekend
            || (t.d == 1 && t.m == 1)
            || t.dd == em - 3
            || t.dd == em + 38
            || (t.d == 17 && t.m == 8)
            || (t.d == 25 && t.m == 12) then
    false
  else bif t.y == 2005 && ((t.d == 21 && t.m == 1)
              || (t.d == 9 && t.m == 2)
              || (t.d == 10 && t.m == 2)
              || (t.d == 11 && t.m == 3)
              || (t.d == 22 && t.m == 4)
              || (t.d == 24 && t.m == 5)
              || (t.d == 2 && t.m == 9)
              || ((t.d == 3 || t.d == 4) && t.m == 11)
              || ((t.d == 2 || t.d == 7 || t.d == 8) && t.m == 11)
              || (t.d == 26 && t.m == 12)) then
    false
  else bif t.y == 2006 && (!(!(t.m == 1) || (!(t.d == 10) && !(t.d == 31)))
              || (t.d == 30 && t.m == 3)
              || (t.d == 10 && t.m == 4)
              || (t.d == 21 && t.m == 8)
              || ((t.d == 24 || t.d == 25) && t.m == 10)
              || ((t.d == 23 || t.d == 26 || t.d == 27) && t.m == 10)) then
    false
  else bif t.y == 2007 && ((t.d == 19 && t.m == 3)
              || (t.d == 1 && t.m == 6)
              || (t.d == 20 && t.m == 12)
              || (t.d == 18 && t.m == 5)
              || ((t.d == 12 || t.d == 15 || t.d == 16) && t.m == 10)
              || ((t.d == 21 || t.d == 24) && t.m == 10)) then
    false
  else bif t.y == 2008 && (((t.d == 10 || t.d == 11) && t.m == 1)
              || ((t.d == 7 || t.d == 8) && t.m == 2)
              || (t.d == 7 && t.m == 3)
              || (t.d == 20 && t.m == 3)
              || (t.d == 20 && t.m == 5)
              || (t.d == 30 && t.m == 7)
              || (t.d == 18 && t.m == 8)
              || (t.d == 30 && t.m == 9)
              || ((t.d == 1 || t.d == 2 || t.d == 3) && t.m == 10)
              || (t.d == 8 && t.m == 12)
              || (t.d == 29 && t.m == 12)
              || (t.d == 31 && t.m == 12)) then
    false
  else bif t.y == 2009 && (!(!(t.m == 1) || (!(t.d == 2) && !(t.d == 26)))
              || (t.d == 9 && t.m == 3)
              || (t.d == 26 && t.m == 3)
              || (t.d == 9 && t.m == 4)
              || (t.d == 20 && t.m == 7)
              || (inRange 18 23 t.d && t.m == 9)
              || (t.d == 27 && t.m == 11)
              || (t.d == 18 && t.m == 12)
              || (t.d == 24 && t.m == 12)
              || (t.d == 31 && t.m == 12)) then
    false
  else bif t.y == 2010 && ((t.d == 26 && t.m == 2)
              || (t.d == 16 && t.m == 3)
              || (t.d == 28 && t.m == 5)
              || (inRange 8 14 t.d && t.m == 9)
              || (t.d == 17 && t.m == 11)
              || (t.d == 7 && t.m == 12)
              || (t.d == 24 && t.m == 12)
              || (t.d == 31 && t.m == 12)) then
    false
  else bif t.y == 2011 && (!(!(t.m == 2) || (!(t.d == 3) && !(t.d == 15)))
              || (t.d == 17 && t.m == 5)
              || (t.d == 29 && t.m == 6)
              || (decide (t.d ≥ 29) && t.m == 8)
              || (decide (t.d ≤ 2) && t.m == 9)
              || (t.d == 26 && t.m == 12)) then
    false
  else bif t.y == 2012 && (!(!(t.d == 23) || (!(t.m == 1) && !(t.m == 3)))
              || (inRange 20 22 t.d && t.m == 8)
              || (t.d == 26 && t.m == 10)
              || (inRange 15 16 t.d && t.m == 11)
              || (t.d == 24 && t.m == 12)
              || (t.d == 31 && t.m == 12)) then
    false
  else bif t.y == 2013 && ((t.d == 24 && t.m == 1)
              || (t.d == 12 && t.m == 3)
              || (t.d == 6 && t.m == 6)
              || (inRange 5 9 t.d && t.m == 8)
              || (inRange 14 15 t.d && t.m == 10)
              || (t.d == 5 && t.m == 11)
              || (t.d == 26 && t.m == 12)
              || (t.d == 31 && t.m == 12)) then
    false
  else bif t.y == 2014 && (!(!(t.m == 1) || (!(t.d == 14) && !(t.d == 31)))
              || (t.d == 31 && t.m == 3)
              || (t.d == 1 && t.m == 5)
              || (t.d == 15 && t.m == 5)
              || (t.d == 27 && t.m == 5)
              || (t.d == 29 && t.m == 5)
              || (decide (t.d ≥ 28) && t.m == 7)
              || (t.d == 1 && t.m == 8)
              || (t.d == 26 && t.m == 12)
              || (t.d == 31 && t.m == 12)) then
    false
  else true

end Verif.Indonesia

namespace Verif

/-- `Indonesia::is_business_day` (`indonesia.rs` 13-230). -/
def indonesia : Cal := easterCal Indonesia.rule

end Verif
