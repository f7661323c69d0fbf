import Verif.Model.CalBase

/-! # `/repo/src/time/calendars/hongkong.rs`

Transcribed by a script from the Rust source. -/

namespace Verif.HongKong

/-- `SPECIAL_HOLIDAYS` (`hongkong.rs` 43-137), a map from years to sets of (day, month),
flattened to (year, day, month). -/
def specialHolidays : List (Int × Int × Int) := [
  (2004, 22, 1), (2004, 23, 1), (2004, 24, 1), (2004, 5, 4), (2004, 26, 5),
  (2004, 22, 6), (2004, 29, 9), (2004, 22, 10), (2005, 9, 2), (2005, 10, 2),
  (2005, 11, 2), (2005, 5, 4), (2005, 16, 5), (2005, 11, 6), (2005, 19, 9),
  (2005, 11, 10), (2006, 28, 1), (2006, 29, 1), (2006, 30, 1), (2006, 31, 1),
  (2006, 5, 4), (2006, 5, 5), (2006, 31, 5), (2006, 7, 10), (2006, 30, 10),
  (2007, 17, 2), (2007, 18, 2), (2007, 19, 2), (2007, 20, 2), (2007, 5, 4),
  (2007, 24, 5), (2007, 19, 6), (2007, 26, 9), (2007, 19, 10), (2008, 7, 2),
  (2008, 8, 2), (2008, 9, 2), (2008, 4, 4), (2008, 12, 5), (2008, 9, 6),
  (2008, 15, 9), (2008, 7, 10), (2009, 26, 1), (2009, 27, 1), (2009, 28, 1),
  (2009, 4, 4), (2009, 2, 5), (2009, 28, 5), (2009, 3, 10), (2009, 26, 10),
  (2010, 15, 2), (2010, 16, 2), (2010, 6, 4), (2010, 21, 5), (2010, 16, 6),
  (2010, 23, 9), (2011, 3, 2), (2011, 4, 2), (2011, 5, 4), (2011, 10, 5),
  (2011, 6, 6), (2011, 13, 9), (2011, 5, 10), (2011, 27, 12), (2012, 23, 1),
  (2012, 24, 1), (2012, 25, 1), (2012, 4, 4), (2012, 10, 5), (2012, 1, 10),
  (2012, 23, 10), (2013, 11, 2), (2013, 12, 2), (2013, 13, 2), (2013, 4, 4),
  (2013, 17, 5), (2013, 12, 6), (2013, 20, 9), (2013, 14, 10), (2014, 31, 1),
  (2014, 1, 2), (2014, 2, 2), (2014, 6, 5), (2014, 2, 6), (2014, 9, 9),
  (2014, 2, 10), (2015, 19, 2), (2015, 20, 2), (2015, 7, 4), (2015, 25, 5),
  (2015, 20, 6), (2015, 3, 9), (2015, 28, 9), (2015, 21, 10), (2016, 8, 2),
  (2016, 9, 2), (2016, 10, 2), (2016, 4, 4), (2016, 9, 6), (2016, 16, 9),
  (2016, 10, 10), (2016, 27, 12), (2017, 30, 1), (2017, 31, 1), (2017, 4, 4),
  (2017, 3, 5), (2017, 30, 5), (2017, 5, 10), (2018, 16, 2), (2018, 19, 2),
  (2018, 5, 4), (2018, 22, 5), (2018, 18, 6), (2018, 25, 9), (2018, 17, 10),
  (2019, 5, 2), (2019, 6, 2), (2019, 7, 2), (2019, 5, 4), (2019, 7, 6),
  (2019, 7, 10), (2020, 27, 1), (2020, 28, 1), (2020, 4, 4), (2020, 30, 4),
  (2020, 25, 6), (2020, 2, 10), (2020, 26, 10), (2021, 12, 2), (2021, 15, 2),
  (2021, 5, 4), (2021, 19, 5), (2021, 14, 6), (2021, 22, 9), (2021, 14, 10),
  (2022, 1, 2), (2022, 2, 2), (2022, 3, 2), (2022, 5, 4), (2022, 9, 5),
  (2022, 3, 6), (2022, 12, 9), (2022, 4, 10), (2023, 23, 1), (2023, 24, 1),
  (2023, 25, 1), (2023, 5, 4), (2023, 26, 5), (2023, 22, 6), (2023, 23, 10),
  (2024, 12, 2), (2024, 13, 2), (2024, 4, 4), (2024, 15, 5), (2024, 10, 6),
  (2024, 18, 9), (2024, 11, 10), (2025, 29, 1), (2025, 30, 1), (2025, 31, 1),
  (2025, 4, 4), (2025, 5, 5), (2025, 7, 10), (2025, 29, 10)]

/-- `is_fixed_or_observed_holiday` (`hongkong.rs` 139-153). -/
def isFixedOrObservedHoliday (d m : Int) (w : Weekday) : Bool :=
  ((d == 1 && m == 1) || (d == 2 && m == 1 && w == .mon) || (d == 1 && m == 5)
      || (d == 2 && m == 5 && w == .mon) || (d == 1 && m == 7)
      || (d == 2 && m == 7 && w == .mon) || (d == 1 && m == 10)
      || (d == 2 && m == 10 && w == .mon) || (d == 25 && m == 12)
      || (d == 26 && m == 12))

/-- `is_business_day` (`hongkong.rs` 14-39). -/
def rule (t : DateInfo) (em : Int) : Bool :=
  bif t.w.isWeekend then
    false
  else bif isFixedOrObservedHoliday t.d t.m t.w then
    false
  else bif t.dd == em - 3 || t.dd == em then
    false
  else bif specialHolidays.contains (t.y, t.d, t.m) then
    false
  else true

end Verif.HongKong

namespace Verif

/-- `HongKong::is_business_day` (`hongkong.rs` 14-39). -/
def hongKong : Cal := easterCal HongKong.rule

end Verif
