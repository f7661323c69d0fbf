import Verif.Model.CalBase

/-! # `/repo/src/time/calendars/southkorea.rs`

Transcribed by a script from the Rust source. -/

namespace Verif.SouthKorea

/-- `is_business_day` (`southkorea.rs` 13-228). -/
def rule (t : DateInfo) : Bool :=
  bif t.w.isWeekend
            || (t.d == 1 && t.m == 1)
            || (t.d == 1 && t.m == 3)
            || (t.w == .mon && (t.d == 2 || t.d == 3) && t.m == 3 && decide (t.y > 2021))
            || (t.d == 5 && t.m == 4 && decide (t.y ≤ 2005))
            || (t.d == 1 && t.m == 5)
            || (t.d == 5 && t.m == 5)
            || (t.w == .mon && (t.d == 6 || t.d == 7) && t.m == 5 && decide (t.y > 2013))
            || (t.d == 6 && t.m == 6)
            || (t.d == 17 && t.m == 7 && decide (t.y ≤ 2007))
            || (t.d == 15 && t.m == 8)
            || (t.w == .mon && (t.d == 16 || t.d == 17) && t.m == 8 && decide (t.y > 2020))
            || (t.d == 3 && t.m == 10)
            || (t.w == .mon && (t.d == 4 || t.d == 5) && t.m == 10 && decide (t.y > 2020))
            || (t.d == 25 && t.m == 12)
            || (t.w == .mon && (t.d == 26 || t.d == 27) && t.m == 12 && decide (t.y > 2022))
            || ((t.d == 21 || t.d == 22 || t.d == 23) && t.m == 1 && t.y == 2004)
            || ((t.d == 8 || t.d == 9 || t.d == 10) && t.m == 2 && t.y == 2005)
            || ((t.d == 28 || t.d == 29 || t.d == 30) && t.m == 1 && t.y == 2006)
            || (t.d == 19 && t.m == 2 && t.y == 2007)
            || ((t.d == 6 || t.d == 7 || t.d == 8) && t.m == 2 && t.y == 2008)
            || ((t.d == 25 || t.d == 26 || t.d == 27) && t.m == 1 && t.y == 2009)
            || ((t.d == 13 || t.d == 14 || t.d == 15) && t.m == 2 && t.y == 2010)
            || ((t.d == 2 || t.d == 3 || t.d == 4) && t.m == 2 && t.y == 2011)
            || ((t.d == 23 || t.d == 24) && t.m == 1 && t.y == 2012)
            || (t.d == 11 && t.m == 2 && t.y == 2013)
            || ((t.d == 30 || t.d == 31) && t.m == 1 && t.y == 2014)
            || ((t.d == 18 || t.d == 19 || t.d == 20) && t.m == 2 && t.y == 2015)
            || (inRange 7 10 t.d && t.m == 2 && t.y == 2016)
            || (inRange 27 30 t.d && t.m == 1 && t.y == 2017)
            || ((t.d == 15 || t.d == 16 || t.d == 17) && t.m == 2 && t.y == 2018)
            || ((t.d == 4 || t.d == 5 || t.d == 6) && t.m == 2 && t.y == 2019)
            || (inRange 24 27 t.d && t.m == 1 && t.y == 2020)
            || ((t.d == 11 || t.d == 12 || t.d == 13) && t.m == 2 && t.y == 2021)
            || (((t.d == 31 && t.m == 1) || ((t.d == 1 || t.d == 2) && t.m == 2)) && t.y == 2022)
            || ((t.d == 23 || t.d == 24) && t.m == 1 && t.y == 2023)
            || (inRange 9 12 t.d && t.m == 2 && t.y == 2024)
            || ((t.d == 28 || t.d == 29 || t.d == 30) && t.m == 1 && t.y == 2025)
            || ((t.d == 16 || t.d == 17 || t.d == 18) && t.m == 2 && t.y == 2026)
            || ((t.d == 8 || t.d == 9) && t.m == 2 && t.y == 2027)
            || ((t.d == 26 || t.d == 27 || t.d == 28) && t.m == 1 && t.y == 2028)
            || ((t.d == 12 || t.d == 13 || t.d == 14) && t.m == 2 && t.y == 2029)
            || ((t.d == 4 || t.d == 5) && t.m == 2 && t.y == 2030)
            || ((t.d == 22 || t.d == 23 || t.d == 24) && t.m == 1 && t.y == 2031)
            || ((t.d == 10 || t.d == 11 || t.d == 12) && t.m == 2 && t.y == 2032)
            || (((t.d == 31 && t.m == 1) || ((t.d == 1 || t.d == 2) && t.m == 2)) && t.y == 2033)
            || ((t.d == 20 || t.d == 21) && t.m == 2 && t.y == 2034)
            || ((t.d == 7 || t.d == 8 || t.d == 9) && t.m == 2 && t.y == 2035)
            || ((t.d == 28 || t.d == 29 || t.d == 30) && t.m == 1 && t.y == 2036)
            || ((t.d == 16 || t.d == 17) && t.m == 2 && t.y == 2037)
            || ((t.d == 3 || t.d == 4 || t.d == 5) && t.m == 2 && t.y == 2038)
            || ((t.d == 24 || t.d == 25 || t.d == 26) && t.m == 1 && t.y == 2039)
            || ((t.d == 13 || t.d == 14) && t.m == 2 && t.y == 2040)
            || (((t.d == 31 && t.m == 1) || ((t.d == 1 || t.d == 2) && t.m == 2)) && t.y == 2041)
            || ((t.d == 21 || t.d == 22 || t.d == 23) && t.m == 1 && t.y == 2042)
            || ((t.d == 9 || t.d == 10 || t.d == 11) && t.m == 2 && t.y == 2043)
            || ((((t.d == 29 || t.d == 30 || t.d == 31) && t.m == 1) || (t.d == 1 && t.m == 2)) && t.y == 2044)
            || ((t.d == 16 || t.d == 17 || t.d == 18) && t.m == 2 && t.y == 2045)
            || ((t.d == 5 || t.d == 6 || t.d == 7) && t.m == 2 && t.y == 2046)
            || (inRange 25 28 t.d && t.m == 1 && t.y == 2047)
            || ((t.d == 13 || t.d == 14 || t.d == 15) && t.m == 2 && t.y == 2048)
            || ((t.d == 1 || t.d == 2 || t.d == 3) && t.m == 2 && t.y == 2049)
            || ((t.d == 24 || t.d == 25) && t.m == 1 && t.y == 2050)
            || (t.d == 15 && t.m == 4 && t.y == 2004)
            || (t.d == 31 && t.m == 5 && t.y == 2006)
            || (t.d == 19 && t.m == 12 && t.y == 2007)
            || (t.d == 9 && t.m == 4 && t.y == 2008)
            || (t.d == 2 && t.m == 6 && t.y == 2010)
            || (t.d == 11 && t.m == 4 && t.y == 2012)
            || (t.d == 19 && t.m == 12 && t.y == 2012)
            || (t.d == 4 && t.m == 6 && t.y == 2014)
            || (t.d == 13 && t.m == 4 && t.y == 2016)
            || (t.d == 9 && t.m == 5 && t.y == 2017)
            || (t.d == 13 && t.m == 6 && t.y == 2018)
            || (t.d == 15 && t.m == 4 && t.y == 2020)
            || (t.d == 9 && t.m == 3 && t.y == 2022)
            || (t.d == 1 && t.m == 6 && t.y == 2022)
            || (t.d == 10 && t.m == 4 && t.y == 2024)
            || (t.d == 26 && t.m == 5 && t.y == 2004)
            || (t.d == 15 && t.m == 5 && t.y == 2005)
            || (t.d == 5 && t.m == 5 && t.y == 2006)
            || (t.d == 24 && t.m == 5 && t.y == 2007)
            || (t.d == 12 && t.m == 5 && t.y == 2008)
            || (t.d == 2 && t.m == 5 && t.y == 2009)
            || (t.d == 21 && t.m == 5 && t.y == 2010)
            || (t.d == 10 && t.m == 5 && t.y == 2011)
            || (t.d == 28 && t.m == 5 && t.y == 2012)
            || (t.d == 17 && t.m == 5 && t.y == 2013)
            || (t.d == 6 && t.m == 5 && t.y == 2014)
            || (t.d == 25 && t.m == 5 && t.y == 2015)
            || (t.d == 14 && t.m == 5 && t.y == 2016)
            || (t.d == 3 && t.m == 5 && t.y == 2017)
            || (t.d == 22 && t.m == 5 && t.y == 2018)
            || (t.d == 12 && t.m == 5 && t.y == 2019)
            || (t.d == 30 && t.m == 4 && t.y == 2020)
            || (t.d == 19 && t.m == 5 && t.y == 2021)
            || (t.d == 8 && t.m == 5 && t.y == 2022)
            || (t.d == 29 && t.m == 5 && t.y == 2023)
            || (t.d == 15 && t.m == 5 && t.y == 2024)
            || (t.d == 6 && t.m == 5 && t.y == 2025)
            || (t.d == 25 && t.m == 5 && t.y == 2026)
            || (t.d == 13 && t.m == 5 && t.y == 2027)
            || (t.d == 2 && t.m == 5 && t.y == 2028)
            || (t.d == 21 && t.m == 5 && t.y == 2029)
            || (t.d == 9 && t.m == 5 && t.y == 2030)
            || (t.d == 28 && t.m == 5 && t.y == 2031)
            || (t.d == 17 && t.m == 5 && t.y == 2032)
            || (t.d == 6 && t.m == 5 && t.y == 2033)
            || (t.d == 25 && t.m == 5 && t.y == 2034)
            || (t.d == 15 && t.m == 5 && t.y == 2035)
            || (t.d == 6 && t.m == 5 && t.y == 2036)
            || (t.d == 22 && t.m == 5 && t.y == 2037)
            || (t.d == 11 && t.m == 5 && t.y == 2038)
            || (t.d == 2 && t.m == 5 && t.y == 2039)
            || (t.d == 18 && t.m == 5 && t.y == 2040)
            || (t.d == 7 && t.m == 5 && t.y == 2041)
            || (t.d == 26 && t.m == 5 && t.y == 2042)
            || (t.d == 18 && t.m == 5 && t.y == 2043)
            || (t.d == 6 && t.m == 5 && t.y == 2044)
            || (t.d == 24 && t.m == 5 && t.y == 2045)
            || (t.d == 14 && t.m == 5 && t.y == 2046)
            || (t.d == 2 && t.m == 5 && t.y == 2047)
            || (t.d == 20 && t.m == 5 && t.y == 2048)
            || (t.d == 10 && t.m == 5 && t.y == 2049)
            || (t.d == 30 && t.m == 5 && t.y == 2050)
            || (t.d == 14 && t.m == 8 && t.y == 2015)
            || (t.d == 17 && t.m == 8 && t.y == 2020)
            || (t.d == 2 && t.m == 10 && t.y == 2023)
            || (t.d == 1 && t.m == 10 && t.y == 2024)
            || ((t.d == 27 || t.d == 28 || t.d == 29) && t.m == 9 && t.y == 2004)
            || ((t.d == 17 || t.d == 18 || t.d == 19) && t.m == 9 && t.y == 2005)
            || ((t.d == 5 || t.d == 6 || t.d == 7) && t.m == 10 && t.y == 2006)
            || ((t.d == 24 || t.d == 25 || t.d == 26) && t.m == 9 && t.y == 2007)
            || ((t.d == 13 || t.d == 14 || t.d == 15) && t.m == 9 && t.y == 2008)
            || ((t.d == 2 || t.d == 3 || t.d == 4) && t.m == 10 && t.y == 2009)
            || ((t.d == 21 || t.d == 22 || t.d == 23) && t.m == 9 && t.y == 2010)
            || ((t.d == 12 || t.d == 13) && t.m == 9 && t.y == 2011)
            || (t.d == 1 && t.m == 10 && t.y == 2012)
            || ((t.d == 18 || t.d == 19 || t.d == 20) && t.m == 9 && t.y == 2013)
            || ((t.d == 8 || t.d == 9 || t.d == 10) && t.m == 9 && t.y == 2014)
            || ((t.d == 28 || t.d == 29) && t.m == 9 && t.y == 2015)
            || ((t.d == 14 || t.d == 15 || t.d == 16) && t.m == 9 && t.y == 2016)
            || (inRange 3 6 t.d && t.m == 10 && t.y == 2017)
            || (inRange 23 26 t.d && t.m == 9 && t.y == 2018)
            || ((t.d == 12 || t.d == 13 || t.d == 14) && t.m == 9 && t.y == 2019)
            || (((t.d == 30 && t.m == 9) || ((t.d == 1 || t.d == 2) && t.m == 10)) && t.y == 2020)
            || ((t.d == 20 || t.d == 21 || t.d == 22) && t.m == 9 && t.y == 2021)
            || ((t.d == 9 || t.d == 10 || t.d == 11) && t.m == 9 && t.y == 2022)
            || (inRange 9 12 t.d && t.m == 9 && t.y == 2022)
            || ((t.d == 28 || t.d == 29 || t.d == 30) && t.m == 9 && t.y == 2023)
            || ((t.d == 16 || t.d == 17 || t.d == 18) && t.m == 9 && t.y == 2024)
            || ((t.d == 6 || t.d == 7 || t.d == 8) && t.m == 10 && t.y == 2025)
            || ((t.d == 24 || t.d == 25 || t.d == 26) && t.m == 9 && t.y == 2026)
            || ((t.d == 14 || t.d == 15 || t.d == 16) && t.m == 9 && t.y == 2027)
            || (inRange 2 5 t.d && t.m == 10 && t.y == 2028)
            || (inRange 21 24 t.d && t.m == 9 && t.y == 2029)
            || ((t.d == 11 || t.d == 12 || t.d == 13) && t.m == 9 && t.y == 2030)
            || (((t.d == 30 && t.m == 9) || ((t.d == 1 || t.d == 2) && t.m == 10)) && t.y == 2031)
            || ((t.d == 20 || t.d == 21) && t.m == 9 && t.y == 2032)
            || ((t.d == 7 || t.d == 8 || t.d == 9) && t.m == 9 && t.y == 2033)
            || ((t.d == 26 || t.d == 27 || t.d == 28) && t.m == 9 && t.y == 2034)
            || ((t.d == 17 || t.d == 18) && t.m == 9 && t.y == 2035)
            || (inRange 3 7 t.d && t.m == 10 && t.y == 2036)
            || ((t.d == 23 || t.d == 24 || t.d == 25) && t.m == 9 && t.y == 2037)
            || ((t.d == 13 || t.d == 14 || t.d == 15) && t.m == 9 && t.y == 2038)
            || ((t.d == 3 || t.d == 4 || t.d == 5) && t.m == 10 && t.y == 2039)
            || ((t.d == 20 || t.d == 21 || t.d == 22) && t.m == 9 && t.y == 2040)
            || ((t.d == 9 || t.d == 10 || t.d == 11) && t.m == 9 && t.y == 2041)
            || ((t.d == 29 || t.d == 30) && t.m == 9 && t.y == 2042)
            || ((t.d == 16 || t.d == 17 || t.d == 18) && t.m == 9 && t.y == 2043)
            || ((t.d == 4 || t.d == 5 || t.d == 6) && t.m == 10 && t.y == 2044)
            || ((t.d == 25 || t.d == 26 || t.d == 27) && t.m == 9 && t.y == 2045)
            || (inRange 14 17 t.d && t.m == 9 && t.y == 2046)
            || ((t.d == 4 || t.d == 5 || t.d == 7) && t.m == 10 && t.y == 2047)
            || ((t.d == 21 || t.d == 22 || t.d == 23) && t.m == 9 && t.y == 2048)
            || (inRange 10 13 t.d && t.m == 9 && t.y == 2049)
            || ((((t.d == 29 || t.d == 30) && t.m == 9) || (t.d == 1 && t.m == 10)) && t.y == 2050)
            || (t.d == 9 && t.m == 10 && decide (t.y ≥ 2013))
            || (t.w == .mon && (t.d == 10 || t.d == 11) && t.m == 10 && decide (t.y > 2020)) then
    false
  else true

end Verif.SouthKorea

namespace Verif

/-- `SouthKorea::is_business_day` (`southkorea.rs` 13-228). -/
def southKorea : Cal := plainCal SouthKorea.rule

end Verif
