import Verif.Model.CalBase

/-! # `/repo/src/time/calendars/china.rs`

Transcribed by a script from the Rust source. -/

namespace Verif.China

/-- `is_business_day` (`china.rs` 12-172). -/
def rule (t : DateInfo) : Bool :=
  bif t.w.isWeekend
        || (t.d == 1 && t.m == 1)
        || (t.y == 2005 && t.d == 3 && t.m == 1)
        || (t.y == 2006 && (t.d == 2 || t.d == 3) && t.m == 1)
        || (t.y == 2007 && decide (t.d ≤ 3) && t.m == 1)
        || (t.y == 2007 && t.d == 31 && t.m == 12)
        || (t.y == 2009 && t.d == 2 && t.m == 1)
        || (t.y == 2011 && t.d == 3 && t.m == 1)
        || (t.y == 2012 && (t.d == 2 || t.d == 3) && t.m == 1)
        || (t.y == 2013 && decide (t.d ≤ 3) && t.m == 1)
        || (t.y == 2014 && t.d == 1 && t.m == 1)
        || (t.y == 2015 && decide (t.d ≤ 3) && t.m == 1)
        || (t.y == 2017 && t.d == 2 && t.m == 1)
        || (t.y == 2018 && t.d == 1 && t.m == 1)
        || (t.y == 2018 && t.d == 31 && t.m == 12)
        || (t.y == 2019 && t.d == 1 && t.m == 1)
        || (t.y == 2020 && t.d == 1 && t.m == 1)
        || (t.y == 2021 && t.d == 1 && t.m == 1)
        || (t.y == 2022 && t.d == 3 && t.m == 1)
        || (t.y == 2023 && t.d == 2 && t.m == 1)
        || (t.y == 2026 && (t.d == 1 || t.d == 2) && t.m == 1)
        || (t.y == 2004 && inRange 19 28 t.d && t.m == 1)
        || (t.y == 2005 && inRange 7 15 t.d && t.m == 2)
        || (t.y == 2006 && ((decide (t.d ≥ 26) && t.m == 1) || (decide (t.d ≤ 3) && t.m == 2)))
        || (t.y == 2007 && inRange 17 25 t.d && t.m == 2)
        || (t.y == 2008 && inRange 6 12 t.d && t.m == 2)
        || (t.y == 2009 && inRange 26 30 t.d && t.m == 1)
        || (t.y == 2010 && inRange 15 19 t.d && t.m == 2)
        || (t.y == 2011 && inRange 2 8 t.d && t.m == 2)
        || (t.y == 2012 && inRange 23 28 t.d && t.m == 1)
        || (t.y == 2013 && inRange 11 15 t.d && t.m == 2)
        || (t.y == 2014 && decide (t.d ≥ 31) && t.m == 1)
        || (t.y == 2014 && decide (t.d ≤ 6) && t.m == 2)
        || (t.y == 2015 && inRange 18 24 t.d && t.m == 2)
        || (t.y == 2016 && inRange 8 12 t.d && t.m == 2)
        || (t.y == 2017 && ((decide (t.d ≥ 27) && t.m == 1) || (decide (t.d ≤ 2) && t.m == 2)))
        || (t.y == 2018 && inRange 15 21 t.d && t.m == 2)
        || (t.y == 2019 && inRange 4 8 t.d && t.m == 2)
        || (t.y == 2020 && (t.d == 24 || inRange 27 31 t.d) && t.m == 1)
        || (t.y == 2021 && (t.d == 11 || t.d == 12 || t.d == 15 || t.d == 16 || t.d == 17) && t.m == 2)
        || (t.y == 2022 && ((t.d == 31 && t.m == 1) || (decide (t.d ≤ 4) && t.m == 2)))
        || (t.y == 2023 && inRange 23 27 t.d && t.m == 1)
        || (t.y == 2024 && (t.d == 9 || inRange 12 16 t.d) && t.m == 2)
        || (t.y == 2025 && ((inRange 28 31 t.d && t.m == 1) || (inRange 3 4 t.d && t.m == 2)))
        || (t.y == 2026 && (inRange 16 20 t.d || t.d == 23) && t.m == 2)
        || (decide (t.y ≤ 2008) && t.d == 4 && t.m == 4)
        || (t.y == 2009 && t.d == 6 && t.m == 4)
        || (t.y == 2010 && t.d == 5 && t.m == 4)
        || (t.y == 2011 && inRange 3 5 t.d && t.m == 4)
        || (t.y == 2012 && inRange 2 4 t.d && t.m == 4)
        || (t.y == 2013 && inRange 4 5 t.d && t.m == 4)
        || (t.y == 2014 && t.d == 7 && t.m == 4)
        || (t.y == 2015 && inRange 5 6 t.d && t.m == 4)
        || (t.y == 2016 && t.d == 4 && t.m == 4)
        || (t.y == 2017 && inRange 3 4 t.d && t.m == 4)
        || (t.y == 2018 && inRange 5 6 t.d && t.m == 4)
        || (t.y == 2019 && t.d == 5 && t.m == 4)
        || (t.y == 2020 && t.d == 6 && t.m == 4)
        || (t.y == 2021 && t.d == 5 && t.m == 4)
        || (t.y == 2022 && inRange 4 5 t.d && t.m == 4)
        || (t.y == 2023 && t.d == 5 && t.m == 4)
        || (t.y == 2024 && inRange 4 5 t.d && t.m == 4)
        || (t.y == 2025 && t.d == 4 && t.m == 4)
        || (t.y == 2026 && t.d == 6 && t.m == 4)
        || (decide (t.y ≤ 2007) && inRange 1 7 t.d && t.m == 5)
        || (t.y == 2008 && inRange 1 2 t.d && t.m == 5)
        || (t.y == 2009 && t.d == 1 && t.m == 5)
        || (t.y == 2010 && t.d == 3 && t.m == 5)
        || (t.y == 2011 && t.d == 2 && t.m == 5)
        || (t.y == 2012 && ((t.d == 30 && t.m == 4) || (t.d == 1 && t.m == 5)))
        || (t.y == 2013 && ((decide (t.d ≥ 29) && t.m == 4) || (t.d == 1 && t.m == 5)))
        || (t.y == 2014 && inRange 1 3 t.d && t.m == 5)
        || (t.y == 2015 && t.d == 1 && t.m == 5)
        || (t.y == 2016 && inRange 1 2 t.d && t.m == 5)
        || (t.y == 2017 && t.d == 1 && t.m == 5)
        || (t.y == 2018 && ((t.d == 30 && t.m == 4) || (t.d == 1 && t.m == 5)))
        || (t.y == 2019 && inRange 1 3 t.d && t.m == 5)
        || (t.y == 2020 && (t.d == 1 || t.d == 4 || t.d == 5) && t.m == 5)
        || (t.y == 2021 && (t.d == 3 || t.d == 4 || t.d == 5) && t.m == 5)
        || (t.y == 2022 && inRange 2 4 t.d && t.m == 5)
        || (t.y == 2023 && inRange 1 3 t.d && t.m == 5)
        || (t.y == 2024 && inRange 1 3 t.d && t.m == 5)
        || (t.y == 2025 && (t.d == 1 || t.d == 2 || t.d == 5) && t.m == 5)
        || (t.y == 2026 && (t.d == 1 || t.d == 4 || t.d == 5) && t.m == 5)
        || (decide (t.y ≤ 2008) && t.d == 9 && t.m == 6)
        || (t.y == 2009 && (t.d == 28 || t.d == 29) && t.m == 5)
        || (t.y == 2010 && inRange 14 16 t.d && t.m == 6)
        || (t.y == 2011 && inRange 4 6 t.d && t.m == 6)
        || (t.y == 2012 && inRange 22 24 t.d && t.m == 6)
        || (t.y == 2013 && inRange 10 12 t.d && t.m == 6)
        || (t.y == 2014 && t.d == 2 && t.m == 6)
        || (t.y == 2015 && t.d == 22 && t.m == 6)
        || (t.y == 2016 && inRange 9 10 t.d && t.m == 6)
        || (t.y == 2017 && inRange 29 30 t.d && t.m == 5)
        || (t.y == 2018 && t.d == 18 && t.m == 6)
        || (t.y == 2019 && t.d == 7 && t.m == 6)
        || (t.y == 2020 && inRange 25 26 t.d && t.m == 6)
        || (t.y == 2021 && t.d == 14 && t.m == 6)
        || (t.y == 2022 && t.d == 3 && t.m == 6)
        || (t.y == 2023 && inRange 22 23 t.d && t.m == 6)
        || (t.y == 2024 && t.d == 10 && t.m == 6)
        || (t.y == 2025 && t.d == 2 && t.m == 6)
        || (t.y == 2026 && t.d == 19 && t.m == 6)
        || (decide (t.y ≤ 2008) && t.d == 15 && t.m == 9)
        || (t.y == 2010 && inRange 22 24 t.d && t.m == 9)
        || (t.y == 2011 && inRange 10 12 t.d && t.m == 9)
        || (t.y == 2012 && t.d == 30 && t.m == 9)
        || (t.y == 2013 && inRange 19 20 t.d && t.m == 9)
        || (t.y == 2014 && t.d == 8 && t.m == 9)
        || (t.y == 2015 && t.d == 27 && t.m == 9)
        || (t.y == 2016 && inRange 15 16 t.d && t.m == 9)
        || (t.y == 2018 && t.d == 24 && t.m == 9)
        || (t.y == 2019 && t.d == 13 && t.m == 9)
        || (t.y == 2021 && (t.d == 20 || t.d == 21) && t.m == 9)
        || (t.y == 2022 && t.d == 12 && t.m == 9)
        || (t.y == 2023 && t.d == 29 && t.m == 9)
        || (t.y == 2024 && inRange 16 17 t.d && t.m == 9)
        || (t.y == 2025 && (inRange 1 3 t.d || inRange 6 8 t.d) && t.m == 10)
        || (t.y == 2026 && t.d == 25 && t.m == 9)
        || (decide (t.y ≤ 2007) && inRange 1 7 t.d && t.m == 10)
        || (t.y == 2008 && ((decide (t.d ≥ 29) && t.m == 9) || (decide (t.d ≤ 3) && t.m == 10)))
        || (t.y == 2009 && inRange 1 8 t.d && t.m == 10)
        || (t.y == 2010 && inRange 1 7 t.d && t.m == 10)
        || (t.y == 2011 && inRange 1 7 t.d && t.m == 10)
        || (t.y == 2012 && inRange 1 7 t.d && t.m == 10)
        || (t.y == 2013 && inRange 1 7 t.d && t.m == 10)
        || (t.y == 2014 && inRange 1 7 t.d && t.m == 10)
        || (t.y == 2015 && inRange 1 7 t.d && t.m == 10)
        || (t.y == 2016 && inRange 3 7 t.d && t.m == 10)
        || (t.y == 2017 && inRange 2 6 t.d && t.m == 10)
        || (t.y == 2018 && inRange 1 5 t.d && t.m == 10)
        || (t.y == 2019 && inRange 1 7 t.d && t.m == 10)
        || (t.y == 2020 && inRange 1 2 t.d && t.m == 10)
        || (t.y == 2020 && inRange 5 8 t.d && t.m == 10)
        || (t.y == 2021 && (t.d == 1 || t.d == 4 || t.d == 5 || t.d == 6 || t.d == 7) && t.m == 10)
        || (t.y == 2022 && inRange 3 7 t.d && t.m == 10)
        || (t.y == 2023 && inRange 2 6 t.d && t.m == 10)
        || (t.y == 2024 && (inRange 1 4 t.d || t.d == 7) && t.m == 10)
        || (t.y == 2026 && (inRange 1 2 t.d || inRange 5 7 t.d) && t.m == 10)
        || (t.y == 2015 && inRange 3 4 t.d && t.m == 9) then
    false
  else
    true

end Verif.China

namespace Verif

/-- `China::is_business_day` (`china.rs` 12-172). -/
def china : Cal := plainCal China.rule

end Verif
