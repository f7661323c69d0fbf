import Verif.Model.CalBase

/-! # `/repo/src/time/calendars/newzealand.rs`

Transcribed by a script from the Rust source. -/

namespace Verif.NewZealand

/-- `common_is_business_day` (`newzealand.rs` 19-77). -/
def commonIsBusinessDay (t : DateInfo) (em : Int) : Bool :=
  bif t.w.isWeekend
        || ((t.d == 1 || (t.d == 3 && (t.w == .mon || t.w == .tue))) && t.m == 1)
        || ((t.d == 2 || (t.d == 4 && (t.w == .mon || t.w == .tue))) && t.m == 1)
        || (t.d == 6 && t.m == 2)
        || ((t.d == 7 || t.d == 8) && t.w == .mon && t.m == 2 && decide (t.y > 2013))
        || t.dd == em - 3
        || t.dd == em
        || (t.d == 25 && t.m == 4)
        || ((t.d == 26 || t.d == 27) && t.w == .mon && t.m == 4 && decide (t.y > 2013))
        || (decide (t.d ≤ 7) && t.w == .mon && t.m == 6)
        || (inRange 22 28 t.d && t.w == .mon && t.m == 10)
        || ((t.d == 25 || (t.d == 27 && (t.w == .mon || t.w == .tue))) && t.m == 12)
        || ((t.d == 26 || (t.d == 28 && (t.w == .mon || t.w == .tue))) && t.m == 12)
        || (t.d == 20 && t.m == 6 && t.y == 2025)
        || (t.d == 21 && t.m == 6 && (t.y == 2030 || t.y == 2052))
        || (t.d == 24 && t.m == 6 && (t.y == 2022 || t.y == 2033 || t.y == 2044))
        || (t.d == 25 && t.m == 6 && (t.y == 2027 || t.y == 2038 || t.y == 2049))
        || (t.d == 28 && t.m == 6 && t.y == 2024)
        || (t.d == 29 && t.m == 6 && (t.y == 2035 || t.y == 2046))
        || (t.d == 30 && t.m == 6 && t.y == 2051)
        || (t.d == 2 && t.m == 7 && t.y == 2032)
        || (t.d == 3 && t.m == 7 && (t.y == 2043 || t.y == 2048))
        || (t.d == 6 && t.m == 7 && (t.y == 2029 || t.y == 2040))
        || (t.d == 7 && t.m == 7 && (t.y == 2034 || t.y == 2045))
        || (t.d == 10 && t.m == 7 && (t.y == 2026 || t.y == 2037))
        || (t.d == 11 && t.m == 7 && (t.y == 2031 || t.y == 2042))
        || (t.d == 14 && t.m == 7 && (t.y == 2023 || t.y == 2028))
        || (t.d == 15 && t.m == 7 && (t.y == 2039 || t.y == 2050))
        || (t.d == 18 && t.m == 7 && t.y == 2036)
        || (t.d == 19 && t.m == 7 && (t.y == 2041 || t.y == 2047))
        || (t.d == 26 && t.m == 9 && t.y == 2022) then
    false
  else
    true

/-- `wellington_is_business_day` (`newzealand.rs` 78-85). -/
def wellingtonIsBusinessDay (t : DateInfo) (em : Int) : Bool :=
  bif !(commonIsBusinessDay t em) then
    false
  else !(inRange 19 25 t.d && t.w == .mon && t.m == 1)

/-- `auckland_is_business_day` (`newzealand.rs` 86-93). -/
def aucklandIsBusinessDay (t : DateInfo) (em : Int) : Bool :=
  bif !(commonIsBusinessDay t em) then
    false
  else !((decide (t.d ≥ 26) && t.w == .mon && t.m == 1)
    || (t.d == 1 && t.w == .mon && t.m == 2))

end Verif.NewZealand

namespace Verif

/-- `enum NewZealandMarket` (`newzealand.rs`). -/
inductive NewZealandMarket where
  | wellington | auckland
  deriving DecidableEq, Repr

/-- `NewZealand::is_business_day` (`newzealand.rs` 97-103). -/
def newZealand : Option NewZealandMarket → Cal
  | some .wellington => easterCal NewZealand.wellingtonIsBusinessDay
  | some .auckland => easterCal NewZealand.aucklandIsBusinessDay
  | none => easterCal NewZealand.wellingtonIsBusinessDay

end Verif
