import Verif.Model.Calendar
import Mathlib.Data.Rat.Defs
import Mathlib.Algebra.Order.Ring.Rat

/-!
# Day counters: `/repo/src/time/daycounters/*.rs`

Day counts are integers as in the code; year fractions (`f64` in the code) are
exact rationals.
-/

namespace Verif

/-- `day_count` of Actual360, Actual364, Actual366, ActualActual and the standard
Actual365Fixed (`daycounters/actual360.rs` 12-15, `actual364.rs` 12-15,
`actual366.rs` 12-15, `actualactual.rs` 70-73, `actual365fixed.rs` 18-21). -/
def actualDays (d1 d2 : Int) : Int := d2 - d1

/-- `year_fraction` of the Actual/x counters: count over the denominator
(`actual360.rs` 17-19, `actual364.rs` 17-19, `actual365fixed.rs` 48-50,
`actual366.rs` 17-19). -/
def actualYf (den : ℚ) (d1 d2 : Int) : ℚ := (actualDays d1 d2 : ℚ) / den

/-- The table `MONTH_OFFSET` (`actual365fixed.rs` 24). -/
def nlMonthOffset (m : Int) : Int :=
  if m = 1 then 0 else if m = 2 then 31 else if m = 3 then 59 else if m = 4 then 90
  else if m = 5 then 120 else if m = 6 then 151 else if m = 7 then 181 else if m = 8 then 212
  else if m = 9 then 243 else if m = 10 then 273 else if m = 11 then 304 else 344

/-- `s1` / `s2` of `nl_day_count` (`actual365fixed.rs` 25-34). -/
def nlSerial (d : Int) : Int :=
  let s := dayOf d + nlMonthOffset (monthOf d) + yearOf d * 365
  if monthOf d = 2 ∧ dayOf d = 29 then s - 1 else s

/-- `Actual365Fixed::nl_day_count` (`actual365fixed.rs` 23-36). -/
def nlDayCount (d1 d2 : Int) : Int := nlSerial d2 - nlSerial d1

/-- `ActualActual::isda_year_fraction` (`actualactual.rs` 19-32). -/
def isdaYf (d1 d2 : Int) : Outcome ℚ :=
  if d1 = d2 then .ok 0
  else do
    let dib1 : ℚ := 365 + leap (yearOf d1)
    let dib2 : ℚ := 365 + leap (yearOf d2)
    let n1 ← unwrap (fromYmdOpt (yearOf d1 + 1) 1 1)
    let n2 ← unwrap (fromYmdOpt (yearOf d2) 1 1)
    .ok (((yearOf d2 - yearOf d1 : Int) : ℚ) - 1 + ((d1 - n1 : Int) : ℚ) / dib1
      + ((n2 - d2 : Int) : ℚ) / dib2)

/-- One year back in `euro_year_fraction` (`actualactual.rs` 42-45):
`temp = new_d2 - 12 months`, moved from 28 to 29 February in leap years. -/
def euroYearBack (d : Int) : Outcome Int := do
  let t ← addMonths d (-12)
  if dayOf t = 28 ∧ monthOf t = 2 ∧ leap (yearOf t) = 1 then addDays t 1 else .ok t

/-- The loop of `euro_year_fraction` (`actualactual.rs` 41-50), returning the
number of whole years and the final `new_d2`; `fuel` bounds the iterations (one
per year, so `d2 - d1` is plenty). -/
def euroLoop (d1 : Int) : Nat → Int → Int → Outcome (Int × Int)
  | 0, n, newD2 => .ok (n, newD2)
  | fuel + 1, n, newD2 => do
    let temp ← euroYearBack newD2
    if temp ≥ d1 then
      (if temp > d1 then euroLoop d1 fuel (n + 1) temp else .ok (n + 1, temp))
    else .ok (n, newD2)

/-- `ActualActual::euro_year_fraction` (`actualactual.rs` 34-65). -/
def euroYf (d1 d2 : Int) : Outcome ℚ :=
  if d1 = d2 then .ok 0
  else do
    let (n, nd2) ← if d2 > d1 then euroLoop d1 (d2 - d1).toNat 0 d2 else .ok (0, d2)
    let yd := if leap (yearOf nd2) = 1 then some (yearOf nd2)
      else if leap (yearOf d1) = 1 then some (yearOf d1) else none
    let den : ℚ := match yd with
      | some y => if nd2 > ymd y 2 29 ∧ d1 ≤ ymd y 2 29 then 366 else 365
      | none => 365
    .ok ((n : ℚ) + ((d1 - nd2 : Int) : ℚ) / den)

/-- `Thirty360::is_last_of_february` (`thirty360.rs` 28-30). -/
def isLastOfFeb (d : Int) : Bool := monthOf d == 2 && dayOf d == 28 + leap (yearOf d)

/-- The common final formula of all 30/360 variants (`thirty360.rs` 58, 75, 91,
113, 136, 157). -/
def thirtyFormula (y1 m1 dd1 y2 m2 dd2 : Int) : Int :=
  360 * (y2 - y1) + 30 * (m2 - m1) + (dd2 - dd1)

/-- `us_day_count` (`thirty360.rs` 32-59). -/
def thirtyUS (d1 d2 : Int) : Int :=
  let dd1 := dayOf d1
  let dd2 := dayOf d2
  let dd2 := if isLastOfFeb d1 then (if isLastOfFeb d2 then 30 else dd2) else dd2
  let dd1 := if isLastOfFeb d1 then 30 else dd1
  let dd2 := if dd2 = 31 ∧ dd1 ≥ 30 then 30 else dd2
  let dd1 := if dd1 = 31 then 30 else dd1
  thirtyFormula (yearOf d1) (monthOf d1) dd1 (yearOf d2) (monthOf d2) dd2

/-- `isma_day_count` (`thirty360.rs` 61-76). -/
def thirtyISMA (d1 d2 : Int) : Int :=
  let dd1 := dayOf d1
  let dd2 := dayOf d2
  let dd1 := if dd1 = 31 then 30 else dd1
  let dd2 := if dd2 = 31 ∧ dd1 = 30 then 30 else dd2
  thirtyFormula (yearOf d1) (monthOf d1) dd1 (yearOf d2) (monthOf d2) dd2

/-- `eu_day_count` (`thirty360.rs` 78-92). -/
def thirtyEU (d1 d2 : Int) : Int :=
  let dd1 := if dayOf d1 = 31 then 30 else dayOf d1
  let dd2 := if dayOf d2 = 31 then 30 else dayOf d2
  thirtyFormula (yearOf d1) (monthOf d1) dd1 (yearOf d2) (monthOf d2) dd2

/-- `italy_day_count` (`thirty360.rs` 94-114). -/
def thirtyItaly (d1 d2 : Int) : Int :=
  let dd1 := if dayOf d1 = 31 then 30 else dayOf d1
  let dd2 := if dayOf d2 = 31 then 30 else dayOf d2
  let dd1 := if monthOf d1 = 2 ∧ dd1 > 27 then 30 else dd1
  let dd2 := if monthOf d2 = 2 ∧ dd2 > 27 then 30 else dd2
  thirtyFormula (yearOf d1) (monthOf d1) dd1 (yearOf d2) (monthOf d2) dd2

/-- `isda_day_count` (`thirty360.rs` 116-137), also used for `German`. -/
def thirtyISDA (term d1 d2 : Int) : Int :=
  let dd1 := if dayOf d1 = 31 then 30 else dayOf d1
  let dd2 := if dayOf d2 = 31 then 30 else dayOf d2
  let dd1 := if isLastOfFeb d1 then 30 else dd1
  let dd2 := if d2 ≠ term ∧ isLastOfFeb d2 then 30 else dd2
  thirtyFormula (yearOf d1) (monthOf d1) dd1 (yearOf d2) (monthOf d2) dd2

/-- `nasd_day_count` (`thirty360.rs` 139-158). -/
def thirtyNASD (d1 d2 : Int) : Int :=
  let dd1 := if dayOf d1 = 31 then 30 else dayOf d1
  let dd2 := dayOf d2
  let mm2 := monthOf d2
  let dd2 := if dd2 = 31 ∧ dd1 ≥ 30 then 30 else dd2
  let mm2' := if dd2 = 31 ∧ dd1 < 30 then mm2 + 1 else mm2
  let dd2' := if dd2 = 31 ∧ dd1 < 30 then 1 else dd2
  thirtyFormula (yearOf d1) (monthOf d1) dd1 (yearOf d2) mm2' dd2'

/-- `enum Thirty360Market` (`thirty360.rs` 9-17). -/
inductive ThirtyMarket where
  | usa | european | italian | isma | isda (term : Int) | german (term : Int) | nasd
  deriving DecidableEq, Repr

/-- `Thirty360::day_count` (`thirty360.rs` 171-187). -/
def thirty360 : ThirtyMarket → Int → Int → Int
  | .usa => thirtyUS
  | .european => thirtyEU
  | .italian => thirtyItaly
  | .isma => thirtyISMA
  | .isda t => thirtyISDA t
  | .german t => thirtyISDA t
  | .nasd => thirtyNASD

/-- `Thirty360::year_fraction` (`thirty360.rs` 189-191). -/
def thirty360Yf (m : ThirtyMarket) (d1 d2 : Int) : ℚ := (thirty360 m d1 d2 : ℚ) / 360

/-- `Thirty365::day_count` (`thirty365.rs` 12-21). -/
def thirty365 (d1 d2 : Int) : Int :=
  thirtyFormula (yearOf d1) (monthOf d1) (dayOf d1) (yearOf d2) (monthOf d2) (dayOf d2)

/-- `Thirty365::year_fraction` (`thirty365.rs` 23-25). -/
def thirty365Yf (d1 d2 : Int) : ℚ := (thirty365 d1 d2 : ℚ) / 365

/-- `Business252::same_month` (`business252.rs` 15-17). -/
def sameMonthB (d1 d2 : Int) : Bool := yearOf d1 == yearOf d2 && monthOf d1 == monthOf d2

/-- The `while` loop of `Business252::day_count` (`business252.rs` 29-32) and the
final addition (33); `fuel` bounds the number of months. -/
def b252Loop (c : Cal) (d2 : Int) : Nat → Int → Int → Outcome Int
  | 0, _, _ => .panic
  | fuel + 1, d, total => do
    let b ← businessDaysBetween c d d2 true false
    if sameMonthB d d2 then .ok (total + b)
    else b252Loop c d2 fuel (← addPeriod d (.months 1)) (total + b)

/-- `Business252::day_count` (`business252.rs` 22-36), with the default flags
`include_first = true`, `include_last = false` of `business_days_between`.  The
loop runs once per month between the dates; the fuel (number of representable
months) is never exhausted for `d1 ≤ d2`. -/
def b252DayCount (c : Cal) (d1 d2 : Int) : Outcome Int :=
  if sameMonthB d1 d2 ∨ d1 > d2 then businessDaysBetween c d1 d2 true false
  else do
    let first ← unwrap (fromYmdOpt (yearOf d1) (monthOf d1) 1)
    let d ← addPeriod first (.months 1)
    let t ← businessDaysBetween c d1 d true false
    b252Loop c d2 6400000 d t

/-- `Business252::year_fraction` (`business252.rs` 38-41). -/
def b252Yf (c : Cal) (d1 d2 : Int) : Outcome ℚ :=
  (fun n : Int => (n : ℚ) / 252) <$> b252DayCount c d1 d2

/-- `enum Actual365FixedMarket` (`actual365fixed.rs` 8-11). -/
inductive Actual365Market where
  | standard | noLeap
  deriving DecidableEq, Repr

/-- `enum ActualActualMarket` (`actualactual.rs` 9-12). -/
inductive ActualActualMarket where
  | isda | euro
  deriving DecidableEq, Repr

/-- The implementations of the trait `DayCounters` (`daycounters.rs`). -/
inductive DayCounter where
  | actual360 | actual364 | actual365 (market : Option Actual365Market) | actual366
  | actualActual (market : Option ActualActualMarket) | thirty360 (market : ThirtyMarket)
  | thirty365 | business252 (calendar : Cal)

/-- `day_count` of each implementation (`actual360.rs` 12-15, `actual364.rs` 12-15,
`actual365fixed.rs` 41-46, `actual366.rs` 12-15, `actualactual.rs` 70-73,
`thirty360.rs` 171-187, `thirty365.rs` 12-21, `business252.rs` 22-36). -/
def DayCounter.dayCount : DayCounter → Int → Int → Outcome Int
  | .actual360, d1, d2 | .actual364, d1, d2 | .actual366, d1, d2 | .actualActual _, d1, d2 =>
    .ok (actualDays d1 d2)
  | .actual365 (some .standard), d1, d2 | .actual365 none, d1, d2 => .ok (actualDays d1 d2)
  | .actual365 (some .noLeap), d1, d2 => .ok (nlDayCount d1 d2)
  | .thirty360 m, d1, d2 => .ok (Verif.thirty360 m d1 d2)
  | .thirty365, d1, d2 => .ok (Verif.thirty365 d1 d2)
  | .business252 c, d1, d2 => b252DayCount c d1 d2

/-- `year_fraction` of each implementation (`actual360.rs` 17-19, `actual364.rs` 17-19,
`actual365fixed.rs` 48-50, `actual366.rs` 17-19, `actualactual.rs` 75-80,
`thirty360.rs` 189-191, `thirty365.rs` 23-25, `business252.rs` 38-41). -/
def DayCounter.yearFraction : DayCounter → Int → Int → Outcome ℚ
  | .actual360, d1, d2 => .ok (actualYf 360 d1 d2)
  | .actual364, d1, d2 => .ok (actualYf 364 d1 d2)
  | .actual365 (some .standard), d1, d2 | .actual365 none, d1, d2 => .ok (actualYf 365 d1 d2)
  | .actual365 (some .noLeap), d1, d2 => .ok ((nlDayCount d1 d2 : ℚ) / 365)
  | .actual366, d1, d2 => .ok (actualYf 366 d1 d2)
  | .actualActual (some .isda), d1, d2 | .actualActual none, d1, d2 => isdaYf d1 d2
  | .actualActual (some .euro), d1, d2 => euroYf d1 d2
  | .thirty360 m, d1, d2 => .ok (thirty360Yf m d1 d2)
  | .thirty365, d1, d2 => .ok (thirty365Yf d1 d2)
  | .business252 c, d1, d2 => b252Yf c d1 d2

end Verif
