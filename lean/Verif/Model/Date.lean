import Verif.Model.Outcome

/-!
# Dates

`chrono::NaiveDate` is represented by its day number in the proleptic Gregorian
calendar (`num_days_from_ce`: 1 is 0001-01-01).  All accessors used by the crate
(`year`, `month`, `day`, `weekday`, `ordinal`) are computed from it.

chrono itself is not part of `/repo`; this file states the behaviour of the
chrono functions that `/repo/src/time` calls and belongs to the trusted base.
The correctness of the decoding (bijection with year-month-day triples) is
proved in `Verif/Lemmas/Date.lean`.
-/

namespace Verif


/-- 1 in Gregorian leap years, 0 otherwise (chrono `NaiveDate::leap_year`). -/
def leap (y : Int) : Int :=
  if y % 4 = 0 ∧ (y % 100 ≠ 0 ∨ y % 400 = 0) then 1 else 0

/-- Number of days before 1 January of year `y`. -/
def yearStart (y : Int) : Int :=
  365 * (y - 1) + (y - 1) / 4 - (y - 1) / 100 + (y - 1) / 400

/-- Year of a day number (`Datelike::year`).  The first guess is exact or one
too small. -/
def yearOf (n : Int) : Int :=
  let e := (n - 1) * 400 / 146097 + 1
  if n ≤ yearStart (e + 1) then e else e + 1

/-- Int of the year, 1-based (`Datelike::ordinal`, used through
`/repo/src/time/calendars.rs` 162-170). -/
def ordinal (n : Int) : Int := n - yearStart (yearOf n)

/-- Days of the year before month `m` (1-12) given the leap-day count `L`.
Only meaningful for `1 ≤ m ≤ 12`; `m = 13` gives the length of the year. -/
def monthStart (L m : Int) : Int :=
  if m ≤ 1 then 0 else if m = 2 then 31 else if m = 3 then 59 + L
  else if m = 4 then 90 + L else if m = 5 then 120 + L else if m = 6 then 151 + L
  else if m = 7 then 181 + L else if m = 8 then 212 + L else if m = 9 then 243 + L
  else if m = 10 then 273 + L else if m = 11 then 304 + L else if m = 12 then 334 + L
  else 365 + L

/-- Month of the day with ordinal `o` in a year with leap-day count `L`. -/
def monthOfOrd (L o : Int) : Int :=
  if o ≤ 31 then 1 else if o ≤ 59 + L then 2 else if o ≤ 90 + L then 3
  else if o ≤ 120 + L then 4 else if o ≤ 151 + L then 5 else if o ≤ 181 + L then 6
  else if o ≤ 212 + L then 7 else if o ≤ 243 + L then 8 else if o ≤ 273 + L then 9
  else if o ≤ 304 + L then 10 else if o ≤ 334 + L then 11 else 12

/-- `Datelike::month` (1-12). -/
def monthOf (n : Int) : Int := monthOfOrd (leap (yearOf n)) (ordinal n)

/-- `Datelike::day` (1-31). -/
def dayOf (n : Int) : Int := ordinal n - monthStart (leap (yearOf n)) (monthOf n)

/-- Number of days of month `m` of year `y`. -/
def monthLen (y m : Int) : Int :=
  if m = 2 then 28 + leap y
  else if m = 4 ∨ m = 6 ∨ m = 9 ∨ m = 11 then 30 else 31

/-- Int number of a year-month-day triple (meaningful for real triples). -/
def ymd (y m d : Int) : Int := yearStart y + monthStart (leap y) m + d

/-- First representable day, `NaiveDate::MIN` = -262143-01-01. -/
def minDay : Int := ymd (-262143) 1 1

/-- Last representable day, `NaiveDate::MAX` = 262142-12-31. -/
def maxDay : Int := ymd 262142 12 31

/-- Representable as a `NaiveDate`. -/
def Valid (n : Int) : Prop := minDay ≤ n ∧ n ≤ maxDay

instance (n : Int) : Decidable (Valid n) := inferInstanceAs (Decidable (_ ∧ _))

/-- `NaiveDate::from_ymd_opt`: `none` for a triple that is not a representable
date. -/
def fromYmdOpt (y m d : Int) : Option Int :=
  if -262143 ≤ y ∧ y ≤ 262142 ∧ 1 ≤ m ∧ m ≤ 12 ∧ 1 ≤ d ∧ d ≤ monthLen y m then
    some (ymd y m d)
  else none

/-- `Option::unwrap`: panics on `None`. -/
def unwrap {α : Type} : Option α → Outcome α
  | some a => .ok a
  | none => .panic

/-- Days of the week (`chrono::Weekday`). -/
inductive Weekday where
  | mon | tue | wed | thu | fri | sat | sun
  deriving DecidableEq, Repr

/-- `Weekday::num_days_from_monday`. -/
def Weekday.num : Weekday → Int
  | .mon => 0 | .tue => 1 | .wed => 2 | .thu => 3 | .fri => 4 | .sat => 5 | .sun => 6

/-- `Datelike::weekday`; day 1 is a Monday. -/
def weekdayOf (n : Int) : Weekday :=
  if (n - 1) % 7 = 0 then .mon else if (n - 1) % 7 = 1 then .tue
  else if (n - 1) % 7 = 2 then .wed else if (n - 1) % 7 = 3 then .thu
  else if (n - 1) % 7 = 4 then .fri else if (n - 1) % 7 = 5 then .sat else .sun

/-- `NaiveDate ± Duration` in whole days; panics outside chrono's range
(`Duration` is chrono's `TimeDelta`; the `Add`/`Sub` operators `expect`). -/
def addDays (n : Int) (k : Int) : Outcome Int :=
  if Valid (n + k) then .ok (n + k) else .panic

/-- `NaiveDate + Months` / `- Months` (chrono `checked_add_months` followed by
`expect`): month arithmetic with the day clamped to the length of the target
month; panics when the target year is out of range. -/
def addMonths (n : Int) (k : Int) : Outcome Int :=
  let t := yearOf n * 12 + (monthOf n - 1) + k
  let y := t / 12
  let m := t % 12 + 1
  unwrap (fromYmdOpt y m (min (dayOf n) (monthLen y m)))

end Verif
