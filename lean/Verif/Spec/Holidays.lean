import Verif.Spec.Easter
import Verif.Spec.Shipped

/-! # Holiday rules

Independent definitions of the holidays of the rule-based shipped calendars: for every
year the list of the days that are holidays, as calendar dates, weekday rules, shifts off
the weekend and offsets from Easter Sunday. -/

namespace Verif

/-- The first day from `x` on that falls on weekday `w`. -/
def onOrAfter (w : Weekday) (x : Int) : Int := x + (w.num - (x - 1)) % 7

/-- The `n`-th weekday `w` of month `m`. -/
def nthDay (n : Int) (w : Weekday) (m y : Int) : Int := onOrAfter w (ymd y m (7 * n - 6))

/-- A Sunday holiday is kept on Monday. -/
def sunToMon (x : Int) : Int := if x % 7 = 0 then x + 1 else x

/-- A Saturday or Sunday holiday is kept on Monday. -/
def toMonday (x : Int) : Int := if x % 7 = 6 then x + 2 else if x % 7 = 0 then x + 1 else x

/-- A Saturday holiday is kept on Friday, a Sunday one on Monday. -/
def toNearest (x : Int) : Int := if x % 7 = 6 then x - 1 else if x % 7 = 0 then x + 1 else x

/-- Of two holidays on consecutive days, each one on a weekend is kept two days later. -/
def twoLater (x : Int) : Int := if x % 7 = 6 ∨ x % 7 = 0 then x + 2 else x

/-- Argentina moves a holiday to the nearest Monday: back from Tuesday and Wednesday, forward
from Thursday and Friday. -/
def argentineMove (x : Int) : Int :=
  if x % 7 = 2 then x - 1 else if x % 7 = 3 then x - 2 else if x % 7 = 4 then x + 4
  else if x % 7 = 5 then x + 3 else x

/-- Chile moves a holiday to Monday: back from Tuesday, Wednesday and Thursday, forward from
Friday. -/
def chileanMove (x : Int) : Int :=
  if x % 7 = 2 then x - 1 else if x % 7 = 3 then x - 2 else if x % 7 = 4 then x - 3
  else if x % 7 = 5 then x + 3 else x

/-- Reformation Day in Chile moves to Friday: back from Tuesday, forward from Wednesday. -/
def reformationMove (x : Int) : Int :=
  if x % 7 = 2 then x - 4 else if x % 7 = 3 then x + 2 else x

/-- The last day from `x` back that is no Saturday or Sunday. -/
def lastWeekday (x : Int) : Int := if x % 7 = 6 then x - 1 else if x % 7 = 0 then x - 2 else x

/-- A holiday kept only if it falls on weekday `w`. -/
def ifOn (w : Weekday) (x : Int) : List Int := if weekdayOf x = w then [x] else []

/-- Holidays kept under a condition. -/
def provided (c : Prop) [Decidable c] (l : List Int) : List Int := if c then l else []

/-- A calendar that, in the years `lo` to `hi`, is closed exactly on the weekends and the
holidays. -/
def ClosedOn (c : Cal) (lo hi : Int) (holidays : Int → List Int) : Prop :=
  ∀ d, lo ≤ yearOf d → yearOf d ≤ hi →
    ∃ b, c d = .ok b ∧ (b = true ↔ ¬ SatSun d ∧ d ∉ holidays (yearOf d))

/-! ### Europe -/

/-- TARGET. -/
def targetHolidays (y : Int) : List Int :=
  [ymd y 1 1] ++
  provided (2000 ≤ y) [easterSunday y - 2] ++ provided (2000 ≤ y) [easterSunday y + 1] ++
  provided (2000 ≤ y) [ymd y 5 1] ++ [ymd y 12 25] ++ provided (2000 ≤ y) [ymd y 12 26] ++
  provided (y = 1998 ∨ y = 1999 ∨ y = 2001) [ymd y 12 31]

/-- United Kingdom bank holidays. -/
def ukHolidays (y : Int) : List Int :=
  [toMonday (ymd y 1 1), easterSunday y - 2, easterSunday y + 1] ++
  -- Early May, moved to VE day in 1995 and 2020
  provided (y ≠ 1995 ∧ y ≠ 2020) [nthDay 1 .mon 5 y] ++ provided (y = 1995 ∨ y = 2020) [ymd y 5 8] ++
  -- Spring, moved for the Golden, Diamond and Platinum Jubilees
  provided (y ≠ 2002 ∧ y ≠ 2012 ∧ y ≠ 2022) [onOrAfter .mon (ymd y 5 25)] ++
  provided (y = 2002) [ymd y 6 3, ymd y 6 4] ++ provided (y = 2012) [ymd y 6 4, ymd y 6 5] ++
  provided (y = 2022) [ymd y 6 2, ymd y 6 3] ++
  -- Summer
  [onOrAfter .mon (ymd y 8 25)] ++
  -- Royal wedding, state funeral, coronation
  provided (y = 2011) [ymd y 4 29] ++ provided (y = 2022) [ymd y 9 19] ++ provided (y = 2023) [ymd y 5 8] ++
  [twoLater (ymd y 12 25), twoLater (ymd y 12 26)] ++ provided (y = 1999) [ymd y 12 31]

/-- Switzerland. -/
def swissHolidays (y : Int) : List Int :=
  [ymd y 1 1, ymd y 1 2, easterSunday y - 2, easterSunday y + 1, easterSunday y + 39, easterSunday y + 50,
   ymd y 5 1, ymd y 8 1, ymd y 12 25, ymd y 12 26]

/-- Germany, settlement. -/
def germanHolidays (y : Int) : List Int :=
  [ymd y 1 1, easterSunday y - 2, easterSunday y + 1, easterSunday y + 39, easterSunday y + 50,
   easterSunday y + 60, ymd y 5 1, ymd y 10 3, ymd y 12 24, ymd y 12 25, ymd y 12 26]

/-- Frankfurt Stock Exchange and Xetra. -/
def frankfurtHolidays (y : Int) : List Int :=
  [ymd y 1 1, easterSunday y - 2, easterSunday y + 1, ymd y 5 1, ymd y 12 24, ymd y 12 25, ymd y 12 26]

/-- France, exchange. -/
def parisHolidays (y : Int) : List Int :=
  [ymd y 1 1, easterSunday y - 2, easterSunday y + 1, ymd y 5 1, ymd y 12 24, ymd y 12 25, ymd y 12 26,
   ymd y 12 31]

/-- France, public holidays. -/
def frenchHolidays (y : Int) : List Int :=
  [ymd y 1 1, easterSunday y + 1, ymd y 5 1, ymd y 5 8, easterSunday y + 39, easterSunday y + 50,
   ymd y 7 14, ymd y 8 15, ymd y 11 1, ymd y 11 11, ymd y 12 25]

/-- France as coded: Ascension and Pentecost on fixed days. -/
def frenchHolidaysFixed (y : Int) : List Int :=
  [ymd y 1 1, easterSunday y + 1, ymd y 5 1, ymd y 5 8, ymd y 5 10, ymd y 5 21,
   ymd y 7 14, ymd y 8 15, ymd y 11 1, ymd y 11 11, ymd y 12 25]

/-- Italy, settlement. -/
def italianHolidays (y : Int) : List Int :=
  [ymd y 1 1, ymd y 1 6, easterSunday y + 1, ymd y 4 25, ymd y 5 1] ++ provided (2000 ≤ y) [ymd y 6 2] ++
  [ymd y 8 15, ymd y 11 1, ymd y 12 8, ymd y 12 25, ymd y 12 26] ++ provided (y = 1999) [ymd y 12 31]

/-- Italy, exchange. -/
def milanHolidays (y : Int) : List Int :=
  [ymd y 1 1, easterSunday y - 2, easterSunday y + 1, ymd y 5 1, ymd y 8 15, ymd y 12 24, ymd y 12 25,
   ymd y 12 26, ymd y 12 31]

/-- Austria, settlement. -/
def austrianHolidays (y : Int) : List Int :=
  [ymd y 1 1, ymd y 1 6, easterSunday y + 1, easterSunday y + 39, easterSunday y + 50,
   easterSunday y + 60, ymd y 5 1, ymd y 8 15] ++ provided (1967 ≤ y) [ymd y 10 26] ++
  provided (1919 ≤ y ∧ y ≤ 1934) [ymd y 11 12] ++
  [ymd y 11 1, ymd y 12 8, ymd y 12 25, ymd y 12 26]

/-- Austria, exchange. -/
def viennaHolidays (y : Int) : List Int :=
  [ymd y 1 1, easterSunday y - 2, easterSunday y + 1, easterSunday y + 50, ymd y 5 1] ++
  provided (1967 ≤ y) [ymd y 10 26] ++ provided (1919 ≤ y ∧ y ≤ 1934) [ymd y 11 12] ++
  [ymd y 12 24, ymd y 12 25, ymd y 12 26, ymd y 12 31]

/-- Denmark. -/
def danishHolidays (y : Int) : List Int :=
  [easterSunday y - 3, easterSunday y - 2, easterSunday y + 1] ++ provided (y ≤ 2023) [easterSunday y + 26] ++
  [easterSunday y + 39] ++ provided (2009 ≤ y) [easterSunday y + 40] ++
  [easterSunday y + 50, ymd y 1 1, ymd y 6 5, ymd y 12 24, ymd y 12 25, ymd y 12 26, ymd y 12 31]

/-- Norway. -/
def norwegianHolidays (y : Int) : List Int :=
  [easterSunday y - 3, easterSunday y - 2, easterSunday y + 1, easterSunday y + 39, easterSunday y + 50,
   ymd y 1 1, ymd y 5 1, ymd y 5 17] ++ provided (2002 ≤ y) [ymd y 12 24] ++ [ymd y 12 25, ymd y 12 26]

/-- Sweden: Midsummer Eve is the Friday from 19 to 25 June. -/
def swedishHolidays (y : Int) : List Int :=
  [easterSunday y - 2, easterSunday y + 1, easterSunday y + 39] ++ provided (y < 2005) [easterSunday y + 50] ++
  [ymd y 1 1, ymd y 1 6, ymd y 5 1] ++ provided (2005 ≤ y) [ymd y 6 6] ++
  [onOrAfter .fri (ymd y 6 19), ymd y 12 24, ymd y 12 25, ymd y 12 26, ymd y 12 31]

/-- Finland. -/
def finnishHolidays (y : Int) : List Int :=
  [ymd y 1 1, ymd y 1 6, easterSunday y - 2, easterSunday y + 1, easterSunday y + 39, ymd y 5 1,
   onOrAfter .fri (ymd y 6 19), ymd y 12 6, ymd y 12 24, ymd y 12 25, ymd y 12 26]

/-- Iceland: First Day of Summer is the Thursday from 19 to 25 April, Commerce Day the
first Monday of August. -/
def icelandicHolidays (y : Int) : List Int :=
  [ymd y 1 1, easterSunday y - 3, easterSunday y - 2, easterSunday y + 1, onOrAfter .thu (ymd y 4 19),
   easterSunday y + 39, easterSunday y + 50, ymd y 5 1, ymd y 6 17, nthDay 1 .mon 8 y, ymd y 12 25,
   ymd y 12 26]

/-- Poland. -/
def polishHolidays (y : Int) : List Int :=
  [easterSunday y + 1, easterSunday y + 60, ymd y 1 1] ++ provided (2011 ≤ y) [ymd y 1 6] ++
  [ymd y 5 1, ymd y 5 3, ymd y 8 15, ymd y 11 1, ymd y 11 11, ymd y 12 25, ymd y 12 26]

/-- Czech Republic. -/
def czechHolidays (y : Int) : List Int :=
  [ymd y 1 1] ++ provided (2016 ≤ y) [easterSunday y - 2] ++
  [easterSunday y + 1, ymd y 5 1, ymd y 5 8, ymd y 7 5, ymd y 7 6, ymd y 9 28, ymd y 10 28, ymd y 11 17,
   ymd y 12 24, ymd y 12 25, ymd y 12 26] ++ provided (y = 2004) [ymd y 1 2] ++
  provided (y = 2004) [ymd y 12 31]

/-- Hungary. -/
def hungarianHolidays (y : Int) : List Int :=
  provided (2017 ≤ y) [easterSunday y - 2] ++
  [easterSunday y + 1, easterSunday y + 50, ymd y 1 1, ymd y 3 15, ymd y 5 1, ymd y 8 20, ymd y 10 23,
   ymd y 11 1, ymd y 12 25, ymd y 12 26]

/-- Slovakia. -/
def slovakHolidays (y : Int) : List Int :=
  [ymd y 1 1, ymd y 1 6, easterSunday y - 2, easterSunday y + 1, ymd y 5 1, ymd y 5 8, ymd y 7 5, ymd y 8 29,
   ymd y 9 1, ymd y 9 15, ymd y 11 1, ymd y 11 17, ymd y 12 24, ymd y 12 25, ymd y 12 26] ++
  provided (y = 2004) [ymd y 12 24, ymd y 12 25, ymd y 12 26, ymd y 12 27, ymd y 12 28, ymd y 12 29,
    ymd y 12 30, ymd y 12 31] ++
  provided (y = 2005) [ymd y 12 24, ymd y 12 25, ymd y 12 26, ymd y 12 27, ymd y 12 28, ymd y 12 29,
    ymd y 12 30, ymd y 12 31]

/-- 1 and 2 May; 2 May on a Sunday is kept on Monday. -/
def mayDays (y : Int) : List Int := [ymd y 5 1, sunToMon (ymd y 5 2)]

/-- Ukraine, given Easter Sunday. -/
def ukrainianHolidays (easter : Int → Int) (y : Int) : List Int :=
  [toMonday (ymd y 1 1), toMonday (ymd y 1 7), toMonday (ymd y 3 8), easter y + 1, easter y + 50] ++ mayDays y ++
  [toMonday (ymd y 5 9), ymd y 6 28, ymd y 8 24] ++
  provided (2015 ≤ y) [ymd y 10 14]

/-- Romania (Orthodox Easter). -/
def romanianHolidays (y : Int) : List Int :=
  [ymd y 1 1, ymd y 1 2, ymd y 1 24, orthodoxEasterSunday y + 1, ymd y 5 1, orthodoxEasterSunday y + 50] ++
  provided (2017 ≤ y) [ymd y 6 1] ++ [ymd y 8 15, ymd y 11 30, ymd y 12 1, ymd y 12 25, ymd y 12 26]

/-! ### The Americas -/

/-- Washington's birthday: third Monday of February since 1971, before that 22 February. -/
def washingtonBirthday (y : Int) : List Int :=
  provided (1971 ≤ y) [nthDay 3 .mon 2 y] ++ provided (y < 1971) [toNearest (ymd y 2 22)]

/-- Memorial Day: last Monday of May since 1971, before that 30 May. -/
def memorialDay (y : Int) : List Int :=
  provided (1971 ≤ y) [onOrAfter .mon (ymd y 5 25)] ++ provided (y < 1971) [toNearest (ymd y 5 30)]

/-- Juneteenth, since 2022. -/
def juneteenth (y : Int) : List Int := provided (2022 ≤ y) [toNearest (ymd y 6 19)]

/-- Columbus Day, since 1971. -/
def columbusDay (y : Int) : List Int := provided (1971 ≤ y) [nthDay 2 .mon 10 y]

/-- Veterans Day: 11 November, but the fourth Monday of October from 1971 to 1977. -/
def veteransDay (y : Int) : List Int :=
  provided (y ≤ 1970 ∨ 1978 ≤ y) [toNearest (ymd y 11 11)] ++
  provided (1970 < y ∧ y < 1978) [nthDay 4 .mon 10 y]

/-- Veterans Day, kept on Monday only. -/
def veteransDayMonday (y : Int) : List Int :=
  provided (y ≤ 1970 ∨ 1978 ≤ y) [sunToMon (ymd y 11 11)] ++
  provided (1970 < y ∧ y < 1978) [nthDay 4 .mon 10 y]

/-- United States, settlement.  New Year's Day of the next year may be kept on 31
December. -/
def usHolidays (y : Int) : List Int :=
  [toNearest (ymd y 1 1), toNearest (ymd (y + 1) 1 1)] ++ provided (1983 ≤ y) [nthDay 3 .mon 1 y] ++
  washingtonBirthday y ++ memorialDay y ++ juneteenth y ++ [toNearest (ymd y 7 4), nthDay 1 .mon 9 y] ++
  columbusDay y ++ veteransDay y ++ [nthDay 4 .thu 11 y, toNearest (ymd y 12 25)]

/-- United States, LIBOR: Independence Day is not moved since 2015. -/
def usLiborHolidays (y : Int) : List Int :=
  [toNearest (ymd y 1 1), toNearest (ymd (y + 1) 1 1)] ++ provided (1983 ≤ y) [nthDay 3 .mon 1 y] ++
  washingtonBirthday y ++ memorialDay y ++ juneteenth y ++
  [if y < 2015 then toNearest (ymd y 7 4) else ymd y 7 4, nthDay 1 .mon 9 y] ++
  columbusDay y ++ veteransDay y ++ [nthDay 4 .thu 11 y, toNearest (ymd y 12 25)]

/-- United States, government bonds.  Good Friday is a half day, not a holiday, when it
falls in the first seven days of a month from 1996 on. -/
def usBondHolidays (y : Int) : List Int :=
  [sunToMon (ymd y 1 1)] ++ provided (1983 ≤ y) [nthDay 3 .mon 1 y] ++ washingtonBirthday y ++
  provided (y < 1996 ∨ 7 < dayOf (easterSunday y - 2)) [easterSunday y - 2] ++ memorialDay y ++
  juneteenth y ++ [toNearest (ymd y 7 4), nthDay 1 .mon 9 y] ++ columbusDay y ++ veteransDayMonday y ++
  [nthDay 4 .thu 11 y, toNearest (ymd y 12 25)] ++
  provided (y = 2018) [ymd y 12 5] ++ provided (y = 2025) [ymd y 1 9] ++
  provided (y = 2012) [ymd y 10 30] ++ provided (y = 2004) [ymd y 6 11]

/-- United States, SOFR: as government bonds, and every Good Friday. -/
def usSofrHolidays (y : Int) : List Int := (easterSunday y - 2) :: usBondHolidays y

/-- United States, NERC. -/
def usNercHolidays (y : Int) : List Int :=
  [sunToMon (ymd y 1 1)] ++ memorialDay y ++
  [sunToMon (ymd y 7 4), nthDay 1 .mon 9 y, nthDay 4 .thu 11 y, sunToMon (ymd y 12 25)]

/-- Federal Reserve Banks as published: a Saturday holiday is not moved to Friday. -/
def usFedHolidays (y : Int) : List Int :=
  [sunToMon (ymd y 1 1)] ++ provided (1983 ≤ y) [nthDay 3 .mon 1 y] ++ washingtonBirthday y ++
  memorialDay y ++ provided (2022 ≤ y) [sunToMon (ymd y 6 19)] ++ [sunToMon (ymd y 7 4), nthDay 1 .mon 9 y] ++
  columbusDay y ++ veteransDayMonday y ++ [nthDay 4 .thu 11 y, sunToMon (ymd y 12 25)]

/-- Federal Reserve Banks as coded: Juneteenth alone is moved to Friday. -/
def usFedHolidaysCoded (y : Int) : List Int :=
  [sunToMon (ymd y 1 1)] ++ provided (1983 ≤ y) [nthDay 3 .mon 1 y] ++ washingtonBirthday y ++
  memorialDay y ++ juneteenth y ++ [sunToMon (ymd y 7 4), nthDay 1 .mon 9 y] ++
  columbusDay y ++ veteransDayMonday y ++ [nthDay 4 .thu 11 y, sunToMon (ymd y 12 25)]

/-- The Wednesdays of 1968 from June on (paperwork crisis). -/
def paperCrisis (y : Int) : List Int :=
  provided (y = 1968) ((List.range 29).map fun i : Nat => ymd 1968 6 12 + 7 * (i : Int))

/-- New York Stock Exchange, given the election day: recurring holidays, then the days of
presidential elections up to 1980, then closings that happened once. -/
def nyseHolidays (election : Int → Int) (y : Int) : List Int :=
  [sunToMon (ymd y 1 1)] ++ washingtonBirthday y ++ [easterSunday y - 2] ++ memorialDay y ++ juneteenth y ++
  [toNearest (ymd y 7 4), nthDay 1 .mon 9 y, nthDay 4 .thu 11 y, toNearest (ymd y 12 25)] ++
  provided (1998 ≤ y) [nthDay 3 .mon 1 y] ++
  provided (y ≤ 1968 ∨ (y ≤ 1980 ∧ y % 4 = 0)) [election y] ++
  provided (y = 2018) [ymd y 12 5] ++ provided (y = 2012) [ymd y 10 29, ymd y 10 30] ++
  provided (y = 2007) [ymd y 1 2] ++ provided (y = 2004) [ymd y 6 11] ++
  provided (y = 2001) [ymd y 9 11, ymd y 9 12, ymd y 9 13, ymd y 9 14] ++
  provided (y = 1994) [ymd y 4 27] ++ provided (y = 1985) [ymd y 9 27] ++ provided (y = 1977) [ymd y 7 14] ++
  provided (y = 1973) [ymd y 1 25] ++ provided (y = 1972) [ymd y 12 28] ++ provided (y = 1969) [ymd y 7 21] ++
  provided (y = 1969) [ymd y 3 31] ++ provided (y = 1969) [ymd y 2 10] ++ provided (y = 1968) [ymd y 7 5] ++
  paperCrisis y ++ provided (y = 1968) [ymd y 4 9] ++ provided (y = 1963) [ymd y 11 25] ++
  provided (y = 1961) [ymd y 5 29] ++ provided (y = 1958) [ymd y 12 26] ++
  provided (y = 1954 ∨ y = 1956 ∨ y = 1965) [ymd y 12 24]

/-- Election day: the Tuesday after the first Monday of November. -/
def electionDay (y : Int) : Int := onOrAfter .tue (ymd y 11 2)

/-- Canada, Toronto stock exchange: Victoria Day is the Monday from 18 to 24 May; the
National Day for Truth and Reconciliation (30 September, since 2021) may be kept on the
first days of October. -/
def tsxHolidays (y : Int) : List Int :=
  [toMonday (ymd y 1 1)] ++ provided (2008 ≤ y) [nthDay 3 .mon 2 y] ++
  [easterSunday y - 2, onOrAfter .mon (ymd y 5 18), toMonday (ymd y 7 1), nthDay 1 .mon 8 y,
   nthDay 1 .mon 9 y] ++ provided (2021 ≤ y) [toMonday (ymd y 9 30)] ++
  [nthDay 2 .mon 10 y, twoLater (ymd y 12 25), twoLater (ymd y 12 26)]

/-- Canada, settlement: and Remembrance Day. -/
def canadianHolidays (y : Int) : List Int := tsxHolidays y ++ [toMonday (ymd y 11 11)]

/-- Mexico. -/
def mexicanHolidays (y : Int) : List Int :=
  [ymd y 1 1] ++ provided (y ≤ 2005) [ymd y 2 5] ++ provided (2006 ≤ y) [nthDay 1 .mon 2 y] ++
  provided (y ≤ 2005) [ymd y 3 21] ++ provided (2006 ≤ y) [nthDay 3 .mon 3 y] ++
  [easterSunday y - 3, easterSunday y - 2, ymd y 5 1, ymd y 9 16] ++
  -- inauguration of the president, every six years
  provided (2024 ≤ y ∧ (y - 2024) % 6 = 0) [ymd y 10 1] ++ [ymd y 11 2] ++
  provided (y ≤ 2005) [ymd y 11 20] ++ provided (2006 ≤ y) [nthDay 3 .mon 11 y] ++
  [ymd y 12 12, ymd y 12 25]

/-- Brazil, settlement. -/
def brazilianHolidays (y : Int) : List Int :=
  [ymd y 1 1, ymd y 4 21, ymd y 5 1, ymd y 9 7, ymd y 10 12, ymd y 11 2, ymd y 11 15] ++
  provided (2024 ≤ y) [ymd y 11 20] ++
  [ymd y 12 25, easterSunday y - 2, easterSunday y - 48, easterSunday y - 47, easterSunday y + 60]

/-- Brazil, exchange: closed also on the last weekday of the year. -/
def bovespaHolidays (y : Int) : List Int :=
  [ymd y 1 1] ++ provided (y < 2022) [ymd y 1 25] ++ [ymd y 4 21, ymd y 5 1] ++
  provided (y < 2022) [ymd y 7 9] ++ [ymd y 9 7, ymd y 10 12, ymd y 11 2, ymd y 11 15] ++
  provided (2007 ≤ y ∧ y ≠ 2022 ∧ y ≠ 2023) [ymd y 11 20] ++
  [ymd y 12 24, ymd y 12 25, easterSunday y - 2, easterSunday y - 48, easterSunday y - 47,
   easterSunday y + 60, lastWeekday (ymd y 12 31)]

/-- Argentina as coded: 24 and 31 December are holidays, 25 December is not. -/
def argentineHolidaysCoded (y : Int) : List Int :=
  [ymd y 1 1, easterSunday y - 3, easterSunday y - 2, ymd y 5 1, ymd y 5 25, nthDay 3 .mon 6 y, ymd y 7 9,
   nthDay 3 .mon 8 y, argentineMove (ymd y 10 12), ymd y 12 8, ymd y 12 24, toNearest (ymd y 12 31)]

/-- Argentina with Christmas. -/
def argentineHolidays (y : Int) : List Int := argentineHolidaysCoded y ++ [ymd y 12 25]

/-- 17 September in Chile: a holiday on a Monday since 2007, on a Friday since 2017. -/
def bridgeDay (y : Int) : List Int :=
  provided (2007 ≤ y) (ifOn .mon (ymd y 9 17)) ++ provided (2016 < y) (ifOn .fri (ymd y 9 17))

/-- Chile.  The day of the June solstice is given by a table. -/
def chileanHolidays (solstice : Int → Int) (y : Int) : List Int :=
  [ymd y 1 1] ++ provided (2016 < y) (ifOn .mon (ymd y 1 2)) ++ provided (y = 2018) [ymd y 1 16] ++
  [easterSunday y - 2, easterSunday y - 1] ++ provided (y = 2017) [ymd y 4 19] ++ [ymd y 5 1, ymd y 5 21] ++
  provided (2021 ≤ y) [ymd y 6 (solstice y)] ++
  [chileanMove (ymd y 6 29), ymd y 7 16, ymd y 8 15] ++ provided (y = 2022) [ymd y 9 16] ++
  bridgeDay y ++
  [ymd y 9 18, ymd y 9 19] ++ provided (2007 ≤ y) (ifOn .fri (ymd y 9 20)) ++
  [chileanMove (ymd y 10 12)] ++ provided (2008 ≤ y) [reformationMove (ymd y 10 31)] ++
  [ymd y 11 1, ymd y 12 8, ymd y 12 25, ymd y 12 31]

/-! ### Africa, Asia and Oceania -/

/-- South Africa. -/
def southAfricanHolidays (y : Int) : List Int :=
  [sunToMon (ymd y 1 1), easterSunday y - 2, easterSunday y + 1, sunToMon (ymd y 3 21),
   sunToMon (ymd y 4 27)] ++ provided (y = 2004) [ymd y 4 14] ++
  [sunToMon (ymd y 5 1), sunToMon (ymd y 6 16), sunToMon (ymd y 8 9), sunToMon (ymd y 9 24),
   sunToMon (ymd y 12 16), ymd y 12 25, sunToMon (ymd y 12 26)] ++
  provided (y = 2009) [ymd y 4 22] ++ provided (y = 2016) [ymd y 8 3] ++ provided (y = 2021) [ymd y 11 1] ++
  provided (y = 2022) [ymd y 12 27] ++ provided (y = 2023) [ymd y 12 15] ++ provided (y = 2024) [ymd y 5 29]

/-- Australian Securities Exchange. -/
def asxHolidays (y : Int) : List Int :=
  [toMonday (ymd y 1 1), toMonday (ymd y 1 26), easterSunday y - 2, easterSunday y + 1, ymd y 4 25,
   nthDay 2 .mon 6 y, twoLater (ymd y 12 25), twoLater (ymd y 12 26)] ++
  provided (y = 2022) [ymd y 9 22]

/-- A holiday and, if it is a Sunday, the two days after it. -/
def withTwoDays (x : Int) : List Int := [x] ++ provided (x % 7 = 0) [x + 1, x + 2]

/-- Botswana. -/
def botswanaHolidays (y : Int) : List Int :=
  withTwoDays (ymd y 1 1) ++
  [easterSunday y - 2, easterSunday y + 1, sunToMon (ymd y 5 1), easterSunday y + 39, sunToMon (ymd y 7 1),
   nthDay 3 .mon 7 y, ymd y 9 30] ++
  ifOn .mon (ymd y 10 1) ++ withTwoDays (ymd y 10 1) ++ [ymd y 12 25, sunToMon (ymd y 12 26)]

/-- The Monday in lieu of a holiday on a weekend. -/
def mondayFor (x : Int) : List Int := provided (x % 7 = 6 ∨ x % 7 = 0) [toMonday x]

/-- New Zealand, common holidays except Matariki. -/
def newZealandHolidays (y : Int) : List Int :=
  [twoLater (ymd y 1 1), twoLater (ymd y 1 2), ymd y 2 6] ++ provided (2013 < y) (mondayFor (ymd y 2 6)) ++
  [easterSunday y - 2, easterSunday y + 1, ymd y 4 25] ++ provided (2013 < y) (mondayFor (ymd y 4 25)) ++
  [nthDay 1 .mon 6 y, nthDay 4 .mon 10 y, twoLater (ymd y 12 25), twoLater (ymd y 12 26)]

/-- Matariki 2022-2052 and the memorial day of 2022. -/
def matariki (y : Int) : List Int :=
  provided (y = 2025) [ymd y 6 20] ++ provided (y = 2030 ∨ y = 2052) [ymd y 6 21] ++
  provided (y = 2022 ∨ y = 2033 ∨ y = 2044) [ymd y 6 24] ++
  provided (y = 2027 ∨ y = 2038 ∨ y = 2049) [ymd y 6 25] ++ provided (y = 2024) [ymd y 6 28] ++
  provided (y = 2035 ∨ y = 2046) [ymd y 6 29] ++ provided (y = 2051) [ymd y 6 30] ++
  provided (y = 2032) [ymd y 7 2] ++ provided (y = 2043 ∨ y = 2048) [ymd y 7 3] ++
  provided (y = 2029 ∨ y = 2040) [ymd y 7 6] ++ provided (y = 2034 ∨ y = 2045) [ymd y 7 7] ++
  provided (y = 2026 ∨ y = 2037) [ymd y 7 10] ++ provided (y = 2031 ∨ y = 2042) [ymd y 7 11] ++
  provided (y = 2023 ∨ y = 2028) [ymd y 7 14] ++ provided (y = 2039 ∨ y = 2050) [ymd y 7 15] ++
  provided (y = 2036) [ymd y 7 18] ++ provided (y = 2041 ∨ y = 2047) [ymd y 7 19] ++
  provided (y = 2022) [ymd y 9 26]

/-- Wellington: anniversary day on the Monday nearest 22 January. -/
def wellingtonHolidays (y : Int) : List Int :=
  newZealandHolidays y ++ matariki y ++ [onOrAfter .mon (ymd y 1 19)]

/-- Auckland: anniversary day on the Monday nearest 29 January. -/
def aucklandHolidays (y : Int) : List Int :=
  newZealandHolidays y ++ matariki y ++ [onOrAfter .mon (ymd y 1 26)]

/-- Vernal equinox in Japan, day of March, by the usual formula for 1980-2099. -/
def vernalEquinox (y : Int) : Int := (20843100 + 242194 * (y - 1980)) / 1000000 - (y - 1980) / 4

/-- Autumnal equinox in Japan, day of September. -/
def autumnalEquinox (y : Int) : Int := (23248800 + 242194 * (y - 1980)) / 1000000 - (y - 1980) / 4

/-- Days kept on Wednesday 6 May at the latest in lieu of 3, 4 or 5 May on a Sunday. -/
def goldenWeek (y : Int) : List Int :=
  provided (ymd y 5 3 % 7 = 0 ∨ ymd y 5 4 % 7 = 0 ∨ ymd y 5 5 % 7 = 0) [ymd y 5 6]

/-- A single day between Respect for the Aged Day and the autumnal equinox. -/
def silverWeek (ae y : Int) : List Int :=
  provided (nthDay 3 .mon 9 y + 2 = ymd y 9 ae) [nthDay 3 .mon 9 y + 1]

/-- Japan, given the days of the equinoxes. -/
def japaneseHolidays (ve ae : Int → Int) (y : Int) : List Int :=
  [ymd y 1 1, ymd y 1 2, ymd y 1 3] ++
  -- Coming of Age Day
  provided (2000 ≤ y) [nthDay 2 .mon 1 y] ++ provided (y < 2000) [sunToMon (ymd y 1 15)] ++
  [sunToMon (ymd y 2 11)] ++
  -- Emperor's birthday
  provided (2020 ≤ y) [sunToMon (ymd y 2 23)] ++ provided (1989 ≤ y ∧ y < 2019) [sunToMon (ymd y 12 23)] ++
  [sunToMon (ymd y 3 (ve y)), sunToMon (ymd y 4 29), ymd y 5 3, ymd y 5 4, ymd y 5 5] ++ goldenWeek y ++
  -- Marine Day, moved for the Olympic games
  provided ((2003 ≤ y ∧ y < 2020) ∨ 2022 ≤ y) [nthDay 3 .mon 7 y] ++
  provided (1996 ≤ y ∧ y < 2003) [sunToMon (ymd y 7 20)] ++
  provided (y = 2020) [ymd y 7 23] ++ provided (y = 2021) [ymd y 7 22] ++
  -- Mountain Day
  provided ((2016 ≤ y ∧ y < 2020) ∨ 2022 ≤ y) [sunToMon (ymd y 8 11)] ++
  provided (y = 2020) [ymd y 8 10] ++ provided (y = 2021) [ymd y 8 9] ++
  -- Respect for the Aged Day
  provided (2003 ≤ y) [nthDay 3 .mon 9 y] ++ provided (y < 2003) [sunToMon (ymd y 9 15)] ++
  provided (2003 ≤ y) (silverWeek (ae y) y) ++ [sunToMon (ymd y 9 (ae y))] ++
  -- Sports Day
  provided ((2000 ≤ y ∧ y < 2020) ∨ 2022 ≤ y) [nthDay 2 .mon 10 y] ++
  provided (y < 2000) [sunToMon (ymd y 10 10)] ++
  provided (y = 2020) [ymd y 7 24] ++ provided (y = 2021) [ymd y 7 23] ++
  [sunToMon (ymd y 11 3), sunToMon (ymd y 11 23), ymd y 12 31] ++
  -- once only
  provided (y = 1959) [ymd y 4 10] ++ provided (y = 1989) [ymd y 2 24] ++ provided (y = 1990) [ymd y 11 12] ++
  provided (y = 1993) [ymd y 6 9] ++ provided (y = 2019) [ymd y 4 30] ++ provided (y = 2019) [ymd y 5 1] ++
  provided (y = 2019) [ymd y 5 2] ++ provided (y = 2019) [ymd y 10 22]

/-- Australia, settlement: and the first Mondays of August and October. -/
def australianHolidays (y : Int) : List Int :=
  asxHolidays y ++ [nthDay 1 .mon 10 y, nthDay 1 .mon 8 y]

end Verif
