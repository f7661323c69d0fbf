import Verif.Spec.Holidays

/-! # Feasts of other calendars

Independent definitions of the movable feasts that the shipped calendars keep in tables: the
Hebrew calendar by the molad and the four postponements, the tabular Islamic calendar, and
the published dates of the lunar new year. -/

namespace Verif

/-! ### The Hebrew calendar -/

/-- Months before the Hebrew year `h`: 235 in every cycle of 19 years. -/
def hebrewMonthsBefore (h : Int) : Int := (235 * h - 234) / 19

/-- A Hebrew year of 13 months. -/
def hebrewLeap (h : Int) : Prop := (7 * h + 1) % 19 < 7

instance (h : Int) : Decidable (hebrewLeap h) := inferInstanceAs (Decidable (_ < _))

/-- The mean conjunction that starts the Hebrew year `h`, in parts (1080 an hour) from the
evening that begins the Monday of creation: 5 hours and 204 parts, and 29 days 12 hours and
793 parts for every month. -/
def molad (h : Int) : Int := 5604 + 765433 * hebrewMonthsBefore h

/-- The first of Tishri of the Hebrew year `h`, as a day number.  The day of the molad is put
off by a day when the molad falls at 18 hours or later, on Tuesday at 9 hours 204 parts or later
in a common year, or on Monday at 15 hours 589 parts or later in a year after a leap year; and
then by a day when it would be a Sunday, Wednesday or Friday. -/
def tishri (h : Int) : Int :=
  let day := molad h / 25920
  let time := molad h % 25920
  let late := if 19440 ≤ time ∨ (¬ hebrewLeap h ∧ day % 7 = 1 ∧ 9924 ≤ time) ∨
    (hebrewLeap (h - 1) ∧ day % 7 = 0 ∧ 16789 ≤ time) then day + 1 else day
  let adu := if late % 7 = 6 ∨ late % 7 = 2 ∨ late % 7 = 4 then late + 1 else late
  adu - 1373427

/-- Rosh Hashanah in the autumn of the Gregorian year `y`. -/
def roshHashanah (y : Int) : Int := tishri (y + 3761)

/-- The first day of Passover, 15 Nisan: the months from Nisan to Elul always have 177 days. -/
def passoverDay (y : Int) : Int := roshHashanah y - 163

/-- Purim, 14 Adar. -/
def purimDay (y : Int) : Int := passoverDay y - 30

/-- Israel's independence day, 5 Iyar: on a Friday or Saturday it is kept on the Thursday before,
and since 2004 on a Monday it is kept on Tuesday. -/
def independenceDayIsrael (y : Int) : Int :=
  let x := passoverDay y + 20
  if x % 7 = 5 then x - 1 else if x % 7 = 6 then x - 2 else if x % 7 = 1 ∧ 2004 ≤ y then x + 1 else x

/-- Shavuot, 6 Sivan. -/
def shavuotDay (y : Int) : Int := passoverDay y + 50

/-- The fast of 9 Av, kept on Sunday when it falls on a Saturday. -/
def avFast (y : Int) : Int :=
  let x := passoverDay y + 112
  if x % 7 = 6 then x + 1 else x

/-- Tel Aviv: Purim, the eve (until 2020), first and last days of Passover, memorial and
independence days, the eve (until 2020) and day of Shavuot, the fast of Av, the eve (until 2019)
and the two days of the new year, the eve and day of Yom Kippur, of Sukkot and of Simchat Torah. -/
def telAvivHolidays (rosh indep : Int → Int) (y : Int) : List Int :=
  [purimDay y] ++ provided (y ≤ 2020) [passoverDay y - 1] ++
  [passoverDay y, passoverDay y + 5, passoverDay y + 6, indep y - 1, indep y] ++
  provided (y ≤ 2020) [shavuotDay y - 1] ++ [shavuotDay y, avFast y] ++
  provided (y ≤ 2019) [rosh y - 1] ++
  [rosh y, rosh y + 1, rosh y + 8, rosh y + 9, rosh y + 13, rosh y + 14, rosh y + 20, rosh y + 21]

/-- The SHIR rate: two days of Purim, eve, first and last days of Passover, independence day,
Shavuot, the fast of Av, eve and days of the new year, eve and day of Yom Kippur, Sukkot and Simchat
Torah; one election day; holidays abroad; and three days without a fixing. -/
def shirHolidays (rosh indep : Int → Int) (y : Int) : List Int :=
  [purimDay y, purimDay y + 1, passoverDay y - 1, passoverDay y, passoverDay y + 6, indep y,
   shavuotDay y, avFast y, rosh y - 1, rosh y, rosh y + 1, rosh y + 8, rosh y + 9, rosh y + 14,
   rosh y + 21] ++ provided (y = 2024) [ymd y 2 27] ++ [ymd y 1 1, easterSunday y - 2] ++
  provided (y ≠ 2022) [onOrAfter .mon (ymd y 5 25)] ++ provided (y = 2022) [ymd y 6 3] ++
  [ymd y 12 25, ymd y 12 26] ++ provided (y = 2022) [ymd y 11 1] ++
  provided (y = 2023) [ymd y 1 2] ++ provided (y = 2023) [ymd y 4 10]

/-! ### The Islamic calendar -/

/-- Day `d` of month `m` of the Islamic year `h` in the tabular calendar: months of 30 and 29
days in turn, 11 leap days in every 30 years. -/
def islamicDay (h m d : Int) : Int :=
  d + 29 * (m - 1) + m / 2 + 354 * (h - 1) + (3 + 11 * h) / 30 + 227014

/-- The feast at the end of Ramadan, 1 Shawwal. -/
def ramadanFeast (h : Int) : Int := islamicDay h 10 1

/-- The feast of the sacrifice, 10 Dhu al-Hijja. -/
def sacrificeFeast (h : Int) : Int := islamicDay h 12 10

/-! ### The lunar new year -/

/-- The published dates of the lunar new year in Chinese time, 2002 to 2050, as (month, day). -/
def lunarTable : List (Int × Int) := [
  (2, 12), (2, 1), (1, 22), (2, 9), (1, 29), (2, 18), (2, 7), (1, 26), (2, 14), (2, 3),
  (1, 23), (2, 10), (1, 31), (2, 19), (2, 8), (1, 28), (2, 16), (2, 5), (1, 25), (2, 12),
  (2, 1), (1, 22), (2, 10), (1, 29), (2, 17), (2, 6), (1, 26), (2, 13), (2, 3), (1, 23),
  (2, 11), (1, 31), (2, 19), (2, 8), (1, 28), (2, 15), (2, 4), (1, 24), (2, 12), (2, 1),
  (1, 22), (2, 10), (1, 30), (2, 17), (2, 6), (1, 26), (2, 14), (2, 2), (1, 23)]

/-- The lunar new year of the year `y` in Chinese time. -/
def lunarNewYear (y : Int) : Int :=
  let p := lunarTable.getD (y - 2002).toNat (1, 1)
  ymd y p.1 p.2

/-- In Korean time the conjunctions of 2027 and 2028 fall after midnight. -/
def seollal (y : Int) : Int := lunarNewYear y + if y = 2027 ∨ y = 2028 then 1 else 0

/-- The `n` days from `a` on are all closed. -/
def ClosedRun (c : Cal) (a : Int) (n : Nat) : Prop := ∀ k : Nat, k < n → c (a + k) = .ok false

end Verif
