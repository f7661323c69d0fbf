import Verif.Spec.Feasts

/-! # Fixed holidays of the calendars with tables

The holidays that remain of each table calendar once its tables have run out. -/

namespace Verif

/-- Mainland China: the first of January. -/
def chinaFixed (y : Int) : List Int := [ymd y 1 1]

/-- Hong Kong: New Year, Good Friday, Easter Monday, Labour Day, Establishment Day, National Day
and Christmas. -/
def hongKongFixed (y : Int) : List Int :=
  [ymd y 1 1] ++ ifOn .mon (ymd y 1 2) ++ [ymd y 5 1] ++ ifOn .mon (ymd y 5 2) ++ [ymd y 7 1] ++
  ifOn .mon (ymd y 7 2) ++ [ymd y 10 1] ++ ifOn .mon (ymd y 10 2) ++
  [ymd y 12 25, ymd y 12 26, easterSunday y - 2, easterSunday y + 1]

/-- Singapore: New Year, Good Friday, Labour Day, National Day and Christmas. -/
def singaporeFixed (y : Int) : List Int :=
  [sunToMon (ymd y 1 1), easterSunday y - 2, ymd y 5 1, sunToMon (ymd y 8 9), ymd y 12 25]

/-- Taiwan. -/
def taiwanFixed (y : Int) : List Int := [ymd y 1 1, ymd y 2 28, ymd y 4 5, ymd y 5 1, ymd y 10 10]

/-- Indonesia: New Year, Good Friday, Ascension, Independence Day and Christmas. -/
def indonesiaFixed (y : Int) : List Int :=
  [ymd y 1 1, easterSunday y - 2, easterSunday y + 39, ymd y 8 17, ymd y 12 25]

/-- India: Republic Day, Good Friday, Ambedkar Jayanti, Labour Day, Independence Day, Gandhi Jayanti
and Christmas. -/
def indiaFixed (y : Int) : List Int :=
  [ymd y 1 26, easterSunday y - 2, ymd y 4 14, ymd y 5 1, ymd y 8 15, ymd y 10 2, ymd y 12 25]

/-- Turkey: New Year and the six civil holidays. -/
def turkeyFixed (y : Int) : List Int :=
  [ymd y 1 1, ymd y 4 23, ymd y 5 1, ymd y 5 19, ymd y 7 15, ymd y 8 30, ymd y 10 29]

/-- South Korea: the solar holidays. -/
def koreaFixed (y : Int) : List Int :=
  [ymd y 1 1, ymd y 3 1] ++ mondayFor (ymd y 3 1) ++ [ymd y 5 1, ymd y 5 5] ++ mondayFor (ymd y 5 5) ++
  [ymd y 6 6, ymd y 8 15] ++ mondayFor (ymd y 8 15) ++ [ymd y 10 3] ++ mondayFor (ymd y 10 3) ++
  [ymd y 12 25] ++ mondayFor (ymd y 12 25) ++ [ymd y 10 9] ++ mondayFor (ymd y 10 9)

/-- New Year in Thailand, made up for on Monday 3 January. -/
def thaiNewYear (y : Int) : List Int := [ymd y 1 1] ++ ifOn .mon (ymd y 1 3)

/-- Songkran. -/
def songkran (y : Int) : List Int := [ymd y 4 13, ymd y 4 14, ymd y 4 15]

/-- Songkran made up for when it touches a weekend. -/
def songkranLate (y : Int) : List Int := ifOn .mon (ymd y 4 16) ++ ifOn .tue (ymd y 4 16)

/-- Thailand: the solar holidays. -/
def thailandFixed (y : Int) : List Int :=
  thaiNewYear y ++ [toMonday (ymd y 4 6)] ++ songkran y ++ songkranLate y ++
  [toMonday (ymd y 5 1), toMonday (ymd y 5 4), toMonday (ymd y 6 3), toMonday (ymd y 7 28),
   toMonday (ymd y 8 12), toMonday (ymd y 10 13), toMonday (ymd y 10 23), toMonday (ymd y 12 5),
   toMonday (ymd y 12 10), ymd y 12 31] ++ ifOn .mon (ymd y 1 2)

/-- Russia, exchange: six civil holidays and the end of the year. -/
def moscowFixed (y : Int) : List Int :=
  [ymd y 2 23, toMonday (ymd y 3 8), ymd y 5 1, toMonday (ymd y 5 9), ymd y 6 12,
   toMonday (ymd y 11 4), ymd y 12 31]

/-- The first five days of January. -/
def janFirst (y : Int) : List Int := [ymd y 1 1, ymd y 1 2, ymd y 1 3, ymd y 1 4, ymd y 1 5]

/-- Russia, settlement: the first days of January and six civil holidays. -/
def russiaFixed (y : Int) : List Int :=
  janFirst y ++ [toMonday (ymd y 1 7), toMonday (ymd y 2 23),
   toMonday (ymd y 3 8), toMonday (ymd y 5 1), toMonday (ymd y 5 9), toMonday (ymd y 6 12),
   toMonday (ymd y 11 4)]

/-- SHIR: the holidays abroad. -/
def shirFixed (y : Int) : List Int :=
  [ymd y 1 1, easterSunday y - 2, onOrAfter .mon (ymd y 5 25), ymd y 12 25, ymd y 12 26]

end Verif
