import Verif.Model.Date

/-! # The computus

Independent definition of Easter: the Sunday strictly after the ecclesiastical
(paschal) full moon, which is fixed by the golden number and the epact.  The
formulas follow the usual textbook account (Reingold and Dershowitz, *Calendrical
Calculations*). -/

namespace Verif

/-- The first Sunday strictly after a day (day 7 is a Sunday). -/
def sundayAfter (d : Int) : Int := d + (7 - d % 7)

/-- Gregorian paschal full moon of a year: 19 April minus the corrected epact. -/
def paschalMoon (y : Int) : Int :=
  let century := y / 100 + 1
  let epact := (14 + 11 * (y % 19) - 3 * century / 4 + (5 + 8 * century) / 25) % 30
  let epact' := if epact = 0 ∨ (epact = 1 ∧ 10 < y % 19) then epact + 1 else epact
  ymd y 4 19 - epact'

/-- Gregorian Easter Sunday. -/
def easterSunday (y : Int) : Int := sundayAfter (paschalMoon y)

/-- Day number of 19 April in the Julian calendar. -/
def julianApril19 (y : Int) : Int :=
  365 * (y - 1) + (y - 1) / 4 - 2 + (if y % 4 = 0 then 91 else 90) + 19

/-- Julian (Orthodox) Easter Sunday. -/
def orthodoxEasterSunday (y : Int) : Int :=
  sundayAfter (julianApril19 y - (14 + 11 * (y % 19)) % 30)

end Verif
