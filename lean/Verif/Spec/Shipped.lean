import Verif.Model.Outcome
import Verif.Model.Calendar

/-! # Specification for the shipped calendars -/

namespace Verif

/-- Every month of year `y` has an open day among its first fifteen days and
another one after the fifteenth. -/
def HalfMonthsOpen (c : Cal) (y : Int) : Prop :=
  ∀ m, 1 ≤ m → m ≤ 12 →
    (∃ d, 1 ≤ d ∧ d ≤ 15 ∧ c (ymd y m d) = .ok true) ∧
    (∃ d, 16 ≤ d ∧ d ≤ monthLen y m ∧ c (ymd y m d) = .ok true)

end Verif

namespace Verif

/-- Day 1 (1 January of year 1) is a Monday, so Saturdays and Sundays are the days
with remainder 6 and 0. -/
def SatSun (d : Int) : Prop := d % 7 = 6 ∨ d % 7 = 0

end Verif
