import Verif.Model.DayCount
import Verif.Model.Period
import Mathlib.Algebra.Order.Floor.Ring
import Mathlib.Data.Rat.Floor

/-!
# From a year fraction back to a date

Model of the default method `year_fraction_to_date` of `/repo/src/time/daycounters.rs` over the
rationals.
-/

namespace Verif

/-- `f64::round`: to the nearest integer, halves away from zero. -/
def roundAway (x : ℚ) : Int := if 0 ≤ x then ⌊x + 1 / 2⌋ else ⌈x - 1 / 2⌉

/-- `DayCounters::year_fraction_to_date` (`daycounters.rs` 21-25).  The cast `as i64` saturates;
beyond the range of `i64` the tenor is out of bounds either way. -/
def yearFractionToDate (c : DayCounter) (ref : Int) (t : ℚ) : Outcome Int := do
  let guess ← addPeriod ref (.days (roundAway (t * (1461 / 4))))
  let time ← c.yearFraction ref guess
  addPeriod guess (.days (roundAway ((t - time) * (1461 / 4))))

end Verif
