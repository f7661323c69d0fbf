import Verif.Model.Calendar

/-! # Names of frequencies and business-day conventions
`/repo/src/time/frequency.rs`, `/repo/src/time/businessdayconvention.rs` -/

namespace Verif

/-- `enum Frequency` (`frequency.rs` 8-22). -/
inductive Frequency where
  | noFrequency | once | annual | semiannual | everyFourthMonth | quarterly | bimonthly
  | monthly | everyFourthWeek | biweekly | weekly | daily | other
  deriving DecidableEq, Repr

/-- The discriminants (`#[repr(i16)]`, `frequency.rs` 9-21). -/
def Frequency.toInt : Frequency → Int
  | .noFrequency => -1 | .once => 0 | .annual => 1 | .semiannual => 2 | .everyFourthMonth => 3
  | .quarterly => 4 | .bimonthly => 6 | .monthly => 12 | .everyFourthWeek => 13
  | .biweekly => 26 | .weekly => 52 | .daily => 365 | .other => 999

/-- `Frequency::name` (`frequency.rs` 25-41). -/
def Frequency.name : Frequency → String
  | .noFrequency => "No-Frequency" | .once => "Once" | .annual => "Annual"
  | .semiannual => "Semiannual" | .everyFourthMonth => "Every-Fourth-Month"
  | .quarterly => "Quarterly" | .bimonthly => "Bimonthly" | .monthly => "Monthly"
  | .everyFourthWeek => "Every-Fourth-Week" | .biweekly => "Biweekly" | .weekly => "Weekly"
  | .daily => "Daily" | .other => "Unknown Frequency"

/-- `Frequency::period` (`frequency.rs` 43-59). -/
def Frequency.period : Frequency → Option Period
  | .noFrequency => some .on | .once => none | .annual => some (.years 1)
  | .semiannual => some (.months 6) | .everyFourthMonth => some (.months 4)
  | .quarterly => some (.months 3) | .bimonthly => some (.months 2)
  | .monthly => some (.months 1) | .everyFourthWeek => some (.weeks 4)
  | .biweekly => some (.weeks 2) | .weekly => some (.weeks 1) | .daily => some (.days 1)
  | .other => none

/-- `Frequency::from_code` (`frequency.rs` 61-76). -/
def Frequency.fromCode (s : String) : Option Frequency :=
  if s = "Once" then some .noFrequency
  else if s = "Annual" then some .annual
  else if s = "Semiannual" then some .semiannual
  else if s = "EveryFourthMonth" ∨ s = "Every-Fourth-Month" then some .everyFourthMonth
  else if s = "Quarterly" then some .quarterly
  else if s = "Bimonthly" then some .bimonthly
  else if s = "Monthly" then some .monthly
  else if s = "EveryFourthWeek" ∨ s = "Every-Fourth-Week" then some .everyFourthWeek
  else if s = "Biweekly" then some .biweekly
  else if s = "Weekly" then some .weekly
  else if s = "Daily" then some .daily
  else none

/-- `BusinessDayConvention::name` (`businessdayconvention.rs` 16-26). -/
def Bdc.name : Bdc → String
  | .following => "Following" | .modifiedFollowing => "Modified Following"
  | .halfMonthModifiedFollowing => "Half-Month Modified Following"
  | .preceding => "Preceding" | .modifiedPreceding => "Modified Preceding"
  | .unadjusted => "Unadjusted" | .nearest => "Nearest"

/-- `BusinessDayConvention::from_code` (`businessdayconvention.rs` 28-46). -/
def Bdc.fromCode (s : String) : Option Bdc :=
  if s = "Following" then some .following
  else if s = "Modified Following" ∨ s = "ModifiedFollowing" then some .modifiedFollowing
  else if s = "Half-Month Modified Following" ∨ s = "HalfMonthModifiedFollowing" then
    some .halfMonthModifiedFollowing
  else if s = "Preceding" then some .preceding
  else if s = "Modified Preceding" ∨ s = "ModifiedPreceding" then some .modifiedPreceding
  else if s = "Unadjusted" then some .unadjusted
  else if s = "Nearest" then some .nearest
  else none

end Verif
