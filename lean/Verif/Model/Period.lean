import Verif.Model.Date

/-! # Tenors: `/repo/src/time/period.rs` -/

namespace Verif

/-- `enum Period` (`/repo/src/time/period.rs` 30-41).  `i64`/`u32` counts are
`Int`/`Nat`; the theorems that need it bound them. -/
inductive Period where
  | on | tn | spot | sn
  | days (n : Int)
  | weeks (n : Int)
  | months (n : Nat)
  | years (n : Nat)
  deriving DecidableEq, Repr

/-- Largest number of days `chrono::Duration::try_days` accepts
(`i64::MAX` milliseconds). -/
def maxDurDays : Int := 106751991167

/-- `Duration::try_days(n).ok_or_else(|| Error::PeriodOutOfBounds(..))?`
(`/repo/src/time/period.rs` 103-105, 159-161, 164-166). -/
def tryDays (n : Int) : Outcome Int :=
  if -maxDurDays ≤ n ∧ n ≤ maxDurDays then .ok n else .fail .periodOutOfBounds

/-- `i64` arithmetic with overflow checks (debug profile): panic when out of
range.  A release build would wrap instead; that is not modelled. -/
def checkI64 (n : Int) : Outcome Int :=
  if -9223372036854775808 ≤ n ∧ n ≤ 9223372036854775807 then .ok n else .panic

/-- `u32` arithmetic with overflow checks (debug profile). -/
def checkU32 (n : Nat) : Outcome Nat :=
  if n ≤ 4294967295 then .ok n else .panic

/-- `impl Add<Period> for NaiveDate` (`/repo/src/time/period.rs` 149-174). -/
def addPeriod (d : Int) : Period → Outcome Int
  | .on => addDays d 1
  | .tn => addDays d 1
  | .spot => .ok d
  | .sn => addDays d 1
  | .days n => do addDays d (← tryDays n)
  | .weeks n => do addDays d (← tryDays (← checkI64 (n * 7)))
  | .months n => addMonths d n
  | .years n => do addMonths d (← checkU32 (n * 12))

/-- `impl Sub<Period> for NaiveDate` (`/repo/src/time/period.rs` 176-201). -/
def subPeriod (d : Int) : Period → Outcome Int
  | .on => addDays d (-1)
  | .tn => addDays d (-1)
  | .spot => .ok d
  | .sn => addDays d (-1)
  | .days n => do addDays d (-(← tryDays n))
  | .weeks n => do addDays d (-(← tryDays (← checkI64 (n * 7))))
  | .months n => addMonths d (-n)
  | .years n => do addMonths d (-(← checkU32 (n * 12)))

/-- `impl Mul<Period> for u32` (`/repo/src/time/period.rs` 203-218). -/
def mulPeriod (k : Nat) : Period → Outcome Period
  | .on => .ok .on
  | .tn => .ok .tn
  | .spot => .ok .spot
  | .sn => .ok .sn
  | .days n => do .ok (.days (← checkI64 (n * k)))
  | .weeks n => do .ok (.weeks (← checkI64 (n * k)))
  | .months n => do .ok (.months (← checkU32 (n * k)))
  | .years n => do .ok (.years (← checkU32 (n * k)))

end Verif
