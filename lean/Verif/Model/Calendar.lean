import Verif.Model.Period

/-!
# The `Calendar` trait: `/repo/src/time/calendars.rs` 160-338

A calendar is its `is_business_day` method, a function from days to
`Outcome Bool` (`panic` when the implementation panics, e.g. the Easter tables
outside 1901-2199).  The provided methods of the trait are modelled for an
arbitrary such function.

Day-stepping loops (`while self.is_holiday(d) { d += ONE_DAY }`) stop at the
latest when chrono's addition panics at the end of the representable range; the
models are recursive in the number of representable days that are left.
-/

namespace Verif

/-- A calendar: `Calendar::is_business_day` (`/repo/src/time/calendars.rs` 202). -/
abbrev Cal := Int → Outcome Bool

/-- `while self.is_holiday(d) { d += ONE_DAY; } d`
(`/repo/src/time/calendars.rs` 219-221, `/repo/src/time/period.rs` 115-117,
140-142); `fuel` is the number of representable days from `d` on. -/
def rollFwdFuel (c : Cal) : Nat → Int → Outcome Int
  | 0, _ => .panic
  | k + 1, d => do
    if (← c d) then .ok d else rollFwdFuel c k (d + 1)

/-- The forward rolling loop started at `d`. -/
def rollFwd (c : Cal) (d : Int) : Outcome Int := rollFwdFuel c (maxDay - d + 1).toNat d

/-- `while self.is_holiday(d) { d -= ONE_DAY; } d`
(`/repo/src/time/calendars.rs` 183-185, 236-238). -/
def rollBackFuel (c : Cal) : Nat → Int → Outcome Int
  | 0, _ => .panic
  | k + 1, d => do
    if (← c d) then .ok d else rollBackFuel c k (d - 1)

/-- The backward rolling loop started at `d`. -/
def rollBack (c : Cal) (d : Int) : Outcome Int := rollBackFuel c (d - minDay + 1).toNat d

/-- The loop of the `Nearest` branch (`/repo/src/time/calendars.rs` 243-247):
`while is_holiday(d1) && is_holiday(d2) { d1 += 1; d2 -= 1 }`, returning the
final `(d1, d2)`.  `&&` short-circuits, so `d2` is only classified when `d1` is a
holiday. -/
def nearestFuel (c : Cal) : Nat → Int → Int → Outcome (Int × Int)
  | 0, _, _ => .panic
  | k + 1, d1, d2 => do
    if (← c d1) then .ok (d1, d2)
    else if (← c d2) then .ok (d1, d2)
    else nearestFuel c k (d1 + 1) (d2 - 1)

/-- `enum BusinessDayConvention` (`/repo/src/time/businessdayconvention.rs` 5-13). -/
inductive Bdc where
  | following | modifiedFollowing | halfMonthModifiedFollowing
  | preceding | modifiedPreceding | unadjusted | nearest
  deriving DecidableEq, Repr

/-- `Calendar::adjust` (`/repo/src/time/calendars.rs` 208-258).  The Rust function
returns `Option`; its `None` branch (line 254) is unreachable because the
preceding tests cover every convention, so the model returns the date itself. -/
def adjust (c : Cal) (date : Int) : Bdc → Outcome Int
  | .unadjusted => .ok date
  | .following => rollFwd c date
  | .modifiedFollowing => do
    let d1 ← rollFwd c date
    if monthOf d1 ≠ monthOf date then rollBack c date else .ok d1
  | .halfMonthModifiedFollowing => do
    let d1 ← rollFwd c date
    if monthOf d1 ≠ monthOf date then rollBack c date
    else if dayOf date ≤ 15 ∧ dayOf d1 > 15 then rollBack c date
    else .ok d1
  | .preceding => rollBack c date
  | .modifiedPreceding => do
    let d1 ← rollBack c date
    if monthOf d1 ≠ monthOf date then rollFwd c date else .ok d1
  | .nearest => do
    let (d1, d2) ← nearestFuel c (min (maxDay - date) (date - minDay) + 1).toNat date date
    if (← c d1) then .ok d2 else .ok d1

/-- `Calendar::last_day_of_month` (`/repo/src/time/calendars.rs` 172-179).  The
argument of `unwrap_or` is evaluated eagerly, so the function panics for every
date of the last representable year. -/
def lastDayOfMonth (date : Int) : Outcome Int := do
  let fallback ← unwrap (fromYmdOpt (yearOf date + 1) 1 1)
  let first := (fromYmdOpt (yearOf date) (monthOf date + 1) 1).getD fallback
  addDays first (-1)

/-- `Calendar::end_of_month` (`/repo/src/time/calendars.rs` 181-187). -/
def endOfMonth (c : Cal) (date : Int) : Outcome Int := do
  rollBack c (← lastDayOfMonth date)

/-- Forward business-day stepping of `advance`
(`/repo/src/time/calendars.rs` 285-293). -/
def advanceFwd (c : Cal) : Nat → Int → Outcome Int
  | 0, d => .ok d
  | n + 1, d => do
    advanceFwd c n (← rollFwd c (← addPeriod d (.days 1)))

/-- Backward business-day stepping of `advance`
(`/repo/src/time/calendars.rs` 295-303). -/
def advanceBack (c : Cal) : Nat → Int → Outcome Int
  | 0, d => .ok d
  | n + 1, d => do
    advanceBack c n (← rollBack c (← subPeriod d (.days 1)))

/-- `Calendar::advance` (`/repo/src/time/calendars.rs` 260-310); `eom` is
`end_of_month.unwrap_or(false)`. -/
def advance (c : Cal) (date : Int) (p : Period) (bdc : Bdc) (eom : Bool) : Outcome Int :=
  match p with
  | .months n => do
    let a ← adjust c (← addPeriod date (.months n)) bdc
    if eom then endOfMonth c a else .ok a
  | .years n => do
    let a ← adjust c (← addPeriod date (.years n)) bdc
    if eom then endOfMonth c a else .ok a
  | .days n =>
    if n = 0 then adjust c date bdc
    else if 0 < n then advanceFwd c n.toNat date
    else advanceBack c (-n).toNat date
  | p => do adjust c (← addPeriod date p) bdc

/-- The counting loop of `business_days_between`
(`/repo/src/time/calendars.rs` 327-335): classify `n` successive days from `d`.
chrono's `iter_days` stops before `NaiveDate::MAX`. -/
def countLoop (c : Cal) : Nat → Int → Outcome Int
  | 0, _ => .ok 0
  | n + 1, d =>
    if d < maxDay then do
      let b ← c d
      let r ← countLoop c n (d + 1)
      .ok ((if b then 1 else 0) + r)
    else .ok 0

/-- `x as usize` for an `i64` on a 64-bit target: reduction modulo 2^64. -/
def asUsize (x : Int) : Nat := (x % 18446744073709551616).toNat

/-- Body of `business_days_between` for `from ≤ to`
(`/repo/src/time/calendars.rs` 322-336). -/
def bdbOrdered (c : Cal) (a b : Int) (inclFirst inclLast : Bool) : Outcome Int := do
  let hi ← addDays b (if inclLast then 1 else 0)
  let lo ← addDays a (if inclFirst then 1 else 0)
  countLoop c (asUsize (hi - lo)) lo

/-- `Calendar::business_days_between` (`/repo/src/time/calendars.rs` 312-337); the
flags are after `unwrap_or` (`include_first` defaults to `true`, `include_last` to
`false`). -/
def businessDaysBetween (c : Cal) (a b : Int) (inclFirst inclLast : Bool) : Outcome Int :=
  if a > b then (fun r => -r) <$> bdbOrdered c b a inclFirst inclLast
  else bdbOrdered c a b inclFirst inclLast

/-- `Period::settlement_date_with_lag` (`/repo/src/time/period.rs` 97-119).  The
Rust code calls `end_of_month` a second time with the same argument; being a pure
function its value is reused here. -/
def settlementDateWithLag (p : Period) (val : Int) (c : Cal) (lag : Int) : Outcome Int := do
  let off ← tryDays lag
  let target ← match p with
    | .on => .ok val
    | .tn => addDays val 1
    | _ => addDays val off
  let s ← addPeriod target p
  let e ← endOfMonth c s
  rollFwd c (if s ≥ e then e else s)

/-- `Period::settlement_date` (`/repo/src/time/period.rs` 62-68). -/
def settlementDate (p : Period) (val : Int) (c : Cal) : Outcome Int :=
  settlementDateWithLag p val c 2

/-- `Period::near_date_with_lag` (`/repo/src/time/period.rs` 122-146). -/
def nearDateWithLag (p : Period) (val : Int) (c : Cal) (lag : Int) : Outcome (Option Int) := do
  let off ← tryDays lag
  match p with
  | .on => do .ok (some (← rollFwd c val))
  | .tn => do .ok (some (← rollFwd c (← addDays val 1)))
  | .sn => do .ok (some (← rollFwd c (← addDays val off)))
  | _ => .ok none

/-- `Period::near_date` (`/repo/src/time/period.rs` 87-93). -/
def nearDate (p : Period) (val : Int) (c : Cal) : Outcome (Option Int) :=
  nearDateWithLag p val c 2

/-- `JointCalendar::is_business_day` (`/repo/src/time/calendars/jointcalendar.rs`
19-29): the first closed member stops the loop. -/
def joint : List Cal → Cal
  | [], _ => .ok true
  | c :: cs, d => do
    if (← c d) then joint cs d else .ok false

/-- `Calendar::is_weekend` (`/repo/src/time/calendars.rs` 197-200). -/
def isWeekend (d : Int) : Bool := weekdayOf d == .sat || weekdayOf d == .sun

/-- `WeekendsOnly::is_business_day` (`/repo/src/time/calendars/weekendsonly.rs`
11-15). -/
def weekendsOnly : Cal := fun d => .ok (!isWeekend d)

end Verif
