import Verif.Model.YieldCurve
import Verif.Model.Names
import Verif.Model.FxTrade

/-!
# Interest-rate swaps

Model of `/repo/src/derivatives/interestrate/swap.rs` over the real numbers.  The day
counter of a leg is a pair of arbitrary functions (`day_count`, `year_fraction`).  The
fields of `InterestRateCashflow` other than `present_value` are not read by the pricers
and are left out.  Fields `settlement_days` of `ScheduleDetail` and `frequency` of the
index are never read.
-/

namespace Verif

open Classical

/-- `InterestRateSwapLegType` (`swap.rs` 23-27). -/
inductive LegKind where
  | float (spread : ℝ)
  | fixed (coupon : ℝ)

/-- `InterestRateSchedulePeriod` (`swap.rs` 194-202). -/
structure SchedPeriod where
  start : Int
  fin : Int
  pay : Int
  reset : Int
  amort : ℝ
  balance : ℝ

/-- `InterestRateSwapLeg` with its `ScheduleDetail` (`swap.rs` 29-42, 71-79). -/
structure SwapLeg where
  kind : LegKind
  direction : Direction
  index : RateIndex
  currency : Ccy
  notional : ℝ
  frequency : Frequency
  tenor : Period
  duration : Period
  dayCount : Int → Int → Outcome Int
  yearFraction : Int → Int → Outcome ℝ
  calendar : Cal
  convention : Bdc
  payDelay : Int
  daysBefore : Int
  schedule : List SchedPeriod

/-- `InterestRateSwapLeg::effective_date` (`swap.rs` 100-107), unwrapped as at all call
sites (the `Option` is always `Some`). -/
def SwapLeg.effectiveDate (l : SwapLeg) (val : Int) : Outcome Int :=
  advance l.calendar val (.days l.index.settlementDays) l.convention l.index.endOfMonth

/-- `num as u32` for `Days`/`Weeks`, the count for `Months`/`Years`, 1 otherwise
(`swap.rs` 131-140). -/
def periodNum : Period → Nat
  | .days n => (n % 4294967296).toNat
  | .weeks n => (n % 4294967296).toNat
  | .months n => n
  | .years n => n
  | _ => 1

/-- One pass of the loop of `generate_schedule` (`swap.rs` 149-185). -/
def SwapLeg.nthPeriod (l : SwapLeg) (eff : Int) (n : Nat) (start : Int) : Outcome SchedPeriod := do
  let p ← match l.frequency.period with
    | some p => .ok p
    | none => .panic
  let e ← advance l.calendar eff (← mulPeriod n p) l.convention l.index.endOfMonth
  let pay ← advance l.calendar e (.days l.payDelay) l.convention false
  let reset ← advance l.calendar start (.days (← checkI64 (-l.daysBefore))) l.convention false
  .ok ⟨start, e, pay, reset, l.notional, l.notional⟩

/-- The loop of `generate_schedule` (`swap.rs` 148-186): `k` periods from number `n` on. -/
def SwapLeg.genPeriods (l : SwapLeg) (eff : Int) : Nat → Nat → Int → Outcome (List SchedPeriod)
  | 0, _, _ => .ok []
  | k + 1, n, start => do
    let p ← l.nthPeriod eff n start
    let rest ← l.genPeriods eff k (n + 1) p.fin
    .ok (p :: rest)

/-- `InterestRateSwapLeg::generate_schedule` (`swap.rs` 123-191).  `div_euclid` by zero and
`num + 1` beyond `u32` panic. -/
def SwapLeg.generateSchedule (l : SwapLeg) (val : Int) : Outcome (List SchedPeriod) :=
  match l.schedule with
  | [] => do
    let eff ← l.effectiveDate val
    let t := periodNum l.tenor
    let d := periodNum l.duration
    if t = 0 then .panic
    else do
      let _ ← checkU32 (d / t + 1)
      l.genPeriods eff (d / t) 1 eff
  | s :: ss => .ok (s :: ss)

/-- `calculate_period_cashflow(..).present_value` (`swap.rs` 313-367). -/
noncomputable def SwapLeg.cashflow (l : SwapLeg) (p : SchedPeriod) (cv : Curve) : Outcome ℝ := do
  let _ ← l.dayCount p.start p.fin
  let yf ← l.yearFraction p.start p.fin
  let rate ← match l.kind with
    | .fixed c => .ok c
    | .float s => do
      let ds ← cv.discount p.start
      let de ← cv.discount p.fin
      .ok ((ds / de - 1) / yf + s)
  let discount ← cv.discount p.pay
  let payment := rate * yf * p.balance
  .ok (payment * discount * l.direction.sign)

/-- The inner loop of `npv` (`swap.rs` 295-298), adding onto `acc`. -/
noncomputable def SwapLeg.addCashflows (l : SwapLeg) (cv : Curve) :
    List SchedPeriod → ℝ → Outcome ℝ
  | [], acc => .ok acc
  | p :: ps, acc => do
    let v ← l.cashflow p cv
    l.addCashflows cv ps (acc + v)

/-- The outer loop of `InterestRateSwap::npv` (`swap.rs` 289-309). -/
noncomputable def npvLegs (val : Int) (cv : Curve) : List SwapLeg → ℝ → Outcome ℝ
  | [], acc => .ok acc
  | l :: ls, acc => do
    let sch ← l.generateSchedule val
    let a ← l.addCashflows cv sch acc
    let a ← match sch.getLast? with
      | some last => do
        let df ← cv.discount last.pay
        .ok (a + last.balance * df * l.direction.sign)
      | none => .ok a
    npvLegs val cv ls a

/-- `InterestRateSwap` (`swap.rs` 224-227). -/
structure Swap where
  legs : List SwapLeg

/-- `InterestRateSwap::npv` (`swap.rs` 283-311). -/
noncomputable def Swap.npv (s : Swap) (val : Int) (cv : Curve) : Outcome ℝ := npvLegs val cv s.legs 0

/-- One period of `pv_under_shift` (`swap.rs` 402-420). -/
noncomputable def SwapLeg.shiftedCashflow (l : SwapLeg) (p : SchedPeriod) (cv : Curve) (bp : ℝ) :
    Outcome ℝ := do
  let yf ← l.yearFraction p.start p.fin
  let rate ← match l.kind with
    | .fixed c => .ok c
    | .float s => do
      let ds ← cv.shiftedDiscount p.start bp
      let de ← cv.shiftedDiscount p.fin bp
      .ok ((ds / de - 1) / yf + s)
  let df ← cv.shiftedDiscount p.pay bp
  let payment := rate * yf * p.balance
  .ok (payment * df * l.direction.sign)

/-- The inner loop of `pv_under_shift` (`swap.rs` 402-420). -/
noncomputable def SwapLeg.addShifted (l : SwapLeg) (cv : Curve) (bp : ℝ) :
    List SchedPeriod → ℝ → Outcome ℝ
  | [], acc => .ok acc
  | p :: ps, acc => do
    let v ← l.shiftedCashflow p cv bp
    l.addShifted cv bp ps (acc + v)

/-- The outer loop of `pv_under_shift` (`swap.rs` 396-428). -/
noncomputable def shiftedLegs (val : Int) (cv : Curve) (bp : ℝ) : List SwapLeg → ℝ → Outcome ℝ
  | [], acc => .ok acc
  | l :: ls, acc => do
    let sch ← l.generateSchedule val
    let a ← l.addShifted cv bp sch acc
    let a ← match sch.getLast? with
      | some last => do
        let df ← cv.shiftedDiscount last.pay bp
        .ok (a + last.balance * df * l.direction.sign)
      | none => .ok a
    shiftedLegs val cv bp ls a

/-- `InterestRateSwap::pv_under_shift` (`swap.rs` 388-430). -/
noncomputable def Swap.pvUnderShift (s : Swap) (val : Int) (cv : Curve) (bp : ℝ) : Outcome ℝ :=
  shiftedLegs val cv bp s.legs 0

/-- `InterestRateSwap::currency` (`swap.rs` 373-378). -/
def Swap.currency (s : Swap) : Outcome Ccy :=
  match s.legs with
  | [] => .fail .invalidData
  | l :: _ => .ok l.currency

/-- `mtm` (`swap.rs` 434-440); the market context is its valuation date and curve. -/
noncomputable def Swap.mtm (s : Swap) (val : Int) (cv : Curve) : Outcome CurrencyValue := do
  let pv ← s.pvUnderShift val cv 0
  .ok ⟨← s.currency, pv⟩

/-- `dv01` (`swap.rs` 444-448). -/
noncomputable def Swap.dv01 (s : Swap) (val : Int) (cv : Curve) : Outcome ℝ := do
  let base ← s.pvUnderShift val cv 0
  let up ← s.pvUnderShift val cv 1
  .ok (up - base)

/-- `RateShiftMode` (`/repo/src/derivatives/interestrate/basic.rs` 66-80). -/
inductive RateShiftMode where
  | zeros | instruments | forwards | swaps
  deriving DecidableEq

/-- `gamma` (`swap.rs` 455-474). -/
noncomputable def Swap.gamma (s : Swap) (val : Int) (cv : Curve) (bp : ℝ) (mode : RateShiftMode) :
    Outcome ℝ :=
  match mode with
  | .zeros => do
    let base ← s.pvUnderShift val cv 0
    let up ← s.pvUnderShift val cv bp
    let down ← s.pvUnderShift val cv (-bp)
    .ok (up + down - 2 * base)
  | _ => .fail .invalidData

/-- `vega` (`swap.rs` 480-482). -/
def Swap.vega (_s : Swap) (_val : Int) (_cv : Curve) (_bp : ℝ) : Outcome ℝ := .ok 0

/-- `InterestRateSwap::settle_date` (`swap.rs` 490-496). -/
def Swap.settleDate (s : Swap) (val : Int) : Outcome Int :=
  match s.legs with
  | [] => .ok val
  | l :: _ => l.effectiveDate val

/-- The end dates collected by `maturity_date` (`swap.rs` 499-507): an empty schedule
panics. -/
def lastEnds (val : Int) : List SwapLeg → Outcome (List Int)
  | [] => .ok []
  | l :: ls => do
    let sch ← l.generateSchedule val
    match sch.getLast? with
    | none => .panic
    | some p => do
      let rest ← lastEnds val ls
      .ok (p.fin :: rest)

/-- `InterestRateSwap::maturity_date` (`swap.rs` 498-515). -/
def Swap.maturityDate (s : Swap) (val : Int) : Outcome Int := do
  let ends ← lastEnds val s.legs
  .ok (match ends with
    | [] => val
    | e :: es => es.foldl max e)

end Verif
