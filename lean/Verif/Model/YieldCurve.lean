import Verif.Model.Calendar
import Verif.Model.Imm
import Mathlib.Analysis.SpecialFunctions.Log.Basic

/-!
# Yield curves

Model of `YieldTermStructure`, `StrippedCurve` and the curve lookups
(`/repo/src/markets/termstructures/yieldcurve.rs`) and of the cash and futures quotes
(`yieldcurve/oisratehelper.rs`, `yieldcurve/ratehelper.rs`).  Rates and discount
factors are real numbers; a division by zero, which yields NaN or an infinity in the
crate, is excluded by hypotheses in the theorems.  The calendar, day counter and
interpolation-method fields of `YieldTermStructure` are never read by the modelled
functions (`zero_rate` maps both interpolation methods to the same code, lines
247-260), so they are left out.
-/

namespace Verif

open Classical

/-- `InterestRateQuoteEnum` (`yieldcurve.rs` 31-36). -/
inductive QuoteKind where
  | ois | futures | swap
  deriving DecidableEq

/-- `StrippedCurve` (`yieldcurve.rs` 78-88): one pillar of the curve. -/
structure Pillar where
  firstSettle : Int
  date : Int
  marketRate : ℝ
  zeroRate : ℝ
  discount : ℝ
  source : QuoteKind
  hidden : Bool

/-- `YieldTermStructure` (`yieldcurve.rs` 195-201), reduced to the fields that are read. -/
structure Curve where
  valuation : Int
  pillars : List Pillar

/-- `Actual365Fixed::default().year_fraction` (`daycounters/actual365fixed.rs` 18-21,
48-50) as a real number. -/
noncomputable def yf365 (a b : Int) : ℝ := ((b - a : Int) : ℝ) / 365

/-- The first loop of `step_function_forward_zero_rate` (`yieldcurve.rs` 224-230): walk
to the first visible pillar on or after `target`, remembering the pillar passed just
before. -/
def scanPillars (target : Int) : Pillar → List Pillar → Pillar × Option Pillar
  | first, [] => (first, none)
  | first, s :: rest =>
    if target ≤ s.date ∧ s.hidden = false then (first, some s) else scanPillars target s rest

/-- `step_function_forward_zero_rate` (`yieldcurve.rs` 219-244).  `target` is the day
after `date`; when no visible pillar lies on or after it, `second` stays the first
pillar of the list.  The test `second == true_first` compares all fields. -/
noncomputable def Curve.zeroRate (cv : Curve) (date : Int) : Outcome ℝ := do
  let target ← addDays date 1
  match cv.pillars with
  | [] => .panic
  | p0 :: rest =>
    let sc := scanPillars target p0 (p0 :: rest)
    let first := sc.1
    let second := sc.2.getD p0
    let trueFirst := ((p0 :: rest).find? fun p => !p.hidden).getD p0
    if second = trueFirst then .ok trueFirst.zeroRate
    else
      let d1 : ℝ := ((target - first.date : Int) : ℝ)
      let d2 : ℝ := ((second.date - target : Int) : ℝ)
      .ok ((d1 * second.zeroRate + d2 * first.zeroRate) / (d1 + d2))

/-- `discount` (`yieldcurve.rs` 262-270). -/
noncomputable def Curve.discount (cv : Curve) (date : Int) : Outcome ℝ := do
  let z ← cv.zeroRate date
  .ok (Real.exp (-z * yf365 cv.valuation date))

/-- `shifted_discount` (`yieldcurve.rs` 279-288). -/
noncomputable def Curve.shiftedDiscount (cv : Curve) (date : Int) (shiftBp : ℝ) : Outcome ℝ := do
  let base ← cv.discount date
  .ok (base * Real.exp (-shiftBp * (1 / 10000) * yf365 cv.valuation date))

/-- `forward_rate` (`yieldcurve.rs` 291-310). -/
noncomputable def Curve.forwardRate (cv : Curve) (start : Int) (tenor : Period) : Outcome ℝ := do
  let fin ← addPeriod start tenor
  let t1 := yf365 cv.valuation start
  let t2 := yf365 cv.valuation fin
  let z1 ← cv.zeroRate start
  let z2 ← cv.zeroRate fin
  .ok (Real.log (Real.exp (-z1 * t1) / Real.exp (-z2 * t2)) / (t2 - t1))

/-- `InterestRateIndex` (`/repo/src/markets/interestrate/interestrateindex.rs` 24-33):
the fields used by the quotes.  The currency is not used by them; the day counter is
an arbitrary function. -/
structure RateIndex where
  period : Period
  settlementDays : Int
  calendar : Cal
  convention : Bdc
  yearFraction : Int → Int → Outcome ℝ
  endOfMonth : Bool

/-- `OISRate` (`oisratehelper.rs` 11-15). -/
structure OisRate where
  value : ℝ
  index : RateIndex

/-- `OISRate::settle_date` (`oisratehelper.rs` 44-54). -/
def OisRate.settleDate (q : OisRate) (val : Int) : Outcome Int :=
  advance q.index.calendar val (.days q.index.settlementDays) q.index.convention q.index.endOfMonth

/-- `OISRate::maturity_date` (`oisratehelper.rs` 55-65). -/
def OisRate.maturityDate (q : OisRate) (val : Int) : Outcome Int := do
  let s ← q.settleDate val
  advance q.index.calendar s q.index.period q.index.convention q.index.endOfMonth

/-- `OISRate::zero_rate` (`oisratehelper.rs` 26-37). -/
noncomputable def OisRate.zeroRate (q : OisRate) (val : Int) : Outcome ℝ := do
  let s ← q.settleDate val
  let m ← q.maturityDate val
  let tau ← q.index.yearFraction s m
  let yf := yf365 s m
  let discount := 1 / (1 + tau * q.value)
  .ok (-(Real.log discount) / yf)

/-- `OISRate::discount` (`oisratehelper.rs` 18-24). -/
noncomputable def OisRate.discount (q : OisRate) (val : Int) : Outcome ℝ := do
  let z ← q.zeroRate val
  let m ← q.maturityDate val
  .ok (Real.exp (-z * yf365 val m))

end Verif
