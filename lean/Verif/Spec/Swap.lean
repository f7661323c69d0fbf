import Verif.Model.Swap
import Verif.Spec.Calendar
import Verif.Spec.FxTrade
import Mathlib.Algebra.BigOperators.Group.List.Basic

/-!
# Specification vocabulary for swaps
-/

namespace Verif

/-- Months between coupons, by name of the frequency. -/
def couponMonths : Frequency → Option Nat
  | .annual => some 12
  | .semiannual => some 6
  | .everyFourthMonth => some 4
  | .quarterly => some 3
  | .bimonthly => some 2
  | .monthly => some 1
  | _ => none

/-- Weeks between coupons, by name of the frequency. -/
def couponWeeks : Frequency → Option Nat
  | .everyFourthWeek => some 4
  | .biweekly => some 2
  | .weekly => some 1
  | _ => none

/-- Every period starts where the previous one ends. -/
def Contiguous (l : List SchedPeriod) : Prop := l.IsChain fun a b => b.start = a.fin

/-- The same leg on the other side. -/
def SwapLeg.flip (l : SwapLeg) : SwapLeg := { l with direction := l.direction.flip }

/-- The leg with notional (and any given balances) multiplied by `a`. -/
noncomputable def SwapLeg.scale (a : ℝ) (l : SwapLeg) : SwapLeg :=
  { l with
    notional := a * l.notional
    schedule := l.schedule.map fun p => { p with amort := a * p.amort, balance := a * p.balance } }

/-- The leg paying a fixed coupon `c` instead. -/
def SwapLeg.withCoupon (l : SwapLeg) (c : ℝ) : SwapLeg := { l with kind := .fixed c }

/-- The annuity of a schedule: accruals times discount factors of the pay dates. -/
noncomputable def annuity (tau : Int → Int → ℝ) (D : Int → ℝ) (sch : List SchedPeriod) : ℝ :=
  (sch.map fun p => tau p.start p.fin * D p.pay).sum

end Verif
