import Verif.Model.Cap
import Verif.Spec.YieldCurve
import Verif.Spec.Swap
import Mathlib.MeasureTheory.Integral.IntervalIntegral.Basic

/-!
# Specification vocabulary for caps and floors
-/

namespace Verif

/-- The instantaneous volatility at time `u` of a rate compounded backwards over
`[ts, te]`: full before the period, decaying linearly to zero over it. -/
noncomputable def decayVol (sigma ts te u : ℝ) : ℝ := sigma * min 1 ((te - u) / (te - ts))

/-- The variance accumulated between `t` and the end of the period under a volatility
decaying linearly over `[ts, te]`. -/
noncomputable def accumulatedVariance (sigma ts te t : ℝ) : ℝ := ∫ u in t..te, decayVol sigma ts te u ^ 2

/-- The same deal with the other option type. -/
def CapFloor.withKind (c : CapFloor) (k : CapKind) : CapFloor := { c with kind := k }

/-- The same deal on the other side. -/
def CapFloor.flip (c : CapFloor) : CapFloor := { c with direction := c.direction.flip }

/-- The forward swap against `K`: accruals times (forward - K), discounted. -/
noncomputable def forwardSwap (tau : Int → Int → ℝ) (D : Int → ℝ) (K : ℝ) (ps : List SchedPeriod) : ℝ :=
  (ps.map fun p => tau p.start p.fin * D p.pay * ((D p.start / D p.fin - 1) / tau p.start p.fin - K)).sum

/-- The undiscounted-option floor of a cap: discounted intrinsic values. -/
noncomputable def capIntrinsic (tau : Int → Int → ℝ) (D : Int → ℝ) (K : ℝ) (ps : List SchedPeriod) : ℝ :=
  (ps.map fun p =>
    tau p.start p.fin * D p.pay * max ((D p.start / D p.fin - 1) / tau p.start p.fin - K) 0).sum

end Verif
