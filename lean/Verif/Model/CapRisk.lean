import Verif.Model.Cap

/-!
# The closed-form vega of a cap

Model of `analytic_vega_1bp` of `/repo/src/derivatives/interestrate/cap.rs` over the reals.  The
other risk figures are in `Model/Cap`.
-/

namespace Verif

open Classical

/-- `t_var` (`cap.rs` 214-224). -/
noncomputable def capletTimeVar (style : CapStyle) (yfStart yfEnd : ℝ) : ℝ :=
  match style with
  | .forwardLooking => max yfStart 0
  | .backwardCompounded =>
    let d := yfEnd - yfStart
    if 0 ≤ yfStart then yfStart + d / 3 else yfEnd ^ 3 / (3 * d * d)

/-- The loop of `analytic_vega_1bp` (`cap.rs` 203-234), adding onto `acc`. -/
noncomputable def CapFloor.addVegas (c : CapFloor) (cv : Curve) (vs : List CapletPillar) :
    List SchedPeriod → ℝ → Outcome ℝ
  | [], acc => .ok acc
  | p :: ps, acc => do
    let m ← c.market p cv vs 0 0
    if m.variance ≤ 0 then c.addVegas cv vs ps acc
    else do
      let sigma ← capletVolatility vs p.start c.strike
      if sigma ≤ 0 then c.addVegas cv vs ps acc
      else
        let tVar := capletTimeVar c.style (yf365 c.valuation p.start) (yf365 c.valuation p.fin)
        let dvDsigma := 2 * sigma * tVar
        let vegaPerV := bachelierVegaVariance m.forward c.strike m.variance
        c.addVegas cv vs ps
          (acc + c.direction.sign * c.notional * m.tau * m.dfPay * vegaPerV * dvDsigma * (1 / 10000))

/-- `analytic_vega_1bp` (`cap.rs` 196-236). -/
noncomputable def CapFloor.analyticVega (c : CapFloor) (cv : Curve) (vs : List CapletPillar) :
    Outcome ℝ := c.addVegas cv vs c.schedule 0

end Verif
