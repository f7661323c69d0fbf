import Verif.Model.Calibrate
import Verif.Spec.Hlmm

/-!
# What a calibration should deliver
-/

namespace Verif

open Classical

/-- The sum of the squared differences between volatilities and quotes; a missing volatility costs
one million. -/
noncomputable def fitError (vols : List (Option ℝ)) (targets : List SmileTarget) : ℝ :=
  if none ∈ vols then 10 ^ 6
  else (List.zipWith (fun v t => (v.getD 0 - t.vol) ^ 2) vols targets).sum

/-- A volatility counts when it is positive. -/
noncomputable def positiveOnly (v : ℝ) : Option ℝ := if 0 < v then some v else none

/-- `x` moved into the interval from `a` to `b`. -/
noncomputable def clipTo (a b x : ℝ) : ℝ := max a (min x b)

/-- The nearest SABR parameters a search may start from. -/
noncomputable def sabrClip (p : Sabr) : Sabr :=
  ⟨max p.alpha (1 / 10 ^ 8), p.beta, clipTo (-(999 / 1000)) (999 / 1000) p.rho,
    max p.nu (1 / 10 ^ 8)⟩

/-- The nearest variance parameters a search may start from. -/
noncomputable def cirClip (floor : ℝ) (h : Cir) : Cir :=
  ⟨max h.kappa (floor + 1 / 10 ^ 8), max h.theta (1 / 10 ^ 8), max h.gamma (1 / 10 ^ 8),
    max h.sigma0 (1 / 10 ^ 8)⟩

/-- The nearest FX-HHW parameters a search may start from. -/
noncomputable def hhwClip (floor : ℝ) (p : HhwParams) : HhwParams :=
  { p with
    heston := cirClip floor p.heston
    correlations := { p.correlations with
      xiSigma := clipTo (-(999 / 1000)) (999 / 1000) p.correlations.xiSigma } }

/-- The same with the volatility of variance between one ten-thousandth and 0.9999 of its cap. -/
noncomputable def hhwClipBounded (floor gammaMax : ℝ) (p : HhwParams) : HhwParams :=
  { hhwClip floor p with
    heston := { (cirClip floor p.heston) with
      gamma := clipTo (gammaMax / 10 ^ 4) (gammaMax * (1 - 1 / 10 ^ 4)) p.heston.gamma } }

/-- The nearest FX-HLMM parameters a search may start from. -/
noncomputable def hlmmClip (floor : ℝ) (p : HlmmParams) : HlmmParams :=
  { p with
    heston := cirClip floor p.heston
    correlations := { p.correlations with
      xiSigma := clipTo (-(999 / 1000)) (999 / 1000) p.correlations.xiSigma } }

/-- The variance parameters make sense: all positive, mean reversion above the floor. -/
structure Cir.Above (h : Cir) (floor : ℝ) : Prop where
  kappa : floor < h.kappa
  theta : 0 < h.theta
  gamma : 0 < h.gamma
  sigma0 : 0 < h.sigma0

/-- The price at time zero of one unit at the last date of the tenor. -/
noncomputable def lastBond (t : LiborTenor) : ℝ :=
  ∏ k ∈ Finset.Icc 1 t.n, (1 + (t.T k - t.T (k - 1)) * t.L k)⁻¹

end Verif
