import Verif.Model.FxFmmCal
import Verif.Spec.Calibrate
import Verif.Spec.FxFmm

/-!
# Start points and the bond of the FX-FMM calibrator
-/

namespace Verif

/-- The nearest FX-FMM parameters a search may start from. -/
noncomputable def fmmClip (floor : ℝ) (p : FmmParams) : FmmParams :=
  { p with
    heston := cirClip floor p.heston
    correlations := { p.correlations with
      xiSigma := clipTo (-(999 / 1000)) (999 / 1000) p.correlations.xiSigma } }

/-- The price at time zero of one unit at the last date of the tenor. -/
noncomputable def lastRateBond (t : FmmTenor) : ℝ :=
  ∏ k ∈ Finset.Icc 1 t.m, (1 + (t.T k - t.T (k - 1)) * t.R k)⁻¹

end Verif
