import Verif.Model.Calibrate
import Verif.Model.FxFmm

/-!
# Calibration of the FX-FMM model

Model of `/repo/src/models/forex/fx_fmm_calibrator.rs` over the reals.  `CalibrationTarget` (40-43),
`CalibrationResult` (47-53), `softplus` (138-140), `inv_softplus` (142-145), `targets_from_grid`
(159-169) and the loops over targets and strikes are textual copies of those of the FX-HLMM
calibrator and share their models (`Model/Calibrate`).
-/

namespace Verif

open Classical

/-- `ForwardChf` for `FxFmm1ForwardChf` (`cos_pricer.rs` 80-95). -/
noncomputable def FmmChf.forwardChf (q : FmmChf) : ForwardChf :=
  ⟨fun u => outcomeValue (q.evaluate u), q.expiry, Real.log q.params.fx0, q.params.heston.theta⟩

/-- `reify_params` (`fx_fmm_calibrator.rs` 147-155). -/
noncomputable def fmmReify (base : FmmParams) (floor : ℝ) (x : Fin 5 → ℝ) : FmmParams :=
  { base with
    heston :=
      { kappa := floor + softplus (x 0), gamma := softplus (x 1), theta := softplus (x 2),
        sigma0 := softplus (x 3) }
    correlations := { base.correlations with xiSigma := Real.tanh (x 4) } }

/-- `forward_fx` (`fx_fmm_calibrator.rs` 117-119). -/
def fmmForward (p : FmmParams) (_expiry : ℝ) : ℝ := p.fx0

/-- `discount_factor` (`fx_fmm_calibrator.rs` 123-136); the loop is that of
`discount_factors_from_rates`. -/
noncomputable def fmmDiscount (p : FmmParams) (expiry : ℝ) : Outcome ℝ := do
  let q ← rateProduct p.tenor
  let tn ← unwrap p.tenor.dates[p.tenor.m]?
  if tn + 1 / 10 ^ 12 < expiry then do
    let r ← at1 p.tenor.rates p.tenor.m
    .ok (q * Real.exp (-r * (expiry - tn)))
  else .ok q

/-- The objective at given trial parameters (`fx_fmm_calibrator.rs` 85-102). -/
noncomputable def fmmObjective (fwd discount : ℝ) (trial : FmmParams) (expiry : ℝ)
    (targets : List SmileTarget) : Outcome ℝ :=
  if trial.Valid then do
    let q ← FmmChf.new trial expiry
    ssrLoop (cosVol q.forwardChf fwd expiry discount) 0 targets
  else .ok 1000000

/-- `x0` (`fx_fmm_calibrator.rs` 70-81). -/
noncomputable def fmmStart (p : FmmParams) (floor : ℝ) : Outcome (Fin 5 → ℝ) := do
  let a ← invSoftplus (max (p.heston.kappa - floor) (1 / 10 ^ 8))
  let b ← invSoftplus (max p.heston.gamma (1 / 10 ^ 8))
  let c ← invSoftplus (max p.heston.theta (1 / 10 ^ 8))
  let d ← invSoftplus (max p.heston.sigma0 (1 / 10 ^ 8))
  .ok ![a, b, c, d, rhoStart p.correlations.xiSigma]

/-- `calibrate` (`fx_fmm_calibrator.rs` 57-112). -/
noncomputable def fmmCalibrate (initial : FmmParams) (targets : List SmileTarget)
    (expiry floor : ℝ) (o : NmOptions) : Outcome (SmileFit FmmParams 5) :=
  if 0 < expiry ∧ targets ≠ [] ∧ 0 ≤ floor then do
    let discount ← fmmDiscount initial expiry
    let x0 ← fmmStart initial floor
    runFit (fun x => fmmObjective (fmmForward initial expiry) discount (fmmReify initial floor x)
      expiry targets) x0 o (fmmReify initial floor) targets
  else .panic

/-- `model_implied_vols` (`fx_fmm_calibrator.rs` 173-185). -/
noncomputable def fmmImpliedVols (p : FmmParams) (expiry : ℝ) (strikes : List ℝ) :
    Outcome (List (Option ℝ)) := do
  let q ← FmmChf.new p expiry
  let discount ← fmmDiscount p expiry
  cosVols q.forwardChf (fmmForward p expiry) expiry discount strikes

/-- `price_call` (`fx_fmm_calibrator.rs` 188-193). -/
noncomputable def fmmPriceCall (p : FmmParams) (expiry strike : ℝ) : Outcome ℝ := do
  let q ← FmmChf.new p expiry
  let discount ← fmmDiscount p expiry
  (CosPricer.new q.forwardChf).call strike discount

/-- `FxFmmSmileCalibrator::calibrate` (`fx_fmm_calibrator.rs` 206-229). -/
noncomputable def fmmSmileCalibrate (initial : FmmParams) (floor : ℝ) (m : SmileStrip)
    (o : NmOptions) : Outcome (FitReport FmmParams 5) := do
  let f ← fmmCalibrate initial m.targets m.expiryYf floor o
  .ok f.report

end Verif
