import Verif.Model.Optimize
import Verif.Model.Sabr
import Verif.Model.Cos
import Verif.Model.Options
import Verif.Model.Hlmm
import Verif.Model.FxVol
import Verif.Model.DayCount
import Mathlib.Analysis.SpecialFunctions.Artanh
import Mathlib.Data.Fin.VecNotation

/-!
# Smile calibration

Model of `/repo/src/models/forex/{sabr_calibrator,fx_hhw_calibrator,fx_hlmm_calibrator}.rs` and
`/repo/src/models/forex/market_data.rs` over the reals.  An objective that panics is passed to
`nelderMead` as `none`; the theorems show that this does not happen.  The helpers `softplus`,
`inv_softplus`, `reify_params` are textual copies in each calibrator; the copies are modelled
once.  Values are finite: the `is_finite` tests always succeed.
-/

namespace Verif

open Classical

/-- `CalibrationTarget` (`sabr_calibrator.rs` 25-28, `fx_hhw_calibrator.rs` 35-38,
`fx_hlmm_calibrator.rs` 28-31). -/
structure SmileTarget where
  strike : ℝ
  vol : ℝ

/-- `CalibrationResult` (`sabr_calibrator.rs` 32-37, `fx_hhw_calibrator.rs` 42-48,
`fx_hlmm_calibrator.rs` 35-41). -/
structure SmileFit (P : Type) (n : ℕ) where
  params : P
  rmse : ℝ
  optimiser : NmResult n

/-- `softplus` (`fx_hhw_calibrator.rs` 196-199, `sabr_calibrator.rs` 86-88,
`fx_hlmm_calibrator.rs` 130-132). -/
noncomputable def softplus (x : ℝ) : ℝ := if 35 < x then x else Real.log (1 + Real.exp x)

/-- `inv_softplus` (`fx_hhw_calibrator.rs` 201-205, `sabr_calibrator.rs` 90-93,
`fx_hlmm_calibrator.rs` 134-137). -/
noncomputable def invSoftplus (y : ℝ) : Outcome ℝ :=
  if 0 < y then .ok (if 35 < y then y else Real.log (Real.exp y - 1)) else .panic

/-- The start value of a correlation, `rho.clamp(-0.999, 0.999).atanh()`
(`fx_hhw_calibrator.rs` 79-83, `sabr_calibrator.rs` 55, `fx_hlmm_calibrator.rs` 67-71). -/
noncomputable def rhoStart (rho : ℝ) : ℝ := Real.artanh (max (-(999 / 1000)) (min rho (999 / 1000)))

/-- `targets_from_grid` (`fx_hhw_calibrator.rs` 219-229, `sabr_calibrator.rs` 115-125,
`fx_hlmm_calibrator.rs` 150-160). -/
noncomputable def targetsFromGrid (strikes vols : List ℝ) : Outcome (List SmileTarget) :=
  if strikes.length = vols.length then .ok ((strikes.zip vols).map fun q => ⟨q.1, q.2⟩) else .panic

/-- `iter().map(f).collect()` as in `model_implied_vols` (`sabr_calibrator.rs` 134-137,
`fx_hhw_calibrator.rs` 239-245, `fx_hlmm_calibrator.rs` 168-174) and `smile_strip`
(`market_data.rs` 65-68): from left to right, up to the first failure. -/
def collectAll {α : Type} (f : ℝ → Outcome α) : List ℝ → Outcome (List α)
  | [] => .ok []
  | k :: ks => do
    let v ← f k
    let vs ← collectAll f ks
    .ok (v :: vs)

/-- The loop over the targets in the objectives (`fx_hhw_calibrator.rs` 92-102,
`fx_hlmm_calibrator.rs` 84-92, `sabr_calibrator.rs` 66-72): `none` is a volatility that does not
exist, on which the objective returns the penalty. -/
noncomputable def ssrLoop (vol : ℝ → Outcome (Option ℝ)) : ℝ → List SmileTarget → Outcome ℝ
  | ssr, [] => .ok ssr
  | ssr, t :: ts => do
    let v ← vol t.strike
    match v with
    | none => .ok 1000000
    | some v => ssrLoop vol (ssr + (v - t.vol) ^ 2) ts

/-- A value for the optimiser; a panic of the objective becomes `none`. -/
def toNan : Outcome ℝ → Option ℝ
  | .ok v => some v
  | _ => none

/-- The common end of the calibrators: minimise, convert the minimiser, take the root of the mean
square (`fx_hhw_calibrator.rs` 106-113, `fx_hlmm_calibrator.rs` 95-102, `sabr_calibrator.rs`
76-83). -/
noncomputable def runFit {P : Type} {n : ℕ} (objective : (Fin n → ℝ) → Outcome ℝ)
    (x0 : Fin n → ℝ) (o : NmOptions) (reify : (Fin n → ℝ) → P) (targets : List SmileTarget) :
    Outcome (SmileFit P n) := do
  let m ← nelderMead (fun x => toNan (objective x)) x0 o
  .ok ⟨reify m.x, √(m.f / targets.length), m⟩

/-! ## SABR -/

/-- `reify` (`sabr_calibrator.rs` 95-112). -/
noncomputable def sabrReify (beta : ℝ) (x : Fin 3 → ℝ) : Option Sabr :=
  let alpha := softplus (x 0)
  let rho := Real.tanh (x 1)
  let nu := softplus (x 2)
  if alpha ≤ 0 ∨ nu < 0 then none
  else if rho ≤ -1 ∨ 1 ≤ rho then none
  else some ⟨alpha, beta, rho, nu⟩

/-- The model volatility in the SABR objective (`sabr_calibrator.rs` 67-70): a volatility that is
not positive counts as missing. -/
noncomputable def sabrVol (p : Sabr) (forward expiry strike : ℝ) : Outcome (Option ℝ) := do
  let v ← haganVol p forward strike expiry
  .ok (if v ≤ 0 then none else some v)

/-- The objective (`sabr_calibrator.rs` 60-74). -/
noncomputable def sabrObjective (beta forward expiry : ℝ) (targets : List SmileTarget)
    (x : Fin 3 → ℝ) : Outcome ℝ :=
  match sabrReify beta x with
  | none => .ok 1000000
  | some p => ssrLoop (sabrVol p forward expiry) 0 targets

/-- `x0` (`sabr_calibrator.rs` 53-57). -/
noncomputable def sabrStart (p : Sabr) : Outcome (Fin 3 → ℝ) := do
  let a ← invSoftplus (max p.alpha (1 / 10 ^ 8))
  let c ← invSoftplus (max p.nu (1 / 10 ^ 8))
  .ok ![a, rhoStart p.rho, c]

/-- `calibrate` (`sabr_calibrator.rs` 41-84). -/
noncomputable def sabrCalibrate (initial : Sabr) (forward : ℝ) (targets : List SmileTarget)
    (expiry : ℝ) (o : NmOptions) : Outcome (SmileFit Sabr 3) :=
  if 0 < forward ∧ 0 < expiry ∧ targets ≠ [] then do
    let x0 ← sabrStart initial
    runFit (sabrObjective initial.beta forward expiry targets) x0 o
      (fun x => (sabrReify initial.beta x).getD initial) targets
  else .panic

/-- `model_implied_vols` (`sabr_calibrator.rs` 128-138). -/
noncomputable def sabrImpliedVols (p : Sabr) (forward expiry : ℝ) (strikes : List ℝ) :
    Outcome (List ℝ) :=
  collectAll (fun k => haganVol p forward k expiry) strikes

/-! ## The Heston block -/

/-- `x0` of the Heston-type calibrators (`fx_hhw_calibrator.rs` 73-84, `fx_hlmm_calibrator.rs`
61-72). -/
noncomputable def hestonStart (h : Cir) (rho floor : ℝ) : Outcome (Fin 5 → ℝ) := do
  let a ← invSoftplus (max (h.kappa - floor) (1 / 10 ^ 8))
  let b ← invSoftplus (max h.gamma (1 / 10 ^ 8))
  let c ← invSoftplus (max h.theta (1 / 10 ^ 8))
  let d ← invSoftplus (max h.sigma0 (1 / 10 ^ 8))
  .ok ![a, b, c, d, rhoStart rho]

/-- The CIR parameters set by `reify_params` (`fx_hhw_calibrator.rs` 209-212,
`fx_hlmm_calibrator.rs` 141-144). -/
noncomputable def reifyCir (floor : ℝ) (x : Fin 5 → ℝ) : Cir :=
  ⟨floor + softplus (x 0), softplus (x 2), softplus (x 1), softplus (x 3)⟩

/-- The volatility implied by a COS price in the objectives (`fx_hhw_calibrator.rs` 93-97,
`fx_hlmm_calibrator.rs` 85-86). -/
noncomputable def cosVol (chf : ForwardChf) (fwd expiry discount strike : ℝ) :
    Outcome (Option ℝ) := do
  let price ← (CosPricer.new chf).call strike discount
  .ok (bsImpliedVol price fwd strike expiry discount true)

/-- The loop of `model_implied_vols` (`fx_hhw_calibrator.rs` 239-245, `fx_hlmm_calibrator.rs`
168-174). -/
noncomputable def cosVols (chf : ForwardChf) (fwd expiry discount : ℝ) (strikes : List ℝ) :
    Outcome (List (Option ℝ)) :=
  collectAll (cosVol chf fwd expiry discount) strikes

/-- The value of a characteristic function that does not panic. -/
noncomputable def outcomeValue : Outcome ℂ → ℂ
  | .ok z => z
  | _ => 0

/-! ## FX-HHW -/

/-- `ForwardChf` for `FxHhw1ForwardChf` (`cos_pricer.rs` 43-58). -/
noncomputable def HhwChf.forwardChf (q : HhwChf) : ForwardChf :=
  ⟨fun u => outcomeValue (q.evaluate u), q.expiry, q.params.logForward q.expiry,
    q.params.heston.theta⟩

/-- `reify_params` (`fx_hhw_calibrator.rs` 207-215). -/
noncomputable def hhwReify (base : HhwParams) (floor : ℝ) (x : Fin 5 → ℝ) : HhwParams :=
  { base with
    heston := reifyCir floor x
    correlations := { base.correlations with xiSigma := Real.tanh (x 4) } }

/-- `reify_params_bounded` (`fx_hhw_calibrator.rs` 180-194). -/
noncomputable def hhwReifyBounded (base : HhwParams) (floor gammaMax : ℝ) (x : Fin 5 → ℝ) :
    HhwParams :=
  { base with
    heston := { reifyCir floor x with gamma := gammaMax / (1 + Real.exp (-(x 1))) }
    correlations := { base.correlations with xiSigma := Real.tanh (x 4) } }

/-- `fwd` (`fx_hhw_calibrator.rs` 68, 135, 237). -/
noncomputable def hhwForward (p : HhwParams) (expiry : ℝ) : ℝ :=
  p.fx0 * Real.exp (-p.rf0 * expiry) / Real.exp (-p.rd0 * expiry)

/-- `discount` (`fx_hhw_calibrator.rs` 69, 136, 238, 253). -/
noncomputable def hhwDiscount (p : HhwParams) (expiry : ℝ) : ℝ := Real.exp (-p.rd0 * expiry)

/-- The objective at given trial parameters (`fx_hhw_calibrator.rs` 89-104, 156-169). -/
noncomputable def hhwObjective (initial trial : HhwParams) (expiry : ℝ)
    (targets : List SmileTarget) : Outcome ℝ := do
  let q ← HhwChf.new trial expiry
  ssrLoop (cosVol q.forwardChf (hhwForward initial expiry) expiry (hhwDiscount initial expiry)) 0
    targets

/-- `calibrate` (`fx_hhw_calibrator.rs` 54-114). -/
noncomputable def hhwCalibrate (initial : HhwParams) (targets : List SmileTarget)
    (expiry floor : ℝ) (o : NmOptions) : Outcome (SmileFit HhwParams 5) :=
  if 0 < expiry ∧ targets ≠ [] ∧ 0 ≤ floor then do
    let x0 ← hestonStart initial.heston initial.correlations.xiSigma floor
    runFit (fun x => hhwObjective initial (hhwReify initial floor x) expiry targets) x0 o
      (hhwReify initial floor) targets
  else .panic

/-- `x0` of `calibrate_bounded` (`fx_hhw_calibrator.rs` 139-150). -/
noncomputable def boundedStart (h : Cir) (rho floor gammaMax : ℝ) : Outcome (Fin 5 → ℝ) := do
  let seed := max (1 / 10 ^ 4) (min (h.gamma / gammaMax) (1 - 1 / 10 ^ 4))
  let a ← invSoftplus (max (h.kappa - floor) (1 / 10 ^ 8))
  let c ← invSoftplus (max h.theta (1 / 10 ^ 8))
  let d ← invSoftplus (max h.sigma0 (1 / 10 ^ 8))
  .ok ![a, Real.log (seed / (1 - seed)), c, d, rhoStart rho]

/-- `calibrate_bounded` (`fx_hhw_calibrator.rs` 122-178). -/
noncomputable def hhwCalibrateBounded (initial : HhwParams) (targets : List SmileTarget)
    (expiry floor gammaMax : ℝ) (o : NmOptions) : Outcome (SmileFit HhwParams 5) :=
  if 0 < expiry ∧ targets ≠ [] ∧ 0 ≤ floor ∧ 0 < gammaMax then do
    let x0 ← boundedStart initial.heston initial.correlations.xiSigma floor gammaMax
    runFit (fun x => hhwObjective initial (hhwReifyBounded initial floor gammaMax x) expiry targets)
      x0 o (hhwReifyBounded initial floor gammaMax) targets
  else .panic

/-- `model_implied_vols` (`fx_hhw_calibrator.rs` 234-246). -/
noncomputable def hhwImpliedVols (p : HhwParams) (expiry : ℝ) (strikes : List ℝ) :
    Outcome (List (Option ℝ)) := do
  let q ← HhwChf.new p expiry
  cosVols q.forwardChf (hhwForward p expiry) expiry (hhwDiscount p expiry) strikes

/-- `price_call` (`fx_hhw_calibrator.rs` 250-255). -/
noncomputable def hhwPriceCall (p : HhwParams) (expiry strike : ℝ) : Outcome ℝ := do
  let q ← HhwChf.new p expiry
  (CosPricer.new q.forwardChf).call strike (hhwDiscount p expiry)

/-! ## FX-HLMM -/

/-- `ForwardChf` for `FxHlmm1ForwardChf` (`cos_pricer.rs` 60-78). -/
noncomputable def HlmmChf.forwardChf (q : HlmmChf) : ForwardChf :=
  ⟨fun u => outcomeValue (q.evaluate u), q.expiry, Real.log q.params.fx0, q.params.heston.theta⟩

/-- `reify_params` (`fx_hlmm_calibrator.rs` 139-147). -/
noncomputable def hlmmReify (base : HlmmParams) (floor : ℝ) (x : Fin 5 → ℝ) : HlmmParams :=
  { base with
    heston := reifyCir floor x
    correlations := { base.correlations with xiSigma := Real.tanh (x 4) } }

/-- `forward_fx` (`fx_hlmm_calibrator.rs` 109-111). -/
def hlmmForward (p : HlmmParams) (_expiry : ℝ) : ℝ := p.fx0

/-- `discount_factor` (`fx_hlmm_calibrator.rs` 115-128); the loop is that of
`discount_factors_from_libors`. -/
noncomputable def hlmmDiscount (p : HlmmParams) (expiry : ℝ) : Outcome ℝ := do
  let q ← liborProduct p.tenor
  let tn ← unwrap p.tenor.dates[p.tenor.n]?
  if tn + 1 / 10 ^ 12 < expiry then do
    let r ← at1 p.tenor.libors p.tenor.n
    .ok (q * Real.exp (-r * (expiry - tn)))
  else .ok q

/-- The objective at given trial parameters (`fx_hlmm_calibrator.rs` 76-93). -/
noncomputable def hlmmObjective (fwd discount : ℝ) (trial : HlmmParams) (expiry : ℝ)
    (targets : List SmileTarget) : Outcome ℝ :=
  if trial.Valid then do
    let q ← HlmmChf.new trial expiry
    ssrLoop (cosVol q.forwardChf fwd expiry discount) 0 targets
  else .ok 1000000

/-- `calibrate` (`fx_hlmm_calibrator.rs` 45-103). -/
noncomputable def hlmmCalibrate (initial : HlmmParams) (targets : List SmileTarget)
    (expiry floor : ℝ) (o : NmOptions) : Outcome (SmileFit HlmmParams 5) :=
  if 0 < expiry ∧ targets ≠ [] ∧ 0 ≤ floor then do
    let discount ← hlmmDiscount initial expiry
    let x0 ← hestonStart initial.heston initial.correlations.xiSigma floor
    runFit (fun x => hlmmObjective (hlmmForward initial expiry) discount
      (hlmmReify initial floor x) expiry targets) x0 o (hlmmReify initial floor) targets
  else .panic

/-- `model_implied_vols` (`fx_hlmm_calibrator.rs` 163-175). -/
noncomputable def hlmmImpliedVols (p : HlmmParams) (expiry : ℝ) (strikes : List ℝ) :
    Outcome (List (Option ℝ)) := do
  let q ← HlmmChf.new p expiry
  let discount ← hlmmDiscount p expiry
  cosVols q.forwardChf (hlmmForward p expiry) expiry discount strikes

/-- `price_call` (`fx_hlmm_calibrator.rs` 178-183). -/
noncomputable def hlmmPriceCall (p : HlmmParams) (expiry strike : ℝ) : Outcome ℝ := do
  let q ← HlmmChf.new p expiry
  let discount ← hlmmDiscount p expiry
  (CosPricer.new q.forwardChf).call strike discount

/-! ## Market data -/

/-- `MarketSmileStrip` (`market_data.rs` 46-51). -/
structure SmileStrip where
  expiryYf : ℝ
  forward : ℝ
  strikes : List ℝ
  vols : List ℝ

/-- `smile_strip` (`market_data.rs` 55-75). -/
noncomputable def smileStrip (ks : KeySearch) (s : FxVolSurface) (valuation expiry : Int)
    (forward : ℝ) (strikes : List ℝ) : Outcome SmileStrip :=
  if strikes = [] then .panic
  else do
    let yf := ((expiry - valuation : Int) : ℝ) / 365
    let vols ← collectAll (s.volatility ks expiry) strikes
    .ok ⟨yf, forward, strikes, vols⟩

/-- `hhw_targets` and `sabr_targets` (`market_data.rs` 81-96) and the target list of the HLMM
calibrator (`fx_hlmm_calibrator.rs` 203-208). -/
noncomputable def SmileStrip.targets (m : SmileStrip) : List SmileTarget :=
  (m.strikes.zip m.vols).map fun q => ⟨q.1, q.2⟩

/-- `PillarTarget` (`sabr_time_dependent_calibrator.rs` 46-51). -/
structure PillarTarget where
  expiry : ℝ
  forward : ℝ
  strikes : List ℝ
  vols : List ℝ

/-- `pillar_target` (`market_data.rs` 100-107). -/
def SmileStrip.pillar (m : SmileStrip) : PillarTarget := ⟨m.expiryYf, m.forward, m.strikes, m.vols⟩

/-- `CalibrationReport` (`common/calibration.rs` 28-39). -/
structure FitReport (P : Type) (n : ℕ) where
  params : P
  rmse : ℝ
  optimiser : Option (NmResult n)

/-- The conversion at the end of the trait methods (e.g. `sabr_calibrator.rs` 166-170). -/
def SmileFit.report {P : Type} {n : ℕ} (f : SmileFit P n) : FitReport P n :=
  ⟨f.params, f.rmse, some f.optimiser⟩

/-- `SabrSmileCalibrator::calibrate` (`sabr_calibrator.rs` 153-171). -/
noncomputable def sabrSmileCalibrate (initial : Sabr) (m : SmileStrip) (o : NmOptions) :
    Outcome (FitReport Sabr 3) := do
  let f ← sabrCalibrate initial m.forward m.targets m.expiryYf o
  .ok f.report

/-- `FxHhwSmileCalibrator::calibrate` (`fx_hhw_calibrator.rs` 273-301). -/
noncomputable def hhwSmileCalibrate (initial : HhwParams) (floor : ℝ) (gammaMax : Option ℝ)
    (m : SmileStrip) (o : NmOptions) : Outcome (FitReport HhwParams 5) := do
  let f ← match gammaMax with
    | some g => hhwCalibrateBounded initial m.targets m.expiryYf floor g o
    | none => hhwCalibrate initial m.targets m.expiryYf floor o
  .ok f.report

/-- `FxHlmmSmileCalibrator::calibrate` (`fx_hlmm_calibrator.rs` 195-221). -/
noncomputable def hlmmSmileCalibrate (initial : HlmmParams) (floor : ℝ) (m : SmileStrip)
    (o : NmOptions) : Outcome (FitReport HlmmParams 5) := do
  let f ← hlmmCalibrate initial m.targets m.expiryYf floor o
  .ok f.report

end Verif
