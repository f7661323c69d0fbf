import Verif.Model.FxFmm
import Verif.Model.Fmm
import Verif.Model.Simulation
import Mathlib.Algebra.BigOperators.Fin

/-!
# The FX-FMM path simulator

Model of `/repo/src/models/forex/fx_fmm_simulator.rs` over the real numbers.  The generator is
replaced by its output: a stream of draws, `2 + 2M` standard normals per step.  Indexing
outside a vector and failed assertions are panics.  `ln` of a non-positive FX rate (a NaN in the
source) is not modelled.
-/

namespace Verif

open Classical

/-- `FxFmmState` (`fx_fmm_simulator.rs` 59-73); the fields of one currency form an `FmmPath`, whose
time is the common `t`. -/
structure FxFmmState where
  fx : ℝ
  variance : ℝ
  dom : FmmPath
  fgn : FmmPath

/-- `FxFmmState::initial` (`fx_fmm_simulator.rs` 76-97): both currencies start from the rates of the
common tenor. -/
noncomputable def FxFmmState.initial (p : FmmParams) : Outcome FxFmmState := do
  let m := p.tenor.m
  let r ← unwrap p.tenor.rates[0]?
  let side : FmmPath := ⟨p.tenor.rates, List.replicate m 0, (List.replicate m 0).set 0 r,
    List.replicate m 0, 0, 0⟩
  .ok ⟨p.fx0, p.heston.sigma0, side, side⟩

/-- `FxFmmSimulator` (`fx_fmm_simulator.rs` 102-108) without the generator. -/
structure FxFmmSim where
  params : FmmParams
  chol : ℕ → ℕ → ℝ

/-- `build_joint_correlation` (`fx_fmm_simulator.rs` 353-404), entry `(i, j)` counted from zero.  The
vectors have the validated lengths, so no index is out of range. -/
noncomputable def jointCorr (p : FmmParams) (i j : ℕ) : ℝ :=
  let m := p.tenor.m
  let c := p.correlations
  if i = 0 then
    if j = 0 then 1 else if j = 1 then c.xiSigma
    else if j < 2 + m then c.xiD.getD (j - 2) 0 else c.xiF.getD (j - 2 - m) 0
  else if i = 1 then
    if j = 0 then c.xiSigma else if j = 1 then 1
    else if j < 2 + m then c.sigmaD.getD (j - 2) 0 else c.sigmaF.getD (j - 2 - m) 0
  else if i < 2 + m then
    if j = 0 then c.xiD.getD (i - 2) 0 else if j = 1 then c.sigmaD.getD (i - 2) 0
    else if j < 2 + m then (p.domestic.rateCorr.getD (i - 2) []).getD (j - 2) 0
    else 1 / 2 * ((c.cross.getD (i - 2) []).getD (j - 2 - m) 0
      + (c.cross.getD (j - 2 - m) []).getD (i - 2) 0)
  else
    if j = 0 then c.xiF.getD (i - 2 - m) 0 else if j = 1 then c.sigmaF.getD (i - 2 - m) 0
    else if j < 2 + m then 1 / 2 * ((c.cross.getD (j - 2) []).getD (i - 2 - m) 0
      + (c.cross.getD (i - 2 - m) []).getD (j - 2) 0)
    else (p.foreign.rateCorr.getD (i - 2 - m) []).getD (j - 2 - m) 0

/-- `FxFmmSimulator::new` (`fx_fmm_simulator.rs` 111-120); its `cholesky` (408-428) is that of
`Model/Cholesky`. -/
noncomputable def FxFmmSim.new (p : FmmParams) : Outcome FxFmmSim :=
  if p.Valid then
    match cholesky (2 + 2 * p.tenor.m) (jointCorr p) with
    | some l => .ok ⟨p, l⟩
    | none => .fail .invalidData
  else .fail .invalidData

/-- The number of draws of a step, `n` (`fx_fmm_simulator.rs` 132). -/
def FxFmmSim.size (s : FxFmmSim) : ℕ := 2 + 2 * s.params.tenor.m

/-- The correlated increments `dw` (`fx_fmm_simulator.rs` 139-153): row `i` of the factor up to the
diagonal. -/
noncomputable def FxFmmSim.dw (s : FxFmmSim) (dt : ℝ) (z : Fin s.size → ℝ) (i : ℕ) : ℝ :=
  (∑ j ∈ Finset.univ.filter fun j : Fin s.size => j.val ≤ i, s.chol i j * z j) * √dt

/-- `side_adapted_vol` (`fx_fmm_simulator.rs` 342-344). -/
noncomputable def sideAdaptedVol (l : FmmSide) (j : ℕ) : Outcome ℝ := at1 l.sigmas j

/-- The entry of `drift_weight_d` and `drift_weight_f` (`fx_fmm_simulator.rs` 181-189, 210-218). -/
noncomputable def sideWeight (l : FmmSide) (q : FmmTenor) (rates : List ℝ) (tMid : ℝ) (i : ℕ) :
    Outcome ℝ := do
  let g ← q.gamma i tMid
  let r ← at1 rates i
  let sig ← sideAdaptedVol l i
  let tau ← q.tau i
  .ok (sig * g * tau / (1 + tau * r))

/-- The sum of the FMM drift (`fx_fmm_simulator.rs` 197-200, 225-228). -/
noncomputable def sideSum (l : FmmSide) (q : FmmTenor) (rates : List ℝ) (tMid : ℝ) (etaOld j : ℕ) :
    Outcome ℝ :=
  (List.range' etaOld (j + 1 - etaOld)).foldlM (fun (acc : ℝ) (i : ℕ) => do
    let c ← entry l.rateCorr i j
    let w ← sideWeight l q rates tMid i
    .ok (acc + c * w)) 0

/-- The new `j`-th domestic rate (`fx_fmm_simulator.rs` 190-204); `dw` is `dw_d[j - 1]`. -/
noncomputable def domesticRate (l : FmmSide) (q : FmmTenor) (rates : List ℝ) (tMid dt : ℝ)
    (etaOld j : ℕ) (dw : ℝ) : Outcome ℝ := do
  let r ← at1 rates j
  if j < etaOld then .ok r
  else do
    let g ← q.gamma j tMid
    if g = 0 then .ok r
    else do
      let sig ← sideAdaptedVol l j
      let sum ← sideSum l q rates tMid etaOld j
      .ok (r + sig * g * sum * dt + sig * g * dw)

/-- The new `j`-th foreign rate (`fx_fmm_simulator.rs` 219-237); `dw` is `dw_f[j - 1]`. -/
noncomputable def foreignRate (l : FmmSide) (q : FmmTenor) (rhoXiF : List ℝ) (sqrtSigma : ℝ)
    (rates : List ℝ) (tMid dt : ℝ) (etaOld j : ℕ) (dw : ℝ) : Outcome ℝ := do
  let r ← at1 rates j
  if j < etaOld then .ok r
  else do
    let g ← q.gamma j tMid
    if g = 0 then .ok r
    else do
      let sig ← sideAdaptedVol l j
      let sum ← sideSum l q rates tMid etaOld j
      let rho ← at1 rhoXiF j
      let quanto := sig * g * rho * sqrtSigma
      .ok (r + (sig * g * sum - quanto) * dt + sig * g * dw)

/-- The new `Y_{j,j}` of one currency (`fx_fmm_simulator.rs` 240-255). -/
noncomputable def sideNewY (l : FmmSide) (q : FmmTenor) (p : FmmPath) (dt : ℝ) (j : ℕ) :
    Outcome ℝ := do
  let tj ← unwrap q.dates[j]?
  let y ← at1 p.yDiag j
  if tj ≤ p.t then .ok y
  else do
    let tau ← q.tau j
    let r ← at1 p.rates j
    let sig ← sideAdaptedVol l j
    .ok (y + (sig / (r + 1 / tau)) ^ 2 * min (tj - p.t) dt)

/-- The new `x_k` of one currency (`fx_fmm_simulator.rs` 258-277); `dw k` is `dw_d[k - 1]` or
`dw_f[k - 1]`. -/
noncomputable def sideNewX (l : FmmSide) (q : FmmTenor) (p : FmmPath) (dt : ℝ) (dw : ℕ → ℝ)
    (etaOld : ℕ) (newRates newYs : List ℝ) : Outcome ℝ :=
  if 1 ≤ etaOld ∧ etaOld ≤ q.m then do
    let k := etaOld
    let lo ← at1 q.dates k
    let hi ← unwrap q.dates[k]?
    if lo < p.t ∧ p.t < hi then do
      let tau ← q.tau k
      let r0 ← at1 p.rates k
      let r1 ← at1 newRates k
      let rMid := 1 / 2 * (r0 + r1)
      let sig ← sideAdaptedVol l k
      let y1 ← at1 newYs k
      let y0 ← at1 p.yAtStart k
      .ok (p.xActive + (1 / tau * (y1 - y0) * dt + sig / (rMid + 1 / tau) * dw k))
    else .ok p.xActive
  else .ok p.xActive

/-- The end of the step for one currency (`fx_fmm_simulator.rs` 282-297): snapshots of the periods
entered. -/
noncomputable def sideCommit (q : FmmTenor) (p : FmmPath) (dt : ℝ) (etaOld etaNew : ℕ)
    (newRates newYs : List ℝ) (newX : ℝ) : Outcome FmmPath := do
  let m := q.m
  let crossed := fun k => etaOld + 1 ≤ k ∧ k ≤ min etaNew m
  let startRates ← collectO (fun i =>
    if crossed (i + 1) then at1 newRates (i + 1) else at1 p.ratesAtStart (i + 1)) (List.range m)
  let startYs ← collectO (fun i =>
    if crossed (i + 1) then at1 newYs (i + 1) else at1 p.yAtStart (i + 1)) (List.range m)
  let x := if etaOld + 1 ≤ min etaNew m then 0 else newX
  .ok ⟨newRates, newYs, startRates, startYs, x, p.t + dt⟩

/-- `FxFmmSimulator::step` (`fx_fmm_simulator.rs` 127-298). -/
noncomputable def FxFmmSim.step (s : FxFmmSim) (st : FxFmmState) (dt : ℝ) (z : Fin s.size → ℝ) :
    Outcome FxFmmState :=
  if 0 < dt then do
    let p := s.params
    let q := p.tenor
    let m := q.m
    let t := st.dom.t
    let tMid := t + 1 / 2 * dt
    let dw := s.dw dt z
    let dwD := fun j => dw (2 + (j - 1))
    let dwF := fun j => dw (2 + m + (j - 1))
    let sigma := max st.variance 0
    let newVariance := max (sigma + p.heston.kappa * (p.heston.theta - sigma) * dt
      + p.heston.gamma * √sigma * dw 1) 0
    let etaOld ← q.eta t
    let rd ← at1 st.dom.rates (min etaOld m)
    let rf ← at1 st.fgn.rates (min etaOld m)
    let newFx := Real.exp (Real.log st.fx + (rd - rf - 1 / 2 * sigma) * dt + √sigma * dw 0)
    let newD ← collectO (fun i =>
      domesticRate p.domestic q st.dom.rates tMid dt etaOld (i + 1) (dwD (i + 1))) (List.range m)
    let newF ← collectO (fun i =>
      foreignRate p.foreign q p.correlations.xiF (√sigma) st.fgn.rates tMid dt etaOld (i + 1)
        (dwF (i + 1))) (List.range m)
    let newYD ← collectO (fun i => sideNewY p.domestic q st.dom dt (i + 1)) (List.range m)
    let newYF ← collectO (fun i => sideNewY p.foreign q st.fgn dt (i + 1)) (List.range m)
    let xD ← sideNewX p.domestic q st.dom dt dwD etaOld newD newYD
    let xF ← sideNewX p.foreign q st.fgn dt dwF etaOld newF newYF
    let etaNew ← q.eta (t + dt)
    let d ← sideCommit q st.dom dt etaOld etaNew newD newYD xD
    let f ← sideCommit q st.fgn dt etaOld etaNew newF newYF xF
    .ok ⟨newFx, newVariance, d, f⟩
  else .panic

/-- The inner loop of `simulate_terminal` (`fx_fmm_simulator.rs` 313-315): `n` steps from the draw
numbered `k`. -/
noncomputable def FxFmmSim.pathLoop (s : FxFmmSim) (dt : ℝ) (draws : ℕ → Fin s.size → ℝ) :
    ℕ → ℕ → FxFmmState → Outcome FxFmmState
  | 0, _, st => .ok st
  | n + 1, k, st => do
    let st' ← s.step st dt (draws k)
    s.pathLoop dt draws n (k + 1) st'

/-- The outer loop of `simulate_terminal` (`fx_fmm_simulator.rs` 311-317): the generator carries on
between paths. -/
noncomputable def FxFmmSim.pathsLoop (s : FxFmmSim) (dt : ℝ) (nSteps : ℕ)
    (draws : ℕ → Fin s.size → ℝ) : ℕ → ℕ → Outcome (List FxFmmState)
  | 0, _ => .ok []
  | n + 1, k => do
    let st ← FxFmmState.initial s.params
    let st' ← s.pathLoop dt draws nSteps k st
    let rest ← s.pathsLoop dt nSteps draws n (k + nSteps)
    .ok (st' :: rest)

/-- `FxFmmSimulator::simulate_terminal` (`fx_fmm_simulator.rs` 302-319). -/
noncomputable def FxFmmSim.simulateTerminal (s : FxFmmSim) (draws : ℕ → Fin s.size → ℝ) (tEnd : ℝ)
    (nSteps nPaths : ℕ) : Outcome (List FxFmmState) :=
  if 0 < tEnd ∧ 0 < nSteps ∧ 0 < nPaths then
    s.pathsLoop (tEnd / nSteps) nSteps draws nPaths 0
  else .panic

/-- A successful step; a failing one leaves the state. -/
noncomputable def FxFmmSim.next (s : FxFmmSim) (st : FxFmmState) (dt : ℝ) (z : Fin s.size → ℝ) :
    FxFmmState :=
  match s.step st dt z with
  | .ok st' => st'
  | _ => st

/-- `impl SimulationModel for FxFmmSimulator` (`fx_fmm_simulator.rs` 322-334) from the initial state
`st0`; the time passed by the driver is ignored.  A panic of `step` is left out here. -/
noncomputable def FxFmmSim.toModel (s : FxFmmSim) (st0 : FxFmmState)
    (draws : ℕ → Fin s.size → ℝ) : SimModel FxFmmState ℕ where
  initial _ := st0
  step k st _ dt := (s.next st dt (draws k), k + 1)

end Verif
