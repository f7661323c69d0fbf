import Verif.Model.ShortRate
import Verif.Model.Cholesky
import Verif.Model.Cos
import Mathlib.Analysis.SpecialFunctions.Pow.Complex

/-!
# The forward characteristic function of the FX-HHW1 model

Model of `/repo/src/models/forex/fx_hhw1_chf.rs` over the complex numbers.  `Complex64::sqrt` is
the principal square root `z ^ (1/2)`.
-/

namespace Verif

open Classical

/-- `FxHhwParams` (`fx_hhw.rs` 107-120). -/
structure HhwParams where
  fx0 : ℝ
  heston : Cir
  domestic : HullWhite
  foreign : HullWhite
  rd0 : ℝ
  rf0 : ℝ
  thetaD : ℝ
  thetaF : ℝ
  correlations : Correlation4

/-- `ChfComponents` (`fx_hhw1_chf.rs` 33-38). -/
structure ChfComponents where
  a : ℂ
  b : ℂ
  c : ℂ

/-- `ChfComponents::assemble` (`fx_hhw1_chf.rs` 43-45). -/
noncomputable def ChfComponents.assemble (q : ChfComponents) (x sigma : ℝ) : ℂ :=
  Complex.exp (q.a + q.b * x + q.c * sigma)

/-- `c_of_tau` (`fx_hhw1_chf.rs` 193-206). -/
noncomputable def HhwParams.cOfTau (p : HhwParams) (u : ℂ) (tau : ℝ) : ℂ :=
  if tau ≤ 0 then 0
  else
    let kappa : ℂ := p.heston.kappa
    let gamma : ℂ := p.heston.gamma
    let rho : ℂ := p.correlations.xiSigma
    let iu := Complex.I * u
    let bSqMinusB := iu * iu - iu
    let x := kappa - gamma * rho * iu
    let d := (x * x - gamma * gamma * iu * (iu - 1)) ^ (1 / 2 : ℂ)
    let expDtau := Complex.exp (-d * tau)
    bSqMinusB * (1 - expDtau) / (x + d - (x - d) * expDtau)

/-- `integrand` (`fx_hhw1_chf.rs` 286-322). -/
noncomputable def HhwParams.integrand (p : HhwParams) (u : ℂ) (s bigT : ℝ) : Outcome ℂ := do
  let c := p.cOfTau u s
  let iu := Complex.I * u
  let oneMinusIu := 1 - iu
  let u2PlusIu := u * u + iu
  let phi ← p.heston.sqrtMean s
  let bd := p.domestic.b s bigT
  let bf := p.foreign.b s bigT
  let etaD := p.domestic.sigma
  let etaF := p.foreign.sigma
  let rho := p.correlations
  let kappaTheta := p.heston.kappa * p.heston.theta
  let term1 : ℂ := (kappaTheta : ℂ) * c
  let term2 : ℂ := ((rho.sigmaD * p.heston.gamma * etaD * phi * bd : ℝ) : ℂ) * c * oneMinusIu
  let term3 : ℂ := ((rho.sigmaF * p.heston.gamma * etaF * phi * bf : ℝ) : ℂ) * c * iu
  let zeta := (rho.xiD * etaD * bd - rho.xiF * etaF * bf) * phi
    + rho.dF * etaD * etaF * bd * bf - 0.5 * (etaD * etaD * bd * bd + etaF * etaF * bf * bf)
  let term4 : ℂ := u2PlusIu * (zeta : ℂ)
  .ok (term1 + term2 + term3 + term4)

/-- The Simpson weight of node `k` of `n` (`fx_hhw1_chf.rs` 230-236 and 272-278). -/
noncomputable def simpsonWeight (n k : ℕ) : ℝ :=
  if k = 0 ∨ k = n then 1 else if k % 2 = 1 then 4 else 2

/-- `a_of_tau` (`fx_hhw1_chf.rs` 222-240). -/
noncomputable def HhwParams.aOfTau (p : HhwParams) (u : ℂ) (tau bigT : ℝ) (n : ℕ) : Outcome ℂ :=
  if tau ≤ 0 then .ok 0
  else do
    let h := tau / n
    let acc ← (List.range (n + 1)).foldlM (fun (acc : ℂ) (k : ℕ) => do
      let v ← p.integrand u (k * h) bigT
      Outcome.ok (acc + (simpsonWeight n k : ℂ) * v)) 0
    .ok (acc * ((h / 3 : ℝ) : ℂ))

/-- One entry of `SimpsonGrid` (`fx_hhw1_chf.rs` 72-85): the code keeps five vectors of the same
length, the model one list of records. -/
structure GridEntry where
  phi : ℝ
  bd : ℝ
  bf : ℝ
  zetaNoPhi : ℝ
  zetaPhiCoef : ℝ

/-- One pass of the loop of `SimpsonGrid::build` (`fx_hhw1_chf.rs` 99-110). -/
noncomputable def HhwParams.gridEntry (p : HhwParams) (expiry s : ℝ) : Outcome GridEntry := do
  let etaD := p.domestic.sigma
  let etaF := p.foreign.sigma
  let rho := p.correlations
  let phi ← p.heston.sqrtMean s
  let bds := p.domestic.b s expiry
  let bfs := p.foreign.b s expiry
  .ok ⟨phi, bds, bfs,
    rho.dF * etaD * etaF * bds * bfs - 0.5 * (etaD * etaD * bds * bds + etaF * etaF * bfs * bfs),
    rho.xiD * etaD * bds - rho.xiF * etaF * bfs⟩

/-- The loop of `SimpsonGrid::build` (`fx_hhw1_chf.rs` 98-111) over the given indices. -/
noncomputable def HhwParams.gridLoop (p : HhwParams) (expiry h : ℝ) : List ℕ → Outcome (List GridEntry)
  | [] => .ok []
  | k :: ks => do
    let e ← p.gridEntry expiry (k * h)
    let es ← p.gridLoop expiry h ks
    .ok (e :: es)

/-- `SimpsonGrid` with its step (`fx_hhw1_chf.rs` 72-85). -/
structure SimpsonGrid where
  h : ℝ
  entries : List GridEntry

/-- `SimpsonGrid::build` (`fx_hhw1_chf.rs` 88-120). -/
noncomputable def HhwParams.buildGrid (p : HhwParams) (expiry : ℝ) (n : ℕ) : Outcome SimpsonGrid := do
  let h := expiry / n
  let es ← p.gridLoop expiry h (List.range (n + 1))
  .ok ⟨h, es⟩

/-- The bracket of the loop of `a_of_tau_cached` (`fx_hhw1_chf.rs` 259-270). -/
noncomputable def HhwParams.cachedTerm (p : HhwParams) (u : ℂ) (s : ℝ) (e : GridEntry) : ℂ :=
  let iu := Complex.I * u
  let oneMinusIu := 1 - iu
  let u2PlusIu := u * u + iu
  let kappaTheta := p.heston.kappa * p.heston.theta
  let gamma := p.heston.gamma
  let etaD := p.domestic.sigma
  let etaF := p.foreign.sigma
  let rho := p.correlations
  let c := p.cOfTau u s
  let zeta := e.zetaNoPhi + e.zetaPhiCoef * e.phi
  let term1 : ℂ := (kappaTheta : ℂ) * c
  let term2 : ℂ := ((rho.sigmaD * gamma * etaD * e.phi * e.bd : ℝ) : ℂ) * c * oneMinusIu
  let term3 : ℂ := ((rho.sigmaF * gamma * etaF * e.phi * e.bf : ℝ) : ℂ) * c * iu
  let term4 : ℂ := u2PlusIu * (zeta : ℂ)
  term1 + term2 + term3 + term4

/-- `a_of_tau_cached` (`fx_hhw1_chf.rs` 246-282).  Indexing beyond the vectors would panic; the
subtraction `len - 1` underflows on an empty grid. -/
noncomputable def HhwParams.aCached (p : HhwParams) (u : ℂ) (g : SimpsonGrid) : Outcome ℂ :=
  if g.entries.length = 0 then .panic
  else do
    let n := g.entries.length - 1
    let acc ← (List.range (n + 1)).foldlM (fun (acc : ℂ) (k : ℕ) =>
      match g.entries[k]? with
      | none => Outcome.panic
      | some e => Outcome.ok (acc + (simpsonWeight n k : ℂ) * p.cachedTerm u (k * g.h) e)) 0
    .ok (acc * ((g.h / 3 : ℝ) : ℂ))

/-- `FxHhw1ForwardChf` (`fx_hhw1_chf.rs` 58-67). -/
structure HhwChf where
  params : HhwParams
  expiry : ℝ
  nSimpson : ℕ
  grid : SimpsonGrid

/-- `FxHhw1ForwardChf::with_simpson_steps` (`fx_hhw1_chf.rs` 130-139). -/
noncomputable def HhwChf.withSimpsonSteps (p : HhwParams) (expiry : ℝ) (n : ℕ) : Outcome HhwChf :=
  if 2 ≤ n ∧ n % 2 = 0 then do
    let g ← p.buildGrid expiry n
    .ok ⟨p, expiry, n, g⟩
  else .panic

/-- `FxHhw1ForwardChf::new` (`fx_hhw1_chf.rs` 124-126). -/
noncomputable def HhwChf.new (p : HhwParams) (expiry : ℝ) : Outcome HhwChf :=
  HhwChf.withSimpsonSteps p expiry 128

/-- `FxHhw1ForwardChf::components` (`fx_hhw1_chf.rs` 151-161). -/
noncomputable def HhwChf.components (q : HhwChf) (u : ℂ) (tau : ℝ) : Outcome ChfComponents :=
  if 0 ≤ tau ∧ tau ≤ q.expiry + 1 / 10 ^ 12 then do
    let b := Complex.I * u
    let c := q.params.cOfTau u tau
    let a ← if |tau - q.expiry| < 1 / 10 ^ 12 then q.params.aCached u q.grid
      else q.params.aOfTau u tau q.expiry q.nSimpson
    .ok ⟨a, b, c⟩
  else .panic

/-- The initial log-forward of `evaluate` (`fx_hhw1_chf.rs` 171-174); the same expression is
`log_forward` (`cos_pricer.rs` 50-54). -/
noncomputable def HhwParams.logForward (p : HhwParams) (t : ℝ) : ℝ :=
  Real.log (p.fx0 * Real.exp (-p.rf0 * t) / Real.exp (-p.rd0 * t))

/-- `FxHhw1ForwardChf::evaluate` (`fx_hhw1_chf.rs` 165-176). -/
noncomputable def HhwChf.evaluate (q : HhwChf) (u : ℂ) : Outcome ℂ := do
  let comps ← q.components u q.expiry
  .ok (comps.assemble (q.params.logForward q.expiry) q.params.heston.sigma0)

end Verif
