import Verif.Model.HhwChf
import Verif.Model.Simulation

/-!
# The FX-HHW path simulator

Model of the simulator in `/repo/src/models/forex/fx_hhw.rs` over the real numbers.  The seeded
generator is a stream of draws, four standard normals per step: `draws k` feeds the `k`-th step.
`theta_fn` is a function of time (the source allows a stateful closure).  `ln` of a non-positive
FX rate, a NaN in the source, is not modelled: the rate is positive along every path that starts
positive.
-/

namespace Verif

open Classical

/-- `FxHhwState` (`fx_hhw.rs` 124-129). -/
structure HhwState where
  fx : ℝ
  variance : ℝ
  rd : ℝ
  rf : ℝ

/-- `FxHhwState::initial` (`fx_hhw.rs` 132-139). -/
def HhwState.initial (p : HhwParams) : HhwState := ⟨p.fx0, p.heston.sigma0, p.rd0, p.rf0⟩

/-- `FxHhwSimulator` (`fx_hhw.rs` 170-178) without the generator. -/
structure HhwSim where
  params : HhwParams
  chol : ℕ → ℕ → ℝ
  theta : ℝ → ℝ × ℝ

/-- `FxHhwSimulator::new` (`fx_hhw.rs` 181-195). -/
noncomputable def HhwSim.new (p : HhwParams) : Outcome HhwSim :=
  match p.correlations.cholesky with
  | some l => .ok ⟨p, l, fun _ => (p.thetaD, p.thetaF)⟩
  | none => .fail .invalidData

/-- `FxHhwSimulator::with_theta_fn` (`fx_hhw.rs` 201-207). -/
def HhwSim.withThetaFn (q : HhwSim) (f : ℝ → ℝ × ℝ) : HhwSim := { q with theta := f }

/-- The correlated increments (`fx_hhw.rs` 238-246): row `i` of the factor up to the diagonal. -/
noncomputable def HhwSim.noise (q : HhwSim) (dt : ℝ) (z : Fin 4 → ℝ) (i : Fin 4) : ℝ :=
  (∑ j ∈ Finset.univ.filter (· ≤ i), q.chol i j * z j) * √dt

/-- The update of `step_at_time` after its assertion (`fx_hhw.rs` 248-267). -/
noncomputable def HhwSim.euler (q : HhwSim) (s : HhwState) (dt thetaD thetaF : ℝ) (z : Fin 4 → ℝ) :
    HhwState :=
  let p := q.params
  let sigma := max s.variance 0
  let dw := q.noise dt z
  { fx := Real.exp (Real.log s.fx + (s.rd - s.rf - 1 / 2 * sigma) * dt + √sigma * dw 0)
    variance := max (sigma + p.heston.kappa * (p.heston.theta - sigma) * dt
      + p.heston.gamma * √sigma * dw 1) 0
    rd := s.rd + p.domestic.lambda * (thetaD - s.rd) * dt + p.domestic.sigma * dw 2
    rf := s.rf + (p.foreign.lambda * (thetaF - s.rf)
      - p.foreign.sigma * p.correlations.xiF * √sigma) * dt + p.foreign.sigma * dw 3 }

/-- `FxHhwSimulator::step_at_time` (`fx_hhw.rs` 224-278). -/
noncomputable def HhwSim.stepAtTime (q : HhwSim) (s : HhwState) (dt thetaD thetaF : ℝ)
    (z : Fin 4 → ℝ) : Outcome (HhwState × (Fin 4 → ℝ)) :=
  if 0 < dt then .ok (q.euler s dt thetaD thetaF z, q.noise dt z) else .panic

/-- `FxHhwSimulator::step` (`fx_hhw.rs` 213-217). -/
noncomputable def HhwSim.step (q : HhwSim) (s : HhwState) (dt : ℝ) (z : Fin 4 → ℝ) :
    Outcome (HhwState × (Fin 4 → ℝ)) :=
  q.stepAtTime s dt q.params.thetaD q.params.thetaF z

/-- The inner loop of `simulate` (`fx_hhw.rs` 289-292): `n` steps from the draw numbered `k`. -/
noncomputable def HhwSim.pathLoop (q : HhwSim) (dt : ℝ) (draws : ℕ → Fin 4 → ℝ) :
    ℕ → ℕ → HhwState → Outcome HhwState
  | 0, _, s => .ok s
  | n + 1, k, s => do
    let r ← q.step s dt (draws k)
    q.pathLoop dt draws n (k + 1) r.1

/-- The outer loop of `simulate` (`fx_hhw.rs` 287-294): the generator carries on between paths. -/
noncomputable def HhwSim.pathsLoop (q : HhwSim) (dt : ℝ) (nSteps : ℕ) (draws : ℕ → Fin 4 → ℝ) :
    ℕ → ℕ → Outcome (List HhwState)
  | 0, _ => .ok []
  | n + 1, k => do
    let s ← q.pathLoop dt draws nSteps k (HhwState.initial q.params)
    let rest ← q.pathsLoop dt nSteps draws n (k + nSteps)
    .ok (s :: rest)

/-- `FxHhwSimulator::simulate` (`fx_hhw.rs` 283-296). -/
noncomputable def HhwSim.simulate (q : HhwSim) (draws : ℕ → Fin 4 → ℝ) (tEnd : ℝ)
    (nSteps nPaths : ℕ) : Outcome (List HhwState) :=
  if 0 < nSteps ∧ 0 < nPaths ∧ 0 < tEnd then
    q.pathsLoop (tEnd / nSteps) nSteps draws nPaths 0
  else .panic

/-- `impl SimulationModel for FxHhwSimulator` (`fx_hhw.rs` 299-310).  The date-driven driver only
calls `step` with `dt > 0`, so the assertion of `step_at_time` is left out here. -/
noncomputable def HhwSim.toModel (q : HhwSim) (draws : ℕ → Fin 4 → ℝ) : SimModel HhwState ℕ where
  initial _ := HhwState.initial q.params
  step k s t dt := (q.euler s dt (q.theta t).1 (q.theta t).2 (draws k), k + 1)

end Verif
