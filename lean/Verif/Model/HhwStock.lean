import Verif.Model.HhwSim

/-!
# The foreign stock on top of FX-HHW

Model of `/repo/src/models/forex/fx_hhw_stock.rs` over the real numbers.  The seeded generator is a
stream of draws, six standard normals per step.  `ln` of a non-positive rate or stock, a NaN in the
source, is not modelled: both are positive along every path that starts positive.
-/

namespace Verif

open Classical

/-- `ForeignStock` (`fx_hhw_stock.rs` 46-57). -/
structure ForeignStock where
  s0 : ℝ
  variance : Cir
  rhoXiSf : ℝ
  rhoSfOmega : ℝ

/-- `FxHhwStockState` (`fx_hhw_stock.rs` 61-65). -/
structure HhwStockState where
  fx : HhwState
  stock : ℝ
  stockVariance : ℝ

/-- `FxHhwStockState::initial` (`fx_hhw_stock.rs` 68-74). -/
def HhwStockState.initial (p : HhwParams) (s : ForeignStock) : HhwStockState :=
  ⟨HhwState.initial p, s.s0, s.variance.sigma0⟩

/-- `FxHhwStockSimulator` (`fx_hhw_stock.rs` 97-102) without the generator. -/
structure HhwStockSim where
  params : HhwParams
  equity : ForeignStock
  chol : ℕ → ℕ → ℝ

/-- `FxHhwStockSimulator::new` (`fx_hhw_stock.rs` 105-122). -/
noncomputable def HhwStockSim.new (p : HhwParams) (s : ForeignStock) : Outcome HhwStockSim :=
  match p.correlations.cholesky with
  | none => .fail .invalidData
  | some l =>
    if 1 < |s.rhoXiSf| then .fail .invalidData
    else if 1 < |s.rhoSfOmega| then .fail .invalidData
    else .ok ⟨p, s, l⟩

/-- The increments of the base block (`fx_hhw_stock.rs` 145-152). -/
noncomputable def HhwStockSim.dwBase (q : HhwStockSim) (dt : ℝ) (z : Fin 6 → ℝ) (i : Fin 4) : ℝ :=
  (∑ j ∈ Finset.univ.filter (fun j : Fin 4 => j ≤ i), q.chol i j * z (j.castLE (by norm_num))) * √dt

/-- `z_sf` (`fx_hhw_stock.rs` 159-161). -/
noncomputable def HhwStockSim.zSf (q : HhwStockSim) (z : Fin 6 → ℝ) : ℝ :=
  q.equity.rhoXiSf * z 0 + √(1 - q.equity.rhoXiSf * q.equity.rhoXiSf) * z 4

/-- `z_omega` (`fx_hhw_stock.rs` 164-165). -/
noncomputable def HhwStockSim.zOmega (q : HhwStockSim) (z : Fin 6 → ℝ) : ℝ :=
  q.equity.rhoSfOmega * q.zSf z + √(1 - q.equity.rhoSfOmega * q.equity.rhoSfOmega) * z 5

/-- The update of `step` after its assertion (`fx_hhw_stock.rs` 162-212). -/
noncomputable def HhwStockSim.euler (q : HhwStockSim) (s : HhwStockState) (dt : ℝ) (z : Fin 6 → ℝ) :
    HhwStockState :=
  let dw := q.dwBase dt z
  let dwSf := q.zSf z * √dt
  let dwOmega := q.zOmega z * √dt
  let p := q.params
  let sigma := max s.fx.variance 0
  let e := q.equity
  let omega := max s.stockVariance 0
  let stockDrift := s.fx.rf - e.rhoXiSf * √sigma * √omega - 1 / 2 * omega
  let stockVarDrift := e.variance.kappa * (e.variance.theta - omega)
    - e.rhoSfOmega * e.rhoXiSf * e.variance.gamma * √omega * √sigma
  { fx :=
      { fx := Real.exp (Real.log s.fx.fx + (s.fx.rd - s.fx.rf - 1 / 2 * sigma) * dt + √sigma * dw 0)
        variance := max (sigma + p.heston.kappa * (p.heston.theta - sigma) * dt
          + p.heston.gamma * √sigma * dw 1) 0
        rd := s.fx.rd + p.domestic.lambda * (p.thetaD - s.fx.rd) * dt + p.domestic.sigma * dw 2
        rf := s.fx.rf + (p.foreign.lambda * (p.thetaF - s.fx.rf)
          - p.foreign.sigma * p.correlations.xiF * √sigma) * dt + p.foreign.sigma * dw 3 }
    stock := Real.exp (Real.log s.stock + stockDrift * dt + √omega * dwSf)
    stockVariance := max (omega + stockVarDrift * dt + e.variance.gamma * √omega * dwOmega) 0 }

/-- `FxHhwStockSimulator::step` (`fx_hhw_stock.rs` 126-213). -/
noncomputable def HhwStockSim.step (q : HhwStockSim) (s : HhwStockState) (dt : ℝ) (z : Fin 6 → ℝ) :
    Outcome HhwStockState :=
  if 0 < dt then .ok (q.euler s dt z) else .panic

/-- The inner loop of `simulate` (`fx_hhw_stock.rs` 224-226): `n` steps from the draw numbered `k`. -/
noncomputable def HhwStockSim.pathLoop (q : HhwStockSim) (dt : ℝ) (draws : ℕ → Fin 6 → ℝ) :
    ℕ → ℕ → HhwStockState → Outcome HhwStockState
  | 0, _, s => .ok s
  | n + 1, k, s => do
    let s' ← q.step s dt (draws k)
    q.pathLoop dt draws n (k + 1) s'

/-- The outer loop of `simulate` (`fx_hhw_stock.rs` 222-228). -/
noncomputable def HhwStockSim.pathsLoop (q : HhwStockSim) (dt : ℝ) (nSteps : ℕ)
    (draws : ℕ → Fin 6 → ℝ) : ℕ → ℕ → Outcome (List HhwStockState)
  | 0, _ => .ok []
  | n + 1, k => do
    let s ← q.pathLoop dt draws nSteps k (HhwStockState.initial q.params q.equity)
    let rest ← q.pathsLoop dt nSteps draws n (k + nSteps)
    .ok (s :: rest)

/-- `FxHhwStockSimulator::simulate` (`fx_hhw_stock.rs` 218-230). -/
noncomputable def HhwStockSim.simulate (q : HhwStockSim) (draws : ℕ → Fin 6 → ℝ) (tEnd : ℝ)
    (nSteps nPaths : ℕ) : Outcome (List HhwStockState) :=
  if 0 < nSteps ∧ 0 < nPaths ∧ 0 < tEnd then
    q.pathsLoop (tEnd / nSteps) nSteps draws nPaths 0
  else .panic

/-- `impl SimulationModel for FxHhwStockSimulator` (`fx_hhw_stock.rs` 233-247).  The date-driven
driver only calls `step` with `dt > 0`, so the assertion of `step` is left out here. -/
noncomputable def HhwStockSim.toModel (q : HhwStockSim) (draws : ℕ → Fin 6 → ℝ) :
    SimModel HhwStockState ℕ where
  initial _ := HhwStockState.initial q.params q.equity
  step k s _t dt := (q.euler s dt (draws k), k + 1)

end Verif
