import Verif.Model.Sabr
import Verif.Model.SabrEffective
import Verif.Model.Simulation

/-!
# The time-dependent SABR simulator

Model of `/repo/src/models/forex/sabr_time_dependent.rs`, and of `SabrSimulator::simulate` in
`/repo/src/models/forex/sabr.rs`, over the real numbers.  The seeded generator is a stream of draws,
two standard normals per step: `draws k` feeds the `k`-th step.
-/

namespace Verif

open Classical

/-- `TimeDependentSabrParams` (`sabr_time_dependent.rs` 31-37). -/
structure TdSabr where
  alpha : PieceConst
  rho : PieceConst
  nu : PieceConst
  beta : ℝ
  forward0 : ℝ

/-- `TimeDependentSabrParams::new` (`sabr_time_dependent.rs` 44-75); a failed assertion panics. -/
noncomputable def TdSabr.new (alpha rho nu : PieceConst) (beta forward0 : ℝ) : Outcome TdSabr :=
  if alpha.knots = rho.knots then
    if alpha.knots = nu.knots then
      if 0 ≤ beta ∧ beta ≤ 1 then
        if 0 < forward0 then
          if ∀ a ∈ alpha.values, 0 < a then
            if ∀ n ∈ nu.values, 0 ≤ n then
              if ∀ r ∈ rho.values, -1 < r ∧ r < 1 then .ok ⟨alpha, rho, nu, beta, forward0⟩
              else .panic
            else .panic
          else .panic
        else .panic
      else .panic
    else .panic
  else .panic

/-- `TimeDependentSabrParams::at` (`sabr_time_dependent.rs` 80-87). -/
noncomputable def TdSabr.at (p : TdSabr) (t : ℝ) : Outcome Sabr := do
  let a ← p.alpha.at t
  let r ← p.rho.at t
  let n ← p.nu.at t
  .ok ⟨a, p.beta, r, n⟩

/-- `TimeDependentSabrParams::horizon` (`sabr_time_dependent.rs` 89-91). -/
noncomputable def TdSabr.horizon (p : TdSabr) : ℝ := p.alpha.finalTime

/-- `TimeDependentSabrSimulator::step_with_noise` (`sabr_time_dependent.rs` 135-175): the new state
and the two increments. -/
noncomputable def TdSabr.step (p : TdSabr) (s : SabrState) (tMid dt : ℝ) (z : Fin 2 → ℝ) :
    Outcome (SabrState × ℝ × ℝ) :=
  if 0 < dt then do
    let q ← p.at tMid
    let root := √(1 - q.rho * q.rho)
    let dwF := √dt * z 0
    let dwA := √dt * (q.rho * z 0 + root * z 1)
    let f := max s.forward 0
    let alpha := max s.vol 0
    let diffusionF := alpha * f ^ q.beta * dwF
    let newForward := max (f + diffusionF) 0
    let logDrift := -0.5 * q.nu * q.nu * dt
    let logDiffusion := q.nu * dwA
    let newVol := alpha * Real.exp (logDrift + logDiffusion)
    .ok (⟨newForward, newVol⟩, dwF, dwA)
  else .panic

/-- The inner loop of `simulate` (`sabr_time_dependent.rs` 192-197): `n` steps from time `t` and
from the draw numbered `k`. -/
noncomputable def TdSabr.pathLoop (p : TdSabr) (dt : ℝ) (draws : ℕ → Fin 2 → ℝ) :
    ℕ → ℕ → ℝ → SabrState → Outcome SabrState
  | 0, _, _, s => .ok s
  | n + 1, k, t, s => do
    let tMid := t + 0.5 * dt
    let r ← p.step s tMid dt (draws k)
    p.pathLoop dt draws n (k + 1) (t + dt) r.1

/-- The outer loop of `simulate` (`sabr_time_dependent.rs` 186-199): the generator carries on
between paths. -/
noncomputable def TdSabr.pathsLoop (p : TdSabr) (dt alpha0 : ℝ) (nSteps : ℕ)
    (draws : ℕ → Fin 2 → ℝ) : ℕ → ℕ → Outcome (List SabrState)
  | 0, _ => .ok []
  | n + 1, k => do
    let s ← p.pathLoop dt draws nSteps k 0 ⟨p.forward0, alpha0⟩
    let rest ← p.pathsLoop dt alpha0 nSteps draws n (k + nSteps)
    .ok (s :: rest)

/-- `TimeDependentSabrSimulator::simulate` (`sabr_time_dependent.rs` 181-201). -/
noncomputable def TdSabr.simulate (p : TdSabr) (draws : ℕ → Fin 2 → ℝ) (tEnd : ℝ)
    (nSteps nPaths : ℕ) : Outcome (List SabrState) :=
  if 0 < nSteps ∧ 0 < nPaths ∧ 0 < tEnd then do
    let alpha0 ← p.alpha.at 0
    p.pathsLoop (tEnd / nSteps) alpha0 nSteps draws nPaths 0
  else .panic

/-- The closure `all_eq` (`sabr_time_dependent.rs` 211). -/
def windowsClose (vs : List ℝ) : Prop :=
  ∀ i, i + 1 < vs.length → |vs.getD i 0 - vs.getD (i + 1) 0| < 1 / 10 ^ 12

/-- `reduces_to_constant` (`sabr_time_dependent.rs` 207-217): the parameters and the forward handed
to the constant-parameter simulator. -/
noncomputable def TdSabr.reducesToConstant (p : TdSabr) : Outcome (Option (Sabr × ℝ)) :=
  if windowsClose p.alpha.values ∧ windowsClose p.rho.values ∧ windowsClose p.nu.values then do
    let a ← unwrap p.alpha.values[0]?
    let r ← unwrap p.rho.values[0]?
    let n ← unwrap p.nu.values[0]?
    let q ← Sabr.new a p.beta r n
    if 0 < p.forward0 then .ok (some (q, p.forward0)) else .panic
  else .ok none

/-- `impl SimulationModel for TimeDependentSabrSimulator` (`sabr_time_dependent.rs` 220-233).  The
state carries the panics of the schedule lookups. -/
noncomputable def TdSabr.toModel (p : TdSabr) (draws : ℕ → Fin 2 → ℝ) :
    SimModel (Outcome SabrState) ℕ where
  initial _ := do
    let a ← p.alpha.at 0
    .ok ⟨p.forward0, a⟩
  step k s t dt := (do
    let s ← s
    let r ← p.step s t dt (draws k)
    .ok r.1, k + 1)

/-- The inner loop of `SabrSimulator::simulate` (`sabr.rs` 235-238). -/
noncomputable def Sabr.pathLoop (p : Sabr) (dt : ℝ) (draws : ℕ → Fin 2 → ℝ) :
    ℕ → ℕ → SabrState → Outcome SabrState
  | 0, _, s => .ok s
  | n + 1, k, s => do
    let s' ← p.step s dt (draws k 0) (draws k 1)
    p.pathLoop dt draws n (k + 1) s'

/-- The outer loop of `SabrSimulator::simulate` (`sabr.rs` 230-240). -/
noncomputable def Sabr.pathsLoop (p : Sabr) (forward0 dt : ℝ) (nSteps : ℕ)
    (draws : ℕ → Fin 2 → ℝ) : ℕ → ℕ → Outcome (List SabrState)
  | 0, _ => .ok []
  | n + 1, k => do
    let s ← p.pathLoop dt draws nSteps k (p.initial forward0)
    let rest ← p.pathsLoop forward0 dt nSteps draws n (k + nSteps)
    .ok (s :: rest)

/-- `SabrSimulator::simulate` (`sabr.rs` 226-242). -/
noncomputable def Sabr.simulate (p : Sabr) (forward0 : ℝ) (draws : ℕ → Fin 2 → ℝ) (tEnd : ℝ)
    (nSteps nPaths : ℕ) : Outcome (List SabrState) :=
  if 0 < nSteps ∧ 0 < nPaths ∧ 0 < tEnd then
    p.pathsLoop forward0 (tEnd / nSteps) nSteps draws nPaths 0
  else .panic

end Verif
