import Verif.Model.Outcome
import Mathlib.Analysis.SpecialFunctions.Pow.Real

/-!
# SABR

Model of `/repo/src/models/forex/sabr.rs` over the reals.  Random draws are arguments.
-/

namespace Verif

open Classical

/-- `SabrParams` (`sabr.rs` 36-41). -/
structure Sabr where
  alpha : ℝ
  beta : ℝ
  rho : ℝ
  nu : ℝ

/-- `SabrParams::new` (`sabr.rs` 44-56); a failed `assert!` panics. -/
noncomputable def Sabr.new (alpha beta rho nu : ℝ) : Outcome Sabr :=
  if 0 < alpha then
    if 0 ≤ beta ∧ beta ≤ 1 then
      if -1 < rho ∧ rho < 1 then
        if 0 ≤ nu then .ok ⟨alpha, beta, rho, nu⟩ else .panic
      else .panic
    else .panic
  else .panic

/-- `fk_half` (`sabr.rs` 91). -/
noncomputable def Sabr.fkHalf (p : Sabr) (f k : ℝ) : ℝ := (f * k) ^ (0.5 * (1 - p.beta))

/-- `z` (`sabr.rs` 94-98). -/
noncomputable def Sabr.z (p : Sabr) (f k : ℝ) : ℝ :=
  if 0 < p.alpha then p.nu / p.alpha * p.fkHalf f k * Real.log (f / k) else 0

/-- `z_over_x` (`sabr.rs` 100-108). -/
noncomputable def zOverX (rho z : ℝ) : ℝ :=
  if |z| < 1 / 10 ^ 8 then 1 - 0.5 * rho * z + 1 / 12 * (3 * rho * rho - 2) * z * z
  else
    let num := √(1 - 2 * rho * z + z * z) + z - rho
    let den := 1 - rho
    z / Real.log (num / den)

/-- `expansion_denom` (`sabr.rs` 110-113). -/
noncomputable def Sabr.expansionDenom (p : Sabr) (f k : ℝ) : ℝ :=
  let lsq := Real.log (f / k) * Real.log (f / k)
  1 + (1 - p.beta) ^ 2 / 24 * lsq + (1 - p.beta) ^ 4 / 1920 * lsq * lsq

/-- `time_correction` (`sabr.rs` 115-119). -/
noncomputable def Sabr.timeCorrection (p : Sabr) (f k t : ℝ) : ℝ :=
  1 + ((1 - p.beta) ^ 2 / 24 * p.alpha * p.alpha / (p.fkHalf f k * p.fkHalf f k)
    + 0.25 * p.rho * p.beta * p.nu * p.alpha / p.fkHalf f k
    + (2 - 3 * p.rho * p.rho) * p.nu * p.nu / 24) * t

/-- `hagan_implied_vol` (`sabr.rs` 78-122); a failed `assert!` panics. -/
noncomputable def haganVol (p : Sabr) (f k t : ℝ) : Outcome ℝ :=
  if 0 < f ∧ 0 < k ∧ 0 < t then
    .ok (p.alpha / (p.fkHalf f k * p.expansionDenom f k) * zOverX p.rho (p.z f k) *
      p.timeCorrection f k t)
  else .panic

/-- `hagan_atm_vol` (`sabr.rs` 126-141). -/
noncomputable def haganAtm (p : Sabr) (f t : ℝ) : ℝ :=
  let g := f ^ (1 - p.beta)
  let correction := 1 + ((1 - p.beta) ^ 2 / 24 * p.alpha * p.alpha / g ^ 2
    + 0.25 * p.rho * p.beta * p.nu * p.alpha / g
    + (2 - 3 * p.rho * p.rho) * p.nu * p.nu / 24) * t
  p.alpha / g * correction

/-- `SabrState` (`sabr.rs` 145-148). -/
structure SabrState where
  forward : ℝ
  vol : ℝ

/-- The state returned by `step_with_noise` (`sabr.rs` 197-222) on the two normal draws `z1`, `z2`;
a step that is not positive panics. -/
noncomputable def Sabr.step (p : Sabr) (s : SabrState) (dt z1 z2 : ℝ) : Outcome SabrState :=
  if 0 < dt then
    let dwF := √dt * z1
    let dwA := √dt * (p.rho * z1 + √(1 - p.rho * p.rho) * z2)
    let f := max s.forward 0
    let alpha := max s.vol 0
    let newForward := max (f + alpha * f ^ p.beta * dwF) 0
    let logDrift := -0.5 * p.nu * p.nu * dt
    let logDiffusion := p.nu * dwA
    .ok ⟨newForward, alpha * Real.exp (logDrift + logDiffusion)⟩
  else .panic

/-- The inner loop of `simulate` (`sabr.rs` 235-238): one path, with the pairs of draws listed. -/
noncomputable def Sabr.path (p : Sabr) (dt : ℝ) : SabrState → List (ℝ × ℝ) → Outcome SabrState
  | s, [] => .ok s
  | s, (z1, z2) :: zs => do
    let s' ← p.step s dt z1 z2
    p.path dt s' zs

/-- `initial_state` (`sabr.rs` 248-253). -/
def Sabr.initial (p : Sabr) (forward0 : ℝ) : SabrState := ⟨forward0, p.alpha⟩

end Verif
