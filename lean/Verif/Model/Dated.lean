import Verif.Model.Simulation
import Verif.Model.Fmm
import Verif.Model.Sabr
import Verif.Model.ShortRate

/-!
# Simulators driven by dates

The `SimulationModel` implementations of `/repo/src/models/interestrate/fmm.rs`,
`/repo/src/models/forex/sabr.rs`, `/repo/src/models/interestrate/hull_white.rs` and
`/repo/src/models/common/cir.rs`.  The states of the first two carry the panics of their steps.
-/

namespace Verif

open Outcome

/-- `impl SimulationModel for FmmSimulator` (`fmm.rs` 573-585); the time passed by the driver is
ignored, the path keeps its own. -/
noncomputable def FmmSimulator.toModel (s : FmmSimulator) (draws : ℕ → List ℝ) :
    SimModel (Outcome FmmPath) ℕ where
  initial _ := s.initialPath
  step k p _t dt := (do
    let p ← p
    s.step p dt (draws k), k + 1)

/-- `impl SimulationModel for SabrSimulator` (`sabr.rs` 245-258); the time passed by the driver is
ignored. -/
noncomputable def Sabr.toModel (p : Sabr) (forward0 : ℝ) (draws : ℕ → Fin 2 → ℝ) :
    SimModel (Outcome SabrState) ℕ where
  initial _ := .ok (p.initial forward0)
  step k s _t dt := (do
    let s ← s
    p.step s dt (draws k 0) (draws k 1), k + 1)

/-- `impl SimulationModel for HullWhiteSimulator` (`hull_white.rs` 191-203). -/
noncomputable def HullWhite.toModel (h : HullWhite) (theta : ℝ → ℝ) (r0 : ℝ) (draws : ℕ → ℝ) :
    SimModel ℝ ℕ where
  initial _ := r0
  step k r t dt := (h.step theta r t dt (draws k), k + 1)

/-- `impl SimulationModel for CirSimulator` (`cir.rs` 226-241). -/
noncomputable def Cir.toModel (p : Cir) (draws : ℕ → ℝ) : SimModel ℝ ℕ where
  initial _ := p.sigma0
  step k v _t dt := (p.step v dt (draws k), k + 1)

end Verif
