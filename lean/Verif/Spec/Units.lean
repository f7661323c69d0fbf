import Verif.Model.Calibrate
import Verif.Model.FxFmmSim
import Verif.Model.HhwStock
import Verif.Model.TdSabr

/-!
# Quoting in another unit

What the same market looks like when the domestic currency is counted in units `c` times smaller:
amounts of domestic currency per unit of foreign currency are multiplied by `c`, rates, variances,
correlations and amounts of foreign currency stay.
-/

namespace Verif

/-- The FX-HHW parameters in the new unit. -/
noncomputable def HhwParams.inUnit (p : HhwParams) (c : ℝ) : HhwParams := { p with fx0 := c * p.fx0 }

/-- The FX-HLMM parameters in the new unit. -/
noncomputable def HlmmParams.inUnit (p : HlmmParams) (c : ℝ) : HlmmParams :=
  { p with fx0 := c * p.fx0 }

/-- The FX-FMM parameters in the new unit. -/
noncomputable def FmmParams.inUnit (p : FmmParams) (c : ℝ) : FmmParams := { p with fx0 := c * p.fx0 }

/-- A state of the FX-HHW simulator in the new unit. -/
noncomputable def HhwState.inUnit (c : ℝ) (s : HhwState) : HhwState := { s with fx := c * s.fx }

/-- A state of the foreign-stock simulator in the new unit; the stock is quoted in the foreign
currency. -/
noncomputable def HhwStockState.inUnit (c : ℝ) (s : HhwStockState) : HhwStockState :=
  { s with fx := s.fx.inUnit c }

/-- A state of the FX-FMM simulator in the new unit. -/
noncomputable def FxFmmState.inUnit (c : ℝ) (s : FxFmmState) : FxFmmState :=
  { s with fx := c * s.fx }

/-- SABR parameters in the new unit: `alpha` multiplies the power `beta` of the forward. -/
noncomputable def Sabr.inUnit (p : Sabr) (c : ℝ) : Sabr :=
  { p with alpha := c ^ (1 - p.beta) * p.alpha }

/-- A SABR state in the new unit. -/
noncomputable def SabrState.inUnit (beta c : ℝ) (s : SabrState) : SabrState :=
  ⟨c * s.forward, c ^ (1 - beta) * s.vol⟩

/-- Time-dependent SABR parameters in the new unit. -/
noncomputable def TdSabr.inUnit (p : TdSabr) (c : ℝ) : TdSabr :=
  { p with
    alpha := { p.alpha with values := p.alpha.values.map (c ^ (1 - p.beta) * ·) }
    forward0 := c * p.forward0 }

end Verif
