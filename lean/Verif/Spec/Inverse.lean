import Verif.Model.HhwChf
import Verif.Model.Sabr

/-!
# Quoting the pair in the other direction

The exchange rate `S` counts domestic units per foreign unit; `1 / S` counts foreign units per
domestic unit and is the rate of the inverse pair, whose domestic currency is the foreign one.
Measured in the other currency the variance process has the mean reversion `κ - γ ρ` with the same
product `κ θ`, and the driver of `log S` changes sign.
-/

namespace Verif

/-- The correlations of the inverse pair. -/
def Correlation4.inverse (c : Correlation4) : Correlation4 :=
  { xiSigma := -c.xiSigma, xiD := -c.xiF, xiF := -c.xiD, sigmaD := c.sigmaF, sigmaF := c.sigmaD,
    dF := c.dF }

/-- The mean reversion of the variance measured in the other currency. -/
noncomputable def HhwParams.inverseKappa (p : HhwParams) : ℝ :=
  p.heston.kappa - p.heston.gamma * p.correlations.xiSigma

/-- The FX-HHW parameters of the inverse pair. -/
noncomputable def HhwParams.inverse (p : HhwParams) : HhwParams :=
  { fx0 := 1 / p.fx0
    heston := ⟨p.inverseKappa, p.heston.kappa * p.heston.theta / p.inverseKappa, p.heston.gamma,
      p.heston.sigma0⟩
    domestic := p.foreign
    foreign := p.domestic
    rd0 := p.rf0
    rf0 := p.rd0
    thetaD := p.thetaF
    thetaF := p.thetaD
    correlations := p.correlations.inverse }

end Verif
