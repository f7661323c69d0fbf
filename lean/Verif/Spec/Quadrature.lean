import Verif.Spec.CirLaw
import Verif.Spec.FxFmm

/-!
# What the quadratures of the FX-HLMM1 and FX-FMM1 characteristic functions approximate
-/

namespace Verif

open MeasureTheory

/-- Mean of `√σ(t)` under the law of the process; at the start the root of the initial value. -/
noncomputable def Cir.rootMean (p : Cir) (t : ℝ) : ℝ :=
  if t ≤ 0 then √p.sigma0 else ∫ y, √y ∂p.law t

/-- Up to `T` the values of `sqrt_mean` have relative errors of at most `w`. -/
def Cir.RootWithin (p : Cir) (w T : ℝ) : Prop :=
  ∀ t ∈ Set.Icc 0 T, ∃ v, p.sqrtMean t = .ok v ∧ |v - p.rootMean t| ≤ w * p.rootMean t

/-- The covariances between the FX factor with loading `x`, the domestic rate factors with loadings `d`
and the foreign ones with loadings `f`, per unit of time. -/
noncomputable def crossCov (xiD xiF : List ℝ) (cross : List (List ℝ)) (s : Finset ℕ) (x : ℝ) (d f : ℕ → ℝ) : ℝ :=
  2 * (x * ∑ j ∈ s, d j * xiD.getD (j - 1) 0) + 2 * (x * ∑ j ∈ s, f j * xiF.getD (j - 1) 0)
    + 2 * ∑ i ∈ s, ∑ j ∈ s, d i * f j * matAt cross i j

/-- The sizes of the three covariances added up. -/
noncomputable def crossSize (xiD xiF : List ℝ) (cross : List (List ℝ)) (s : Finset ℕ) (x : ℝ) (d f : ℕ → ℝ) : ℝ :=
  |2 * (x * ∑ j ∈ s, d j * xiD.getD (j - 1) 0)| + |2 * (x * ∑ j ∈ s, f j * xiF.getD (j - 1) 0)|
    + |2 * ∑ i ∈ s, ∑ j ∈ s, d i * f j * matAt cross i j|

/-- Cross covariance of the log-forward at calendar time `t` in the FX-HLMM model, every root of a
variance replaced by its mean. -/
noncomputable def HlmmParams.meanCross (p : HlmmParams) (t : ℝ) : ℝ :=
  crossCov p.correlations.xiD p.correlations.xiF p.correlations.cross (openLibors p.tenor t)
    (p.heston.rootMean t)
    (fun j => (Cir.mk p.domestic.lambda p.domestic.v0 p.domestic.eta p.domestic.v0).rootMean t * loading p.domestic p.tenor j)
    (fun j => -((Cir.mk p.foreign.lambda p.foreign.v0 p.foreign.eta p.foreign.v0).rootMean t * loading p.foreign p.tenor j))

/-- Its size. -/
noncomputable def HlmmParams.meanCrossSize (p : HlmmParams) (t : ℝ) : ℝ :=
  crossSize p.correlations.xiD p.correlations.xiF p.correlations.cross (openLibors p.tenor t)
    (p.heston.rootMean t)
    (fun j => (Cir.mk p.domestic.lambda p.domestic.v0 p.domestic.eta p.domestic.v0).rootMean t * loading p.domestic p.tenor j)
    (fun j => -((Cir.mk p.foreign.lambda p.foreign.v0 p.foreign.eta p.foreign.v0).rootMean t * loading p.foreign p.tenor j))

/-- The same in the FX-FMM model; the loadings of rates that have ended are zero. -/
noncomputable def FmmParams.meanCross (p : FmmParams) (t : ℝ) : ℝ :=
  crossCov p.correlations.xiD p.correlations.xiF p.correlations.cross (Finset.Icc 1 p.tenor.m)
    (p.heston.rootMean t)
    (fun j => (Cir.mk p.domestic.lambda p.domestic.v0 p.domestic.eta p.domestic.v0).rootMean t * fmmLoading p.domestic p.tenor t j)
    (fun j => -((Cir.mk p.foreign.lambda p.foreign.v0 p.foreign.eta p.foreign.v0).rootMean t * fmmLoading p.foreign p.tenor t j))

/-- Its size. -/
noncomputable def FmmParams.meanCrossSize (p : FmmParams) (t : ℝ) : ℝ :=
  crossSize p.correlations.xiD p.correlations.xiF p.correlations.cross (Finset.Icc 1 p.tenor.m)
    (p.heston.rootMean t)
    (fun j => (Cir.mk p.domestic.lambda p.domestic.v0 p.domestic.eta p.domestic.v0).rootMean t * fmmLoading p.domestic p.tenor t j)
    (fun j => -((Cir.mk p.foreign.lambda p.foreign.v0 p.foreign.eta p.foreign.v0).rootMean t * fmmLoading p.foreign p.tenor t j))

end Verif
