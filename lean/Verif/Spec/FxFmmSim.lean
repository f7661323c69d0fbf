import Verif.Model.FxFmmSim
import Verif.Spec.Fmm
import Verif.Spec.Chain
import Verif.Spec.GaussVec

/-!
# What a path of the FX-FMM simulator has to satisfy
-/

namespace Verif

open Classical

/-- The forward market model of one currency. -/
def sideFmm (l : FmmSide) (q : FmmTenor) : Fmm := ⟨q, l.sigmas, l.rateCorr, none, none⟩

/-- Its simulator when the correlated increments are given from outside. -/
noncomputable def sideSim (l : FmmSide) (q : FmmTenor) : FmmSimulator :=
  ⟨sideFmm l q, fun i k => if i = k then 1 else 0⟩

/-- The draws for which the increments of `sideSim` are `w 1, …, w m`. -/
noncomputable def unitDraws (m : ℕ) (dt : ℝ) (w : ℕ → ℝ) : List ℝ :=
  (List.range m).map fun i => w (i + 1) / √dt

/-- The correlations of the `2 + 2m` Brownian motions in the order FX, variance, domestic rates,
foreign rates, as configured: within a currency the lower triangle of its matrix, across currencies
the mean of the two entries. -/
structure JointCorrelation (p : FmmParams) (c : ℕ → ℕ → ℝ) : Prop where
  symm : ∀ a b, c a b = c b a
  fx : c 0 0 = 1
  variance : c 1 1 = 1
  fxVariance : c 0 1 = p.correlations.xiSigma
  fxDom : ∀ j, 1 ≤ j → j ≤ p.tenor.m → c 0 (1 + j) = p.correlations.xiD.getD (j - 1) 0
  fxFgn : ∀ j, 1 ≤ j → j ≤ p.tenor.m → c 0 (1 + p.tenor.m + j) = p.correlations.xiF.getD (j - 1) 0
  varDom : ∀ j, 1 ≤ j → j ≤ p.tenor.m → c 1 (1 + j) = p.correlations.sigmaD.getD (j - 1) 0
  varFgn : ∀ j, 1 ≤ j → j ≤ p.tenor.m →
    c 1 (1 + p.tenor.m + j) = p.correlations.sigmaF.getD (j - 1) 0
  dom : ∀ i, i ≤ p.tenor.m → ∀ j, 1 ≤ j → j ≤ i → c (1 + i) (1 + j) = matAt p.domestic.rateCorr i j
  fgn : ∀ i, i ≤ p.tenor.m → ∀ j, 1 ≤ j → j ≤ i →
    c (1 + p.tenor.m + i) (1 + p.tenor.m + j) = matAt p.foreign.rateCorr i j
  cross : ∀ i, 1 ≤ i → i ≤ p.tenor.m → ∀ j, 1 ≤ j → j ≤ p.tenor.m →
    c (1 + i) (1 + p.tenor.m + j)
      = (matAt p.correlations.cross i j + matAt p.correlations.cross j i) / 2

/-- The vectors have one entry per rate and both currencies are at the same time. -/
structure FxFmmState.Fits (st : FxFmmState) (m : ℕ) : Prop where
  dom : st.dom.Fits m
  fgn : st.fgn.Fits m
  time : st.fgn.t = st.dom.t

/-- The number of the rate that runs at `t`, the last one after all dates. -/
noncomputable def runningRate (q : FmmTenor) (t : ℝ) : ℕ :=
  if h : ∃ j, 1 ≤ j ∧ j ≤ q.m ∧ t ≤ q.T j then Nat.find h else q.m

/-- The difference of the running rates. -/
noncomputable def FxFmmState.carry (st : FxFmmState) (q : FmmTenor) : ℝ :=
  st.dom.R (runningRate q st.dom.t) - st.fgn.R (runningRate q st.dom.t)

/-- The drift of the `j`-th rate of one currency under its own measure, over a step from `t`. -/
noncomputable def sideDrift (l : FmmSide) (q : FmmTenor) (p : FmmPath) (dt : ℝ) (j : ℕ) : ℝ :=
  fmmDrift (matAt l.rateCorr) q.len p.R
    (fun i => l.sigmas.getD (i - 1) 0 * ahead q i (p.t + 1 / 2 * dt)) j

/-- The volatility of the `j`-th rate of one currency over a step from `t`. -/
noncomputable def sideVolAt (l : FmmSide) (q : FmmTenor) (p : FmmPath) (dt : ℝ) (j : ℕ) : ℝ :=
  l.sigmas.getD (j - 1) 0 * ahead q j (p.t + 1 / 2 * dt)

/-- Step `k` of a path: length `dt k`. -/
noncomputable def fxFmmChainStep (s : FxFmmSim) (dt : ℕ → ℝ) (k : ℕ) (st : FxFmmState)
    (z : Fin s.size → ℝ) : FxFmmState :=
  s.next st (dt k) z

/-- The ratio of the two accounts along a path, compounding the running rates continuously. -/
noncomputable def fxFmmCarry (s : FxFmmSim) (dt : ℕ → ℝ) (n : ℕ) (st : FxFmmState)
    (z : ℕ → Fin s.size → ℝ) : ℝ :=
  Real.exp (∑ k ∈ Finset.range n, (chain (fxFmmChainStep s dt) k st z).carry s.params.tenor * dt k)

end Verif
