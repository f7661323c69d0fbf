import Verif.Lemmas.FxFmmMoments
import Verif.Props.HhwSim
import Verif.Props.FxFmm

/-!
# C68: the FX-FMM path simulator

Expectations are integrals over independent standard normal draws.
-/

namespace Verif

open MeasureTheory ProbabilityTheory Outcome Classical

theorem jointCorr_spec (p : FmmParams) : JointCorrelation p (lowerSym (jointCorr p)) := by
  have hs : ∀ a b, lowerSym (jointCorr p) a b = lowerSym (jointCorr p) b a := fun a b => by
    rw [lowerSym, lowerSym, max_comm, min_comm]
  have lo : ∀ a b, b ≤ a → lowerSym (jointCorr p) a b = jointCorr p a b := fun a b h => by
    rw [lowerSym, max_eq_left h, min_eq_right h]
  refine ⟨hs, ?_, ?_, ?_, ?_, ?_, ?_, ?_, ?_, ?_, ?_⟩
  · rw [lo _ _ le_rfl]; simp [jointCorr]
  · rw [lo _ _ le_rfl]; simp [jointCorr]
  · rw [hs, lo _ _ (by omega)]; simp [jointCorr]
  · intro j j1 j2
    rw [hs, lo _ _ (by omega)]
    unfold jointCorr
    dsimp only
    rw [if_neg (by omega), if_neg (by omega), if_pos (by omega), if_pos rfl]
    congr 1; omega
  · intro j j1 j2
    rw [hs, lo _ _ (by omega)]
    unfold jointCorr
    dsimp only
    rw [if_neg (by omega), if_neg (by omega), if_neg (by omega), if_pos rfl]
    congr 1; omega
  · intro j j1 j2
    rw [hs, lo _ _ (by omega)]
    unfold jointCorr
    dsimp only
    rw [if_neg (by omega), if_neg (by omega), if_pos (by omega), if_neg (by omega), if_pos rfl]
    congr 1; omega
  · intro j j1 j2
    rw [hs, lo _ _ (by omega)]
    unfold jointCorr
    dsimp only
    rw [if_neg (by omega), if_neg (by omega), if_neg (by omega), if_neg (by omega), if_pos rfl]
    congr 1; omega
  · intro i i2 j j1 j2
    rw [lo _ _ (by omega)]
    unfold jointCorr
    dsimp only
    rw [if_neg (by omega), if_neg (by omega), if_pos (by omega), if_neg (by omega),
      if_neg (by omega), if_pos (by omega), matAt, show 1 + i - 2 = i - 1 by omega,
      show 1 + j - 2 = j - 1 by omega]
  · intro i i2 j j1 j2
    rw [lo _ _ (by omega)]
    unfold jointCorr
    dsimp only
    rw [if_neg (by omega), if_neg (by omega), if_neg (by omega), if_neg (by omega),
      if_neg (by omega), if_neg (by omega), matAt,
      show 1 + p.tenor.m + i - 2 - p.tenor.m = i - 1 by omega,
      show 1 + p.tenor.m + j - 2 - p.tenor.m = j - 1 by omega]
  · intro i i1 i2 j j1 j2
    rw [hs, lo _ _ (by omega)]
    unfold jointCorr
    dsimp only
    rw [if_neg (by omega), if_neg (by omega), if_neg (by omega), if_neg (by omega),
      if_neg (by omega), if_pos (by omega), matAt, matAt,
      show 1 + p.tenor.m + j - 2 - p.tenor.m = j - 1 by omega,
      show 1 + i - 2 = i - 1 by omega]
    ring

theorem jointCorr_unique {p : FmmParams} {c c' : ℕ → ℕ → ℝ} (h : JointCorrelation p c)
    (h' : JointCorrelation p c') : ∀ a < 2 + 2 * p.tenor.m, ∀ b < 2 + 2 * p.tenor.m,
    c a b = c' a b := by
  have key : ∀ a < 2 + 2 * p.tenor.m, ∀ b ≤ a, c a b = c' a b := by
    intro a ha b hb
    by_cases a0 : a = 0
    · obtain rfl : b = 0 := by omega
      subst a0
      rw [h.fx, h'.fx]
    by_cases a1 : a = 1
    · subst a1
      by_cases b0 : b = 0
      · subst b0; rw [h.symm, h'.symm, h.fxVariance, h'.fxVariance]
      · obtain rfl : b = 1 := by omega
        rw [h.variance, h'.variance]
    by_cases am : a < 2 + p.tenor.m
    · obtain ⟨i, rfl⟩ : ∃ i, a = 1 + i := ⟨a - 1, by omega⟩
      by_cases b0 : b = 0
      · subst b0; rw [h.symm, h'.symm, h.fxDom i (by omega) (by omega), h'.fxDom i (by omega) (by omega)]
      by_cases b1 : b = 1
      · subst b1; rw [h.symm, h'.symm, h.varDom i (by omega) (by omega), h'.varDom i (by omega) (by omega)]
      obtain ⟨j, rfl⟩ : ∃ j, b = 1 + j := ⟨b - 1, by omega⟩
      rw [h.dom i (by omega) j (by omega) (by omega), h'.dom i (by omega) j (by omega) (by omega)]
    obtain ⟨i, rfl⟩ : ∃ i, a = 1 + p.tenor.m + i := ⟨a - 1 - p.tenor.m, by omega⟩
    by_cases b0 : b = 0
    · subst b0; rw [h.symm, h'.symm, h.fxFgn i (by omega) (by omega), h'.fxFgn i (by omega) (by omega)]
    by_cases b1 : b = 1
    · subst b1; rw [h.symm, h'.symm, h.varFgn i (by omega) (by omega), h'.varFgn i (by omega) (by omega)]
    by_cases bm : b < 2 + p.tenor.m
    · obtain ⟨j, rfl⟩ : ∃ j, b = 1 + j := ⟨b - 1, by omega⟩
      rw [h.symm, h'.symm, h.cross j (by omega) (by omega) i (by omega) (by omega),
        h'.cross j (by omega) (by omega) i (by omega) (by omega)]
    obtain ⟨j, rfl⟩ : ∃ j, b = 1 + p.tenor.m + j := ⟨b - 1 - p.tenor.m, by omega⟩
    rw [h.fgn i (by omega) j (by omega) (by omega), h'.fgn i (by omega) j (by omega) (by omega)]
  intro a ha b hb
  rcases le_total b a with hba | hba
  · exact key a ha b hba
  · rw [h.symm, h'.symm]; exact key b hb a hba

theorem posDef_congr {n : ℕ} {c c' : ℕ → ℕ → ℝ} (h : ∀ a < n, ∀ b < n, c a b = c' a b) :
    PositiveDefiniteN n c ↔ PositiveDefiniteN n c' := by
  have : ∀ x, quadForm n c x = quadForm n c' x := fun x =>
    Finset.sum_congr rfl fun a ha => Finset.sum_congr rfl fun b hb => by
      rw [h a (Finset.mem_range.1 ha) b (Finset.mem_range.1 hb)]
  unfold PositiveDefiniteN
  simp_rw [this]

/-- **C68.** The simulator is built exactly for validated parameters whose joint correlation matrix is
positive definite; otherwise an error is returned and nothing panics.  There is exactly one such
matrix. -/
theorem C68_new (p : FmmParams) :
    (∃ c, JointCorrelation p c)
    ∧ ∀ c, JointCorrelation p c →
      ((∃ s, FxFmmSim.new p = .ok s) ↔ p.Valid ∧ PositiveDefiniteN (2 + 2 * p.tenor.m) c)
      ∧ (¬ (p.Valid ∧ PositiveDefiniteN (2 + 2 * p.tenor.m) c) →
        FxFmmSim.new p = .fail .invalidData)
      ∧ (∀ s, FxFmmSim.new p = .ok s → s.params = p)
      ∧ ∀ c', JointCorrelation p c' →
        ∀ a < 2 + 2 * p.tenor.m, ∀ b < 2 + 2 * p.tenor.m, c a b = c' a b := by
  refine ⟨⟨_, jointCorr_spec p⟩, fun c hc => ?_⟩
  have h1 := (C52_iff (2 + 2 * p.tenor.m) _ (lowerSym_symmetric _ (jointCorr p))).1
  rw [← cholesky_lower, posDef_congr (jointCorr_unique (jointCorr_spec p) hc)] at h1
  refine ⟨?_, fun h => ?_, fun s hs => (fxFmm_new hs).1, fun c' hc' => jointCorr_unique hc hc'⟩
  · rw [← h1]
    unfold FxFmmSim.new
    by_cases hv : p.Valid
    · rw [if_pos hv]
      cases cholesky (2 + 2 * p.tenor.m) (jointCorr p) with
      | none => simp
      | some l => simp [hv]
    · rw [if_neg hv]; simp [hv]
  · rw [← h1] at h
    unfold FxFmmSim.new
    by_cases hv : p.Valid
    · rw [if_pos hv]
      cases hc : cholesky (2 + 2 * p.tenor.m) (jointCorr p) with
      | none => rfl
      | some l => rw [hc] at h; exact absurd ⟨hv, rfl⟩ h
    · rw [if_neg hv]

/-- **C68.** The first state: spot, initial variance, time zero and the same curve in both
currencies, hence no interest-rate differential. -/
theorem C68_initial (p : FmmParams) (hq : p.tenor.Ordered) :
    ∃ st, FxFmmState.initial p = .ok st ∧ st.Fits p.tenor.m ∧ st.fx = p.fx0
      ∧ st.variance = p.heston.sigma0 ∧ st.dom.t = 0 ∧ st.carry p.tenor = 0
      ∧ ∀ j, 1 ≤ j → j ≤ p.tenor.m → st.dom.R j = p.tenor.R j ∧ st.fgn.R j = p.tenor.R j := by
  have hm := hq.1
  unfold FxFmmState.initial
  dsimp only
  rw [unwrap_getD p.tenor.rates 0 (by exact hm) 0, ok_bind]
  refine ⟨_, rfl, ⟨⟨rfl, by simp, by simp, by simp⟩, ⟨rfl, by simp, by simp, by simp⟩, rfl⟩, rfl, rfl,
    rfl, ?_, fun j _ _ => ⟨rfl, rfl⟩⟩
  unfold FxFmmState.carry
  dsimp only
  rw [sub_self]

/-- **C68.** A step of positive length succeeds whatever the draws, advances the common time by `dt`
and gives a positive FX rate and a non-negative variance; any other length panics. -/
theorem C68_step {p : FmmParams} {s : FxFmmSim} (h : FxFmmSim.new p = .ok s) (hq : p.tenor.Ordered)
    {st : FxFmmState} (hst : st.Fits p.tenor.m) (dt : ℝ) (z : Fin s.size → ℝ) :
    (0 < dt → ∃ st', s.step st dt z = .ok st' ∧ st'.Fits p.tenor.m ∧ st'.dom.t = st.dom.t + dt
      ∧ st'.fgn.t = st.fgn.t + dt ∧ 0 < st'.fx ∧ 0 ≤ st'.variance)
    ∧ (dt ≤ 0 → s.step st dt z = .panic) := by
  obtain ⟨rfl, hv, -⟩ := fxFmm_new h
  constructor
  · intro hdt
    obtain ⟨h1, h2, h3, h4, -⟩ := fxNext_ok hq hv hst hdt z
    refine ⟨_, h1, h2, h3, ?_, fxNext_fx_pos hq hv hst hdt z, h4 ▸ le_max_right _ _⟩
    rw [h2.time, h3, hst.time]
  · intro hdt
    rw [FxFmmSim.step, if_neg (not_lt.2 hdt)]

/-- **C68.** The correlated increments of a step are centred, and their covariances are the
configured correlations times `dt`. -/
theorem C68_noise {p : FmmParams} {s : FxFmmSim} (h : FxFmmSim.new p = .ok s) {c : ℕ → ℕ → ℝ}
    (hc : JointCorrelation p c) {dt : ℝ} (hdt : 0 < dt) {i : ℕ} (hi : i < 2 + 2 * p.tenor.m) :
    (Integrable (fun z => s.dw dt z i) (stdNormal s.size) ∧ ∫ z, s.dw dt z i ∂stdNormal s.size = 0)
    ∧ ∀ j < 2 + 2 * p.tenor.m,
      Integrable (fun z => s.dw dt z i * s.dw dt z j) (stdNormal s.size)
      ∧ ∫ z, s.dw dt z i * s.dw dt z j ∂stdNormal s.size = c i j * dt := by
  obtain ⟨rfl, hv, hf⟩ := fxFmm_new h
  refine ⟨fxDw_mean hf dt hi, fun j hj => ?_⟩
  rw [jointCorr_unique hc (jointCorr_spec _) i hi j hj]
  exact fxDw_cov hf hdt.le hi hj

/-- **C68.** The domestic rates, accumulated variances, snapshots and `x` move exactly as in the
forward market model of the domestic currency, driven by the increments `2, …, 1 + m`. -/
theorem C68_domestic {p : FmmParams} {s : FxFmmSim} (h : FxFmmSim.new p = .ok s)
    (hq : p.tenor.Ordered) {st : FxFmmState} (hst : st.Fits p.tenor.m) {dt : ℝ} (hdt : 0 < dt)
    (z : Fin s.size → ℝ) :
    ∃ st', s.step st dt z = .ok st'
      ∧ (sideSim p.domestic p.tenor).step st.dom dt
          (unitDraws p.tenor.m dt fun j => s.dw dt z (1 + j)) = .ok st'.dom
      ∧ ∀ i < p.tenor.m, (sideSim p.domestic p.tenor).dw dt
          (unitDraws p.tenor.m dt fun j => s.dw dt z (1 + j)) i = s.dw dt z (2 + i) := by
  obtain ⟨rfl, hv, -⟩ := fxFmm_new h
  obtain ⟨st', f', h1, h2, -⟩ := fxStep_ok hq hv hst hdt z
  refine ⟨st', h1, h2, fun i hi => ?_⟩
  rw [unit_dw hv.1 hdt _ hi]
  congr 1
  omega

/-- **C68.** The foreign rates, accumulated variances and snapshots move exactly as in the forward
market model of the foreign currency, driven by the increments `2 + m, …, 1 + 2m` less the quanto
shift `ρ √σ dt`.  `x` agrees only outside the running period; inside it lacks the shift. -/
theorem C68_foreign_partial {p : FmmParams} {s : FxFmmSim} (h : FxFmmSim.new p = .ok s)
    (hq : p.tenor.Ordered) {st : FxFmmState} (hst : st.Fits p.tenor.m) {dt : ℝ} (hdt : 0 < dt)
    (z : Fin s.size → ℝ) :
    ∃ st' f', s.step st dt z = .ok st'
      ∧ (sideSim p.foreign p.tenor).step st.fgn dt
          (unitDraws p.tenor.m dt fun j => s.dw dt z (1 + p.tenor.m + j)
            - p.correlations.xiF.getD (j - 1) 0 * √(max st.variance 0) * dt) = .ok f'
      ∧ st'.fgn.rates = f'.rates ∧ st'.fgn.yDiag = f'.yDiag
      ∧ st'.fgn.ratesAtStart = f'.ratesAtStart ∧ st'.fgn.yAtStart = f'.yAtStart
      ∧ st'.fgn.t = f'.t
      ∧ ((∀ k, 1 ≤ k → k ≤ p.tenor.m → st.dom.t ≤ p.tenor.T (k - 1) ∨ p.tenor.T k ≤ st.dom.t) →
        st'.fgn.xActive = f'.xActive)
      ∧ ∀ k, 1 ≤ k → k ≤ p.tenor.m → p.tenor.T (k - 1) < st.dom.t → st.dom.t < p.tenor.T k →
        st.dom.t + dt ≤ p.tenor.T k →
        st'.fgn.xActive = f'.xActive + p.foreign.sigmas.getD (k - 1) 0
          / (1 / 2 * (st.fgn.R k + st'.fgn.R k) + 1 / p.tenor.len k)
          * (p.correlations.xiF.getD (k - 1) 0 * √(max st.variance 0) * dt) := by
  obtain ⟨rfl, hv, -⟩ := fxFmm_new h
  obtain ⟨st', f', h1, -, h3, h4, h5, h6, h7, h8, -, -, h11⟩ := fxStep_ok hq hv hst hdt z
  refine ⟨st', f', h1, h3, h4, h5, h6, h7, h8, fun hout => ?_, fun k k1 k2 k3 k4 k5 => ?_⟩
  · refine (h11 _ rfl).2 ?_
    rintro ⟨k2, k3, k4, -⟩
    rcases hout _ (FmmTenor.eta_spec hq st.dom.t).2.1 k2 with hh | hh <;> linarith
  · have hk : s.params.tenor.etaN st.dom.t = k := by
      refine FmmTenor.etaN_unique hq k1 (by omega) (fun l l1 l2 => ?_) fun _ => k4.le
      exact (hq.mono (by omega : l ≤ k - 1) (by omega)).trans_lt k3
    exact (h11 k hk).1 ⟨k2, k3, k4, .inl k5⟩

/-- **C68.** One step is a martingale for the FX rate: `E[ξ'] = ξ · e^{(r_d − r_f) dt}` with the running
rates. -/
theorem C68_fx_mean {p : FmmParams} {s : FxFmmSim} (h : FxFmmSim.new p = .ok s) (hq : p.tenor.Ordered)
    {st : FxFmmState} (hst : st.Fits p.tenor.m) (hfx : 0 < st.fx) {dt : ℝ} (hdt : 0 < dt) :
    Integrable (fun z => (s.next st dt z).fx) (stdNormal s.size)
    ∧ ∫ z, (s.next st dt z).fx ∂stdNormal s.size
      = st.fx * Real.exp (st.carry p.tenor * dt) := by
  obtain ⟨rfl, hv, hf⟩ := fxFmm_new h
  have h0 : 0 < s.size := by unfold FxFmmSim.size; omega
  have hn := (fxDw_exp_all hf hdt.le h0 h0 (√(max st.variance 0))).1
  simp_rw [fxNext_fx hq hv hst hfx hdt]
  refine ⟨hn.1.const_mul _, ?_⟩
  rw [integral_const_mul, hn.2, mul_assoc, ← Real.exp_add, Real.sq_sqrt (le_max_right _ _),
    (jointCorr_spec s.params).fx]
  congr 2
  ring

/-- **C68.** Over any number of steps of any positive lengths the FX rate divided by the ratio of the
accounts, compounding the running rates continuously, has the spot as its mean. -/
theorem C68_martingale {p : FmmParams} {s : FxFmmSim} (h : FxFmmSim.new p = .ok s)
    (hq : p.tenor.Ordered) {dt : ℕ → ℝ} (hdt : ∀ k, 0 < dt k) {st : FxFmmState}
    (hst : st.Fits p.tenor.m) (hfx : 0 < st.fx) (n : ℕ) :
    Integrable (fun zs => (chain (fxFmmChainStep s dt) n st (firstDraws zs)).fx
      / fxFmmCarry s dt n st (firstDraws zs)) (iidLaw (stdNormal s.size) n)
    ∧ ∫ zs, (chain (fxFmmChainStep s dt) n st (firstDraws zs)).fx
        / fxFmmCarry s dt n st (firstDraws zs) ∂iidLaw (stdNormal s.size) n = st.fx := by
  obtain ⟨hp, hv, hf⟩ := fxFmm_new h
  subst hp
  have hm := measurable_fxChain hq hv hdt hst
  have := chain_martingale_of (stdNormal s.size) (fxFmmChainStep s dt)
    (fun st => st.Fits s.params.tenor.m ∧ 0 < st.fx)
    (fun k st z hs => ⟨(fxNext_ok hq hv hs.1 (hdt k) z).2.1, fxNext_fx_pos hq hv hs.1 (hdt k) z⟩)
    FxFmmState.fx (fun st hs => hs.2.le) (fun k st => st.carry s.params.tenor * dt k)
    (fun k st hs => (C68_fx_mean h hq hs.1 hs.2 (hdt k)).1)
    (fun k st hs => (C68_fx_mean h hq hs.1 hs.2 (hdt k)).2) ⟨hst, hfx⟩
    (fun n => (hm n).1) (fun k => (hm k).2.2.2.2.mul_const _) n
  simp_rw [Real.exp_neg, ← div_eq_mul_inv] at this
  exact this

/-- **C68.** Under the domestic measure: the domestic rates have the drift of their own model, the
foreign rates in addition the quanto term, and the log FX rate has drift `r_d − r_f − σ/2` and
variance `σ dt`. -/
theorem C68_moments {p : FmmParams} {s : FxFmmSim} (h : FxFmmSim.new p = .ok s) (hq : p.tenor.Ordered)
    {st : FxFmmState} (hst : st.Fits p.tenor.m) (hvar : 0 ≤ st.variance) {dt : ℝ} (hdt : 0 < dt) :
    (∀ j, 1 ≤ j → j ≤ p.tenor.m →
      ∫ z, (s.next st dt z).dom.R j ∂stdNormal s.size
        = st.dom.R j + sideDrift p.domestic p.tenor st.dom dt j * dt
      ∧ ∫ z, ((s.next st dt z).dom.R j
          - (st.dom.R j + sideDrift p.domestic p.tenor st.dom dt j * dt)) ^ 2 ∂stdNormal s.size
        = sideVolAt p.domestic p.tenor st.dom dt j ^ 2 * (matAt p.domestic.rateCorr j j * dt)
      ∧ ∫ z, (s.next st dt z).fgn.R j ∂stdNormal s.size
        = st.fgn.R j + (sideDrift p.foreign p.tenor st.fgn dt j
          - sideVolAt p.foreign p.tenor st.fgn dt j * p.correlations.xiF.getD (j - 1) 0
            * √st.variance) * dt)
    ∧ ∫ z, Real.log (s.next st dt z).fx ∂stdNormal s.size
      = Real.log st.fx + (st.carry p.tenor - st.variance / 2) * dt
    ∧ ∫ z, (Real.log (s.next st dt z).fx
        - (Real.log st.fx + (st.carry p.tenor - st.variance / 2) * dt)) ^ 2 ∂stdNormal s.size
      = st.variance * dt := by
  obtain ⟨rfl, hv, hf⟩ := fxFmm_new h
  have hmax : max st.variance 0 = st.variance := max_eq_left hvar
  have hsz : s.size = 2 + 2 * s.params.tenor.m := rfl
  have affine : ∀ (m x : ℝ) {i : ℕ}, i < s.size →
      ∫ z, (m + x * s.dw dt z i) ∂stdNormal s.size = m := by
    intro m x i hi
    rw [integral_add (integrable_const _) ((fxDw_mean hf dt hi).1.const_mul _), integral_const_mul,
      (fxDw_mean hf dt hi).2]
    simp
  have quad : ∀ (m x : ℝ) {i : ℕ}, i < s.size →
      ∫ z, (m + x * s.dw dt z i - m) ^ 2 ∂stdNormal s.size
      = x ^ 2 * (lowerSym (jointCorr s.params) i i * dt) := by
    intro m x i hi
    rw [← (fxDw_cov hf hdt.le hi hi).2, ← integral_const_mul]
    exact integral_congr_ae (Filter.Eventually.of_forall fun z => by ring)
  have hfx : ∀ z, Real.log (s.next st dt z).fx
      = Real.log st.fx + (st.carry s.params.tenor - st.variance / 2) * dt
        + √st.variance * s.dw dt z 0 := fun z => by
    rw [(fxNext_ok hq hv hst hdt z).2.2.2.2.1, Real.log_exp, hmax]
    ring
  refine ⟨fun j j1 j2 => ⟨?_, ?_, ?_⟩, ?_, ?_⟩
  · simp_rw [fun z => (fxNext_ok hq hv hst hdt z).2.2.2.2.2.1 j j1 j2]
    exact affine _ _ (by omega)
  · simp_rw [fun z => (fxNext_ok hq hv hst hdt z).2.2.2.2.2.1 j j1 j2]
    rw [quad _ _ (by omega), (jointCorr_spec s.params).dom j j2 j j1 le_rfl]
  · have e : ∀ z, (s.next st dt z).fgn.R j = (st.fgn.R j
        + (sideDrift s.params.foreign s.params.tenor st.fgn dt j
          - sideVolAt s.params.foreign s.params.tenor st.fgn dt j
            * s.params.correlations.xiF.getD (j - 1) 0 * √st.variance) * dt)
        + sideVolAt s.params.foreign s.params.tenor st.fgn dt j
          * s.dw dt z (1 + s.params.tenor.m + j) := fun z => by
      rw [(fxNext_ok hq hv hst hdt z).2.2.2.2.2.2 j j1 j2, hmax]
      ring
    simp_rw [e]
    exact affine _ _ (by omega)
  · simp_rw [hfx]
    exact affine _ _ (by omega)
  · simp_rw [hfx]
    rw [quad _ _ (by omega), Real.sq_sqrt hvar, (jointCorr_spec s.params).fx, one_mul]

/-- **C68.** The quanto correction is exact: under the foreign measure (weighting by the FX rate) the
foreign rates have the drift of their own forward market model, the one for which every foreign
bond is driftless (C66), and their own variance. -/
theorem C68_quanto {p : FmmParams} {s : FxFmmSim} (h : FxFmmSim.new p = .ok s) (hq : p.tenor.Ordered)
    {st : FxFmmState} (hst : st.Fits p.tenor.m) (hfx : 0 < st.fx) {dt : ℝ} (hdt : 0 < dt) {j : ℕ}
    (j1 : 1 ≤ j) (j2 : j ≤ p.tenor.m) :
    ∫ z, (s.next st dt z).fx / (st.fx * Real.exp (st.carry p.tenor * dt)) * (s.next st dt z).fgn.R j
        ∂stdNormal s.size = st.fgn.R j + sideDrift p.foreign p.tenor st.fgn dt j * dt
    ∧ ∫ z, (s.next st dt z).fx / (st.fx * Real.exp (st.carry p.tenor * dt))
        * (s.next st dt z).fgn.R j ^ 2 ∂stdNormal s.size
      = (st.fgn.R j + sideDrift p.foreign p.tenor st.fgn dt j * dt) ^ 2
        + sideVolAt p.foreign p.tenor st.fgn dt j ^ 2 * (matAt p.foreign.rateCorr j j * dt) := by
  obtain ⟨rfl, hv, hf⟩ := fxFmm_new h
  have hsz : s.size = 2 + 2 * s.params.tenor.m := rfl
  have hK : st.fx * Real.exp (st.carry s.params.tenor * dt) ≠ 0 := (mul_pos hfx (Real.exp_pos _)).ne'
  set v := max st.variance 0 with hvd
  have hv0 : 0 ≤ v := le_max_right _ _
  set w := sideVolAt s.params.foreign s.params.tenor st.fgn dt j with hw
  set ρ := s.params.correlations.xiF.getD (j - 1) 0 with hρ
  set d := sideDrift s.params.foreign s.params.tenor st.fgn dt j with hd
  obtain ⟨h0, h1, h2⟩ := fxDw_exp_all hf hdt.le (by omega : 0 < s.size)
    (by omega : 1 + s.params.tenor.m + j < s.size) (√v)
  rw [(jointCorr_spec s.params).fx, Real.sq_sqrt hv0, one_mul] at h0 h1 h2
  rw [(jointCorr_spec s.params).fxFgn j j1 j2, ← hρ] at h1 h2
  rw [(jointCorr_spec s.params).fgn j j2 j j1 le_rfl] at h2
  have hfxz : ∀ z, (s.next st dt z).fx / (st.fx * Real.exp (st.carry s.params.tenor * dt))
      = Real.exp (-(v * dt / 2)) * Real.exp (√v * s.dw dt z 0) := fun z => by
    rw [fxNext_fx hq hv hst hfx hdt, ← hvd, div_eq_iff hK]
    have : Real.exp ((st.carry s.params.tenor - 1 / 2 * v) * dt)
        = Real.exp (-(v * dt / 2)) * Real.exp (st.carry s.params.tenor * dt) := by
      rw [← Real.exp_add]; congr 1; ring
    rw [this]; ring
  have hR : ∀ z, (s.next st dt z).fgn.R j
      = (st.fgn.R j + (d - w * ρ * √v) * dt) + w * s.dw dt z (1 + s.params.tenor.m + j) := fun z => by
    rw [(fxNext_ok hq hv hst hdt z).2.2.2.2.2.2 j j1 j2, ← hw, ← hρ, ← hd]; ring
  set m := st.fgn.R j + (d - w * ρ * √v) * dt with hm
  set E := Real.exp (-(v * dt / 2)) with hE
  have hEe : E * Real.exp (v * dt / 2) = 1 := by rw [hE, ← Real.exp_add]; simp
  have e1 : ∀ z, (s.next st dt z).fx / (st.fx * Real.exp (st.carry s.params.tenor * dt))
        * (s.next st dt z).fgn.R j
      = E * m * Real.exp (√v * s.dw dt z 0)
        + E * w * (Real.exp (√v * s.dw dt z 0) * s.dw dt z (1 + s.params.tenor.m + j)) := fun z => by
    rw [hfxz, hR]; ring
  have e2 : ∀ z, (s.next st dt z).fx / (st.fx * Real.exp (st.carry s.params.tenor * dt))
        * (s.next st dt z).fgn.R j ^ 2
      = E * m ^ 2 * Real.exp (√v * s.dw dt z 0)
        + 2 * E * m * w * (Real.exp (√v * s.dw dt z 0) * s.dw dt z (1 + s.params.tenor.m + j))
        + E * w ^ 2 * (Real.exp (√v * s.dw dt z 0) * s.dw dt z (1 + s.params.tenor.m + j) ^ 2) :=
    fun z => by
    rw [hfxz, hR]; ring
  simp_rw [e1, e2]
  have hsq : √v * √v = v := Real.mul_self_sqrt hv0
  constructor
  · rw [integral_add (h0.1.const_mul _) (h1.1.const_mul _), integral_const_mul, integral_const_mul,
      h0.2, h1.2, hm]
    linear_combination (st.fgn.R j + d * dt) * hEe
  · have i01 : Integrable (fun z => E * m ^ 2 * Real.exp (√v * s.dw dt z 0)
        + 2 * E * m * w * (Real.exp (√v * s.dw dt z 0) * s.dw dt z (1 + s.params.tenor.m + j)))
        (stdNormal s.size) := (h0.1.const_mul _).add (h1.1.const_mul _)
    rw [integral_add i01 (h2.1.const_mul _),
      integral_add (h0.1.const_mul _) (h1.1.const_mul _), integral_const_mul, integral_const_mul,
      integral_const_mul, h0.2, h1.2, h2.2, hm]
    linear_combination ((st.fgn.R j + d * dt) ^ 2
      + w ^ 2 * (matAt s.params.foreign.rateCorr j j * dt)) * hEe

theorem fxFmm_pathLoop {s : FxFmmSim} (hq : s.params.tenor.Ordered) (hv : s.params.Valid) {dt : ℝ}
    (hdt : 0 < dt) {st0 : FxFmmState} (h0 : st0.Fits s.params.tenor.m) (draws : ℕ → Fin s.size → ℝ) :
    ∀ (n k : ℕ) (st : FxFmmState), ∀ m, st = chain (fxFmmChainStep s fun _ => dt) m st0
          (fun j => draws (k - m + j)) → m ≤ k →
      s.pathLoop dt draws n k st = .ok (chain (fxFmmChainStep s fun _ => dt) (m + n) st0
          (fun j => draws (k - m + j)))
  | 0, k, st, m, hs, _ => by rw [FxFmmSim.pathLoop, hs]; rfl
  | n + 1, k, st, m, hs, hm => by
    have hfit : st.Fits s.params.tenor.m := by
      rw [hs]; exact (fxChain_fits hq hv (fun _ => hdt) h0 _ m).1
    rw [FxFmmSim.pathLoop, (fxNext_ok hq hv hfit hdt _).1, ok_bind]
    rw [fxFmm_pathLoop hq hv hdt h0 draws n (k + 1) _ (m + 1) ?_ (by omega)]
    · rw [show k + 1 - (m + 1) = k - m by omega, show m + 1 + n = m + (n + 1) by omega]
    · rw [chain, show k + 1 - (m + 1) = k - m by omega, ← hs, show k - m + m = k by omega]
      rfl

theorem fxFmm_pathsLoop {s : FxFmmSim} (hq : s.params.tenor.Ordered) (hv : s.params.Valid) {dt : ℝ}
    (hdt : 0 < dt) {st0 : FxFmmState} (hi : FxFmmState.initial s.params = .ok st0)
    (h0 : st0.Fits s.params.tenor.m) (nSteps : ℕ) (draws : ℕ → Fin s.size → ℝ) :
    ∀ n k : ℕ, s.pathsLoop dt nSteps draws n k = .ok ((List.range n).map fun i =>
      chain (fxFmmChainStep s fun _ => dt) nSteps st0 fun j => draws (k + i * nSteps + j))
  | 0, k => rfl
  | n + 1, k => by
    rw [FxFmmSim.pathsLoop, hi, ok_bind,
      fxFmm_pathLoop hq hv hdt h0 draws nSteps k st0 0 rfl (by omega), ok_bind,
      fxFmm_pathsLoop hq hv hdt hi h0 nSteps draws n (k + nSteps), ok_bind, List.range_succ_eq_map]
    simp only [List.map_cons, List.map_map, Nat.sub_zero, zero_mul, add_zero, zero_add]
    congr 2
    refine List.map_congr_left fun i _ => ?_
    simp only [Function.comp]
    congr 1
    funext j
    rw [show k + nSteps + i * nSteps + j = k + (i + 1) * nSteps + j by ring]

/-- **C68.** `simulate_terminal` returns one state per path; path `i` is the chain of equal steps driven
by its own block of draws, ends at the requested time and has a positive FX rate and a non-negative
variance.  Empty requests panic. -/
theorem C68_simulate {p : FmmParams} {s : FxFmmSim} (h : FxFmmSim.new p = .ok s)
    (hq : p.tenor.Ordered) (draws : ℕ → Fin s.size → ℝ) (tEnd : ℝ) (nSteps nPaths : ℕ) :
    (0 < tEnd → 0 < nSteps → 0 < nPaths → ∃ st0 l, FxFmmState.initial p = .ok st0
      ∧ s.simulateTerminal draws tEnd nSteps nPaths = .ok l ∧ l.length = nPaths
      ∧ (∀ i < nPaths, l[i]? = some (chain (fxFmmChainStep s fun _ => tEnd / nSteps) nSteps st0
          fun j => draws (i * nSteps + j)))
      ∧ ∀ st ∈ l, 0 < st.fx ∧ 0 ≤ st.variance ∧ st.dom.t = tEnd ∧ st.fgn.t = tEnd)
    ∧ (tEnd ≤ 0 ∨ nSteps = 0 ∨ nPaths = 0 → s.simulateTerminal draws tEnd nSteps nPaths = .panic) := by
  obtain ⟨rfl, hv, -⟩ := fxFmm_new h
  unfold FxFmmSim.simulateTerminal
  constructor
  · intro h1 h2 h3
    obtain ⟨st0, i1, i2, -, -, i5, -⟩ := C68_initial s.params hq
    have hn : (0 : ℝ) < nSteps := by exact_mod_cast h2
    have hdt : 0 < tEnd / nSteps := div_pos h1 hn
    rw [if_pos ⟨h1, h2, h3⟩, fxFmm_pathsLoop hq hv hdt i1 i2]
    refine ⟨st0, _, i1, rfl, by simp, fun i hi => ?_, fun st hs => ?_⟩
    · simp [hi]
    · obtain ⟨i, -, rfl⟩ := List.mem_map.1 hs
      set z := fun j => draws (0 + i * nSteps + j) with hz
      have hc := fxChain_fits hq hv (dt := fun _ => tEnd / nSteps) (fun _ => hdt) i2 z nSteps
      have ht : (chain (fxFmmChainStep s fun _ => tEnd / nSteps) nSteps st0 z).dom.t = tEnd := by
        rw [hc.2, i5, Finset.sum_const, Finset.card_range, nsmul_eq_mul]
        field_simp
        ring
      refine ⟨?_, ?_, ht, hc.1.time.trans ht⟩
      all_goals
        obtain ⟨m, rfl⟩ : ∃ m, nSteps = m + 1 := ⟨nSteps - 1, by omega⟩
        have hm := (fxChain_fits hq hv (dt := fun _ => tEnd / ((m + 1 : ℕ) : ℝ)) (fun _ => hdt) i2 z m).1
        rw [chain]
      · exact fxNext_fx_pos hq hv hm hdt _
      · change 0 ≤ (s.next _ _ _).variance
        rw [(fxNext_ok hq hv hm hdt _).2.2.2.1]
        exact le_max_right _ _
  · intro h
    rw [if_neg]
    rintro ⟨h1, h2, h3⟩
    rcases h with h | h | h
    · linarith
    · omega
    · omega

/-- **C68.** Driven by dates, the simulator is the same chain with the steps between consecutive dates,
so `C68_martingale` applies to it. -/
theorem C68_dated (s : FxFmmSim) (st0 : FxFmmState) (draws : ℕ → Fin s.size → ℝ) (f : Int → ℝ)
    (later : List Int) : ∀ (val : Int) (st : FxFmmState) (k : ℕ),
    walk (s.toModel st0 draws) f val later (st, k)
      = (chain (fxFmmChainStep s
          (fun j => f ((val :: later).getD (j + 1) 0) - f ((val :: later).getD j 0)))
          later.length st (fun j => draws (k + j)), k + later.length) := by
  induction later with
  | nil => intro val st k; rfl
  | cons d ds ih =>
    intro val st k
    rw [walk]
    change walk (s.toModel st0 draws) f d ds (_, k + 1) = _
    rw [ih, List.length_cons, chain_front]
    refine Prod.ext ?_ (by simp; omega)
    dsimp only
    congr 1
    funext j
    rw [show k + 1 + j = k + (j + 1) by omega]

/-! ## Examples and refuted parts -/

/-- The parameters of the examples with cross correlations that are not symmetric; their means are
those of `exFmm`. -/
noncomputable def exFxSkew : FmmParams :=
  { exFmm with correlations := { exFmm.correlations with cross := [[1 / 4, 1 / 2], [0, 1 / 4]] } }

theorem exFxSkew_valid : exFxSkew.Valid := by
  refine ⟨exSide_valid, exSide_valid, ?_⟩
  simp only [FmmCorr.Valid, exFxSkew, exFmm, exFmmTenor, FmmTenor.m]
  norm_num [abs_of_pos, abs_of_neg]

theorem exFxSkew_posDef : PositiveDefiniteN 6 (lowerSym (jointCorr exFxSkew)) := by
  have h : ∀ x : ℕ → ℝ, quadForm 6 (lowerSym (jointCorr exFxSkew)) x
      = (x 0 - 2 / 5 * x 1 - 3 / 20 * (x 2 + x 3 + x 4 + x 5)) ^ 2
        + 21 / 25 * (x 1 + 2 / 7 * (x 2 + x 3 + x 4 + x 5)) ^ 2
        + 509 / 560 * (x 2 + 453 / 509 * x 3 + 89 / 509 * (x 4 + x 5)) ^ 2
        + 481 / 2545 * (x 3 + 89 / 962 * (x 4 + x 5)) ^ 2
        + 8461 / 9620 * (x 4 + 7499 / 8461 * x 5) ^ 2 + 1596 / 8461 * x 5 ^ 2 := by
    intro x
    simp [quadForm, Finset.sum_range_succ, lowerSym, jointCorr, exFxSkew, exFmm, exFmmTenor, exSide,
      FmmTenor.m]
    ring
  rintro x ⟨a, ha, hx⟩
  rw [h]
  by_contra hc
  rw [not_lt] at hc
  have h5 : x 5 = 0 := by
    by_contra h0
    have := pow_pos (abs_pos.2 h0) 2
    rw [sq_abs] at this
    nlinarith [sq_nonneg (x 0 - 2 / 5 * x 1 - 3 / 20 * (x 2 + x 3 + x 4 + x 5)),
      sq_nonneg (x 1 + 2 / 7 * (x 2 + x 3 + x 4 + x 5)),
      sq_nonneg (x 2 + 453 / 509 * x 3 + 89 / 509 * (x 4 + x 5)),
      sq_nonneg (x 3 + 89 / 962 * (x 4 + x 5)), sq_nonneg (x 4 + 7499 / 8461 * x 5)]
  have h4 : x 4 = 0 := by
    rw [h5] at hc
    by_contra h0
    have := pow_pos (abs_pos.2 h0) 2
    rw [sq_abs] at this
    nlinarith [sq_nonneg (x 0 - 2 / 5 * x 1 - 3 / 20 * (x 2 + x 3 + x 4 + 0)),
      sq_nonneg (x 1 + 2 / 7 * (x 2 + x 3 + x 4 + 0)),
      sq_nonneg (x 2 + 453 / 509 * x 3 + 89 / 509 * (x 4 + 0)),
      sq_nonneg (x 3 + 89 / 962 * (x 4 + 0))]
  have h3 : x 3 = 0 := by
    rw [h5, h4] at hc
    by_contra h0
    have := pow_pos (abs_pos.2 h0) 2
    rw [sq_abs] at this
    nlinarith [sq_nonneg (x 0 - 2 / 5 * x 1 - 3 / 20 * (x 2 + x 3 + 0 + 0)),
      sq_nonneg (x 1 + 2 / 7 * (x 2 + x 3 + 0 + 0)),
      sq_nonneg (x 2 + 453 / 509 * x 3 + 89 / 509 * (0 + 0))]
  have h2 : x 2 = 0 := by
    rw [h5, h4, h3] at hc
    by_contra h0
    have := pow_pos (abs_pos.2 h0) 2
    rw [sq_abs] at this
    nlinarith [sq_nonneg (x 0 - 2 / 5 * x 1 - 3 / 20 * (x 2 + 0 + 0 + 0)),
      sq_nonneg (x 1 + 2 / 7 * (x 2 + 0 + 0 + 0))]
  have h1 : x 1 = 0 := by
    rw [h5, h4, h3, h2] at hc
    by_contra h0
    have := pow_pos (abs_pos.2 h0) 2
    rw [sq_abs] at this
    nlinarith [sq_nonneg (x 0 - 2 / 5 * x 1 - 3 / 20 * (0 + 0 + 0 + 0))]
  have h0 : x 0 = 0 := by
    rw [h5, h4, h3, h2, h1] at hc
    by_contra h0
    have := pow_pos (abs_pos.2 h0) 2
    rw [sq_abs] at this
    nlinarith
  interval_cases a <;> exact hx (by assumption)

theorem exFxSkew_new : ∃ s, FxFmmSim.new exFxSkew = .ok s :=
  ((C68_new exFxSkew).2 _ (jointCorr_spec _)).1.2 ⟨exFxSkew_valid, exFxSkew_posDef⟩

theorem exFxSkew_ordered : exFxSkew.tenor.Ordered := exFmmTenor_ordered

/-- A state at half a year. -/
noncomputable def exFxState : FxFmmState :=
  ⟨27 / 20, 1, ⟨[1, 1], [0, 0], [1, 0], [0, 0], 0, 1 / 2⟩, ⟨[0, 0], [0, 0], [0, 0], [0, 0], 0, 1 / 2⟩⟩

theorem exFxState_fits : exFxState.Fits exFxSkew.tenor.m :=
  ⟨⟨rfl, rfl, rfl, rfl⟩, ⟨rfl, rfl, rfl, rfl⟩, rfl⟩

/-- The example: eight quarters, whose FX rate in units of the accounts has the spot as its mean. -/
example : ∃ s st, FxFmmSim.new exFxSkew = .ok s ∧ FxFmmState.initial exFxSkew = .ok st
    ∧ ∫ zs, (chain (fxFmmChainStep s fun _ => 1 / 4) 8 st (firstDraws zs)).fx
        / fxFmmCarry s (fun _ => 1 / 4) 8 st (firstDraws zs) ∂iidLaw (stdNormal s.size) 8 = 27 / 20 := by
  obtain ⟨s, h⟩ := exFxSkew_new
  obtain ⟨st, i1, i2, i3, -⟩ := C68_initial exFxSkew exFxSkew_ordered
  have hfx : st.fx = 27 / 20 := i3
  refine ⟨s, st, h, i1, ?_⟩
  rw [(C68_martingale h exFxSkew_ordered (fun _ => by norm_num) i2 (by rw [hfx]; norm_num) 8).2, hfx]

/-- From the state of the example the FX rate grows at the difference of the rates, `1 - 0`, over a
quarter. -/
example : ∃ s, FxFmmSim.new exFxSkew = .ok s
    ∧ ∫ z, (s.next exFxState (1 / 4) z).fx ∂stdNormal s.size = 27 / 20 * Real.exp (1 * (1 / 4)) := by
  obtain ⟨s, h⟩ := exFxSkew_new
  refine ⟨s, h, ?_⟩
  rw [(C68_fx_mean h exFxSkew_ordered exFxState_fits (by norm_num [exFxState]) (by norm_num)).2]
  have hc : exFxState.carry exFxSkew.tenor = 1 := by
    obtain ⟨r1, r2⟩ := runningRate_mem exFxSkew_ordered exFxState.dom.t
    have r2 : runningRate exFxSkew.tenor exFxState.dom.t ≤ 2 := r2
    unfold FxFmmState.carry
    generalize runningRate exFxSkew.tenor exFxState.dom.t = r at r1 r2
    interval_cases r <;> norm_num [exFxState, FmmPath.R]
  rw [hc]
  rfl

/-- The state of the example meets the hypotheses of the theorems on one step; its second foreign rate
has a positive drift under the foreign measure. -/
example : ∃ s, FxFmmSim.new exFxSkew = .ok s
    ∧ (∀ z, ∃ st', s.step exFxState (1 / 4) z = .ok st')
    ∧ 0 < ∫ z, (s.next exFxState (1 / 4) z).fx
        / (exFxState.fx * Real.exp (exFxState.carry exFxSkew.tenor * (1 / 4)))
        * (s.next exFxState (1 / 4) z).fgn.R 2 ∂stdNormal s.size
    ∧ ∫ z, (Real.log (s.next exFxState (1 / 4) z).fx - (Real.log exFxState.fx
        + (exFxState.carry exFxSkew.tenor - exFxState.variance / 2) * (1 / 4))) ^ 2 ∂stdNormal s.size
      = exFxState.variance * (1 / 4) := by
  obtain ⟨s, h⟩ := exFxSkew_new
  refine ⟨s, h, fun z => ?_, ?_, ?_⟩
  · obtain ⟨st', h1, -⟩ := C68_domestic h exFxSkew_ordered exFxState_fits (dt := 1 / 4) (by norm_num) z
    exact ⟨st', h1⟩
  · rw [(C68_quanto h exFxSkew_ordered exFxState_fits (by norm_num [exFxState]) (by norm_num)
      (by norm_num : 1 ≤ 2) le_rfl).1]
    rw [sideDrift, fmmDrift, show Finset.Icc 1 2 = {1, 2} by decide, Finset.sum_pair (by norm_num)]
    norm_num [exFxState, FmmPath.R, matAt, exFxSkew, exFmm, exSide, exFmmTenor, FmmTenor.len,
      FmmTenor.T, ahead]
  · exact (C68_moments h exFxSkew_ordered exFxState_fits (by norm_num [exFxState]) (by norm_num)).2.2

/-- Three paths of four steps. -/
example : ∃ s, FxFmmSim.new exFxSkew = .ok s ∧ ∃ l, s.simulateTerminal (fun _ _ => 1) 2 4 3 = .ok l
    ∧ l.length = 3 ∧ ∀ st ∈ l, 0 < st.fx ∧ st.dom.t = 2 := by
  obtain ⟨s, h⟩ := exFxSkew_new
  obtain ⟨st0, l, -, h1, h2, -, h3⟩ := (C68_simulate h exFxSkew_ordered (fun _ _ => 1) 2 4 3).1
    (by norm_num) (by norm_num) (by norm_num)
  exact ⟨s, h, l, h1, h2, fun st hs => ⟨(h3 st hs).1, (h3 st hs).2.2.1⟩⟩

/-- **C68**, refuted part: the covariance of a domestic and a foreign rate is not the configured
entry of the cross block when that block is not symmetric. -/
theorem C68_cross_false : ∃ s, FxFmmSim.new exFxSkew = .ok s
    ∧ matAt exFxSkew.correlations.cross 1 2 = 1 / 2
    ∧ ∀ dt > 0, ∫ z, s.dw dt z (1 + 1) * s.dw dt z (1 + exFxSkew.tenor.m + 2) ∂stdNormal s.size
      = 1 / 4 * dt := by
  obtain ⟨s, h⟩ := exFxSkew_new
  refine ⟨s, h, by simp [matAt, exFxSkew], fun dt hdt => ?_⟩
  have hm : exFxSkew.tenor.m = 2 := rfl
  rw [((C68_noise h (jointCorr_spec _) hdt (by rw [hm]; norm_num)).2 _ (by rw [hm]; norm_num)).2,
    (jointCorr_spec exFxSkew).cross 1 le_rfl (by rw [hm]; norm_num) 2 (by norm_num) (by rw [hm])]
  congr 1
  simp [matAt, exFxSkew]
  norm_num

/-- **C68**, refuted part: within a period the foreign `x` is not that of the foreign forward market
model with the same noise; the quanto shift is missing. -/
theorem C68_foreign_x_false : ∃ s, FxFmmSim.new exFxSkew = .ok s ∧ ∃ st' f',
    s.step exFxState (1 / 4) (fun _ => 0) = .ok st'
    ∧ (sideSim exFxSkew.foreign exFxSkew.tenor).step exFxState.fgn (1 / 4)
        (unitDraws exFxSkew.tenor.m (1 / 4) fun j =>
          s.dw (1 / 4) (fun _ => 0) (1 + exFxSkew.tenor.m + j)
          - exFxSkew.correlations.xiF.getD (j - 1) 0 * √(max exFxState.variance 0) * (1 / 4)) = .ok f'
    ∧ st'.fgn.rates = f'.rates ∧ st'.fgn.xActive < f'.xActive := by
  obtain ⟨s, h⟩ := exFxSkew_new
  obtain ⟨hp, hv, -⟩ := fxFmm_new h
  have hT0 : exFxSkew.tenor.T 0 = 0 := by simp [exFxSkew, exFmm, exFmmTenor, FmmTenor.T]
  have hT1 : exFxSkew.tenor.T 1 = 1 := by simp [exFxSkew, exFmm, exFmmTenor, FmmTenor.T]
  have ht : exFxState.dom.t = 1 / 2 := rfl
  have htf : exFxState.fgn.t = 1 / 2 := rfl
  have hlen : exFxSkew.tenor.len 1 = 1 := by
    rw [FmmTenor.len, hT1, show 1 - 1 = 0 from rfl, hT0]; norm_num
  have hvv : √(max exFxState.variance 0) = 1 := by simp [exFxState]
  obtain ⟨st', f', h1, h2, h3, -, -, -, -, -, h5⟩ := C68_foreign_partial h exFxSkew_ordered
    exFxState_fits (dt := 1 / 4) (by norm_num) (fun _ => 0)
  refine ⟨s, h, st', f', h1, h2, h3, ?_⟩
  have h5' := h5 1 le_rfl (show 1 ≤ 2 by norm_num) (by rw [ht, hT0]; norm_num)
    (by rw [ht, hT1]; norm_num) (by rw [ht, hT1]; norm_num)
  have hx : exFxSkew.correlations.xiF.getD (1 - 1) 0 = -3 / 20 := by simp [exFxSkew, exFmm]
  have hsg : exFxSkew.foreign.sigmas.getD (1 - 1) 0 = 1 / 100 := by simp [exFxSkew, exFmm, exSide]
  have hR0 : exFxState.fgn.R 1 = 0 := by simp [exFxState, FmmPath.R]
  have hah : ahead exFxSkew.tenor 1 (1 / 2 + 1 / 2 * (1 / 4)) = 3 / 8 := by
    rw [ahead, hT1, show 1 - 1 = 0 from rfl, hT0]; norm_num
  have hcc : matAt exFxSkew.foreign.rateCorr 1 1 = 1 := by simp [exFxSkew, exFmm, exSide, matAt]
  have hR1 : 0 < st'.fgn.R 1 := by
    have hn := (fxNext_ok (s := s) (hp ▸ exFxSkew_ordered) (hp ▸ hv) (hp ▸ exFxState_fits)
      (dt := 1 / 4) (by norm_num) (fun _ => 0))
    have e := hn.1.symm.trans h1
    injection e with e
    have hr := hn.2.2.2.2.2.2 1 le_rfl (by rw [hp]; exact (by norm_num : 1 ≤ 2))
    rw [e, hp, hR0, hvv, hx, sideVolAt, sideDrift, fmmDrift, htf] at hr
    simp only [Finset.Icc_self, Finset.sum_singleton] at hr
    rw [hsg, hah, hcc, hlen, hR0] at hr
    rw [hr, FxFmmSim.dw]
    norm_num
  rw [h5', hx, hsg, hlen, hvv, hR0]
  have : (1 : ℝ) / 100 / (1 / 2 * (0 + st'.fgn.R 1) + 1 / 1) * (-3 / 20 * 1 * (1 / 4)) < 0 := by
    refine mul_neg_of_pos_of_neg (div_pos (by norm_num) (by linarith)) (by norm_num)
  linarith

/-- **C68**, refuted part: the accounts that the FX rate grows with are not those of the forward
market model: over the first period the ratio of those is `(1 + R_d) / (1 + R_f)`, here `2`. -/
theorem C68_account_false : ∃ s st, FxFmmSim.new exFxSkew = .ok s ∧ st.Fits exFxSkew.tenor.m
    ∧ st.dom.t = exFxSkew.tenor.T 0 ∧ exFxSkew.tenor.T 1 = exFxSkew.tenor.T 0 + 1 ∧ st.fx = 1
    ∧ (1 + exFxSkew.tenor.len 1 * st.dom.R 1) / (1 + exFxSkew.tenor.len 1 * st.fgn.R 1) = 2
    ∧ ∫ z, (s.next st 1 z).fx ∂stdNormal s.size = Real.exp 1 ∧ (2 : ℝ) < Real.exp 1 := by
  obtain ⟨s, h⟩ := exFxSkew_new
  have hT0 : exFxSkew.tenor.T 0 = 0 := by simp [exFxSkew, exFmm, exFmmTenor, FmmTenor.T]
  have hT1 : exFxSkew.tenor.T 1 = 1 := by simp [exFxSkew, exFmm, exFmmTenor, FmmTenor.T]
  have hlen : exFxSkew.tenor.len 1 = 1 := by
    rw [FmmTenor.len, hT1, show 1 - 1 = 0 from rfl, hT0]; norm_num
  let st : FxFmmState :=
    ⟨1, 1, ⟨[1, 1], [0, 0], [1, 0], [0, 0], 0, 0⟩, ⟨[0, 0], [0, 0], [0, 0], [0, 0], 0, 0⟩⟩
  have hfit : st.Fits exFxSkew.tenor.m := ⟨⟨rfl, rfl, rfl, rfl⟩, ⟨rfl, rfl, rfl, rfl⟩, rfl⟩
  refine ⟨s, st, h, hfit, hT0.symm, by rw [hT0, hT1]; norm_num, rfl, ?_, ?_, ?_⟩
  · rw [hlen]; norm_num [st, FmmPath.R]
  · rw [(C68_fx_mean h exFxSkew_ordered hfit (by norm_num [st]) (by norm_num)).2]
    have hc : st.carry exFxSkew.tenor = 1 := by
      obtain ⟨r1, r2⟩ := runningRate_mem exFxSkew_ordered st.dom.t
      have r2 : runningRate exFxSkew.tenor st.dom.t ≤ 2 := r2
      unfold FxFmmState.carry
      generalize runningRate exFxSkew.tenor st.dom.t = r at r1 r2
      interval_cases r <;> norm_num [st, FmmPath.R]
    rw [hc]
    norm_num [st]
  · have := Real.add_one_lt_exp (one_ne_zero (α := ℝ))
    linarith

/-- **C68**, refuted part: the updated variance is clamped at zero, so the scheme is not the
full-truncation scheme that the documentation names: the mean of the variance after one step
exceeds `σ + κ (θ − σ) dt` strictly whenever there is noise. -/
theorem C68_full_truncation_false {p : FmmParams} {s : FxFmmSim} (h : FxFmmSim.new p = .ok s)
    (hq : p.tenor.Ordered) {st : FxFmmState} (hst : st.Fits p.tenor.m) (hs : 0 < st.variance) {dt : ℝ}
    (hdt : 0 < dt) (hg : p.heston.gamma ≠ 0) :
    st.variance + p.heston.kappa * (p.heston.theta - st.variance) * dt
      < ∫ z, (s.next st dt z).variance ∂stdNormal s.size := by
  obtain ⟨rfl, hv, hf⟩ := fxFmm_new h
  have hmax : max st.variance 0 = st.variance := max_eq_left hs.le
  have hsz : 1 < s.size := by unfold FxFmmSim.size; omega
  set m := st.variance + s.params.heston.kappa * (s.params.heston.theta - st.variance) * dt with hm
  set g := s.params.heston.gamma * √st.variance with hgd
  have hg0 : g ≠ 0 := mul_ne_zero hg (Real.sqrt_pos.2 hs).ne'
  have hvar : ∀ z, (s.next st dt z).variance = max (m + g * s.dw dt z 1) 0 := fun z => by
    rw [(fxNext_ok hq hv hst hdt z).2.2.2.1, hmax]
  have hn := fxDw_mean hf dt hsz
  have hX : Integrable (fun z => m + g * s.dw dt z 1) (stdNormal s.size) :=
    (integrable_const _).add (hn.1.const_mul _)
  have hXm : ∫ z, (m + g * s.dw dt z 1) ∂stdNormal s.size = m := by
    rw [integral_add (integrable_const _) (hn.1.const_mul _), integral_const_mul, hn.2]
    simp
  have hcont : Continuous fun z : Fin s.size → ℝ => m + g * s.dw dt z 1 := by
    unfold FxFmmSim.dw; fun_prop
  simp_rw [hvar]
  have hneg : Integrable (fun z => max (-(m + g * s.dw dt z 1)) 0) (stdNormal s.size) :=
    hX.neg.pos_part
  have hsum : ∀ z, max (m + g * s.dw dt z 1) 0
      = (m + g * s.dw dt z 1) + max (-(m + g * s.dw dt z 1)) 0 := fun z => by
    rcases le_total 0 (m + g * s.dw dt z 1) with h0 | h0
    · rw [max_eq_left h0, max_eq_right (by linarith)]; ring
    · rw [max_eq_right h0, max_eq_left (by linarith)]; ring
  simp_rw [hsum]
  rw [integral_add hX hneg, hXm]
  refine lt_add_of_pos_right _ ?_
  refine (integral_pos_iff_support_of_nonneg (fun z => le_max_right _ 0) hneg).2 ?_
  have hsupp : {z : Fin s.size → ℝ | m + g * s.dw dt z 1 < 0}
      ⊆ Function.support fun z => max (-(m + g * s.dw dt z 1)) 0 := fun z hz => by
    have hz' : m + g * s.dw dt z 1 < 0 := hz
    rw [Function.mem_support, max_eq_left (by linarith)]
    linarith
  refine lt_of_lt_of_le ?_ (measure_mono hsupp)
  refine (isOpen_lt hcont continuous_const).measure_pos _ ?_
  -- a draw that makes the increment as negative as needed
  have hl : s.chol 1 1 * √dt ≠ 0 :=
    mul_ne_zero (hf.diagonal 1 hsz).ne' (Real.sqrt_pos.2 hdt).ne'
  refine ⟨fun j => if j = ⟨1, hsz⟩ then (-(m + 1)) / (g * (s.chol 1 1 * √dt)) else 0, ?_⟩
  change m + g * s.dw dt _ 1 < 0
  rw [fxDw_linear hf dt _ hsz]
  simp only [mul_ite, mul_zero, Finset.sum_ite_eq', Finset.mem_univ, if_true]
  have : g * (s.chol 1 1 * √dt * (-(m + 1) / (g * (s.chol 1 1 * √dt)))) = -(m + 1) := by
    generalize s.chol 1 1 * √dt = y at hl
    clear_value g m
    field_simp
  rw [this]
  linarith

/-- The bias shows on a step from the state of the example. -/
example : ∃ s, FxFmmSim.new exFxSkew = .ok s
    ∧ 1 + 1 / 2 * (1 / 10 - 1) * (1 / 4)
      < ∫ z, (s.next exFxState (1 / 4) z).variance ∂stdNormal s.size := by
  obtain ⟨s, h⟩ := exFxSkew_new
  exact ⟨s, h, C68_full_truncation_false h exFxSkew_ordered exFxState_fits
    (by norm_num [exFxState]) (by norm_num) (by norm_num [exFxSkew, exFmm])⟩

end Verif
