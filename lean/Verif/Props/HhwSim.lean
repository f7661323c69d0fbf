import Verif.Lemmas.HhwSim
import Verif.Props.Cholesky
import Verif.Spec.Simulation

/-!
# C67: the FX-HHW path simulator

Expectations are integrals over independent standard normal draws.
-/

namespace Verif

open MeasureTheory ProbabilityTheory Outcome

theorem hhw_new_factor {p : HhwParams} {q : HhwSim} (h : HhwSim.new p = .ok q) :
    q.params = p ∧ q.theta = (fun _ => (p.thetaD, p.thetaF))
      ∧ CholeskyFactor 4 p.correlations.matrix q.chol := by
  unfold HhwSim.new at h
  split at h
  · rename_i l hl
    injection h with h
    subst h
    exact ⟨rfl, rfl, ((C52_correlation4 p.correlations).2 l hl).1⟩
  · cases h

/-- **C67**: the simulator is built exactly for positive definite correlations, keeps its
parameters and starts with constant targets; it never panics. -/
theorem C67_new (p : HhwParams) :
    ((∃ q, HhwSim.new p = .ok q) ↔ PositiveDefiniteN 4 p.correlations.matrix)
    ∧ (¬ PositiveDefiniteN 4 p.correlations.matrix → HhwSim.new p = .fail .invalidData)
    ∧ ∀ q, HhwSim.new p = .ok q → q.params = p ∧ ∀ t, q.theta t = (p.thetaD, p.thetaF) := by
  have hv := (C52_correlation4 p.correlations).1
  rw [Correlation4.isValid] at hv
  refine ⟨?_, fun h => ?_, fun q h => ?_⟩
  · rw [← hv]
    unfold HhwSim.new
    cases p.correlations.cholesky with
    | none => simp
    | some l => simp
  · rw [← hv] at h
    unfold HhwSim.new
    cases hc : p.correlations.cholesky with
    | none => rfl
    | some l => rw [hc] at h; simp at h
  · exact ⟨(hhw_new_factor h).1, fun t => by rw [(hhw_new_factor h).2.1]⟩

/-- **C67**: a step of positive length always succeeds and whatever the draws gives a positive FX
rate and a non-negative variance; any other length panics. -/
theorem C67_step (q : HhwSim) (s : HhwState) (dt a b : ℝ) (z : Fin 4 → ℝ) :
    (0 < dt → ∃ s' dw, q.stepAtTime s dt a b z = .ok (s', dw) ∧ 0 < s'.fx ∧ 0 ≤ s'.variance)
    ∧ (dt ≤ 0 → q.stepAtTime s dt a b z = .panic) := by
  unfold HhwSim.stepAtTime
  refine ⟨fun h => ?_, fun h => if_neg (not_lt.2 h)⟩
  rw [if_pos h]
  exact ⟨_, _, rfl, euler_fx_pos _ _ _ _ _ _, le_max_right _ _⟩

/-- **C67**: the returned increments are centred, and their covariances are the configured
correlations times `dt`. -/
theorem C67_noise {p : HhwParams} {q : HhwSim} (h : HhwSim.new p = .ok q) {dt : ℝ} (hdt : 0 < dt)
    (s : HhwState) (a b : ℝ) :
    ∃ dw : (Fin 4 → ℝ) → Fin 4 → ℝ, (∀ z, ∃ s', q.stepAtTime s dt a b z = .ok (s', dw z))
      ∧ (∀ i, Integrable (fun z => dw z i) (stdNormal 4) ∧ ∫ z, dw z i ∂stdNormal 4 = 0)
      ∧ ∀ i j, Integrable (fun z => dw z i * dw z j) (stdNormal 4)
        ∧ ∫ z, dw z i * dw z j ∂stdNormal 4 = p.correlations.matrix i j * dt := by
  have hq := (hhw_new_factor h).2.2
  refine ⟨q.noise dt, fun z => ⟨q.euler s dt a b z, ?_⟩, noise_mean q hq dt, noise_cov q hq hdt.le⟩
  rw [HhwSim.stepAtTime, if_pos hdt]

/-- **C67**: one step is a martingale for the FX forward: `E[ξ'] = ξ · e^{(r_d − r_f) dt}`. -/
theorem C67_fx_mean {p : HhwParams} {q : HhwSim} (h : HhwSim.new p = .ok q) {dt : ℝ} (hdt : 0 ≤ dt)
    {s : HhwState} (hs : 0 < s.fx) (a b : ℝ) :
    Integrable (fun z => (q.euler s dt a b z).fx) (stdNormal 4)
    ∧ ∫ z, (q.euler s dt a b z).fx ∂stdNormal 4 = s.fx * Real.exp ((s.rd - s.rf) * dt) := by
  have hq := (hhw_new_factor h).2.2
  have hn := noise_exp q hq hdt 0 (√(max s.variance 0))
  simp_rw [euler_fx q hs]
  refine ⟨hn.1.const_mul _, ?_⟩
  rw [integral_const_mul, hn.2, mul_assoc, ← Real.exp_add, Real.sq_sqrt (le_max_right _ _)]
  change s.fx * Real.exp (_ + max s.variance 0 * (1 * dt) / 2) = _
  congr 2
  ring

/-- The foreign rate after one step, weighted by the FX rate. -/
theorem hhw_foreign_moments {p : HhwParams} {q : HhwSim} (h : HhwSim.new p = .ok q) {dt : ℝ}
    (hdt : 0 ≤ dt) {s : HhwState} (hs : 0 < s.fx) (a b : ℝ) :
    (Integrable (fun z => (q.euler s dt a b z).fx * (q.euler s dt a b z).rf) (stdNormal 4)
    ∧ ∫ z, (q.euler s dt a b z).fx * (q.euler s dt a b z).rf ∂stdNormal 4
      = s.fx * Real.exp ((s.rd - s.rf) * dt) * (s.rf + p.foreign.lambda * (b - s.rf) * dt))
    ∧ Integrable (fun z => (q.euler s dt a b z).fx * (q.euler s dt a b z).rf ^ 2) (stdNormal 4)
    ∧ ∫ z, (q.euler s dt a b z).fx * (q.euler s dt a b z).rf ^ 2 ∂stdNormal 4
      = s.fx * Real.exp ((s.rd - s.rf) * dt)
        * ((s.rf + p.foreign.lambda * (b - s.rf) * dt) ^ 2 + p.foreign.sigma ^ 2 * dt) := by
  obtain ⟨hp, -, hq⟩ := hhw_new_factor h
  set v := max s.variance 0 with hv
  have hv0 : 0 ≤ v := le_max_right _ _
  set m := s.rf + (p.foreign.lambda * (b - s.rf) - p.foreign.sigma * p.correlations.xiF * √v) * dt
    with hm
  have hrf : ∀ z, (q.euler s dt a b z).rf = m + p.foreign.sigma * q.noise dt z 3 := fun z => by
    rw [← hp] at hm; rw [hm, hv, ← hp]; rfl
  set K := s.fx * Real.exp ((s.rd - s.rf - 1 / 2 * v) * dt) with hK
  have hfx : ∀ z, (q.euler s dt a b z).fx = K * Real.exp (√v * q.noise dt z 0) := fun z => by
    rw [euler_fx q hs]
  have h0 := noise_exp q hq hdt 0 (√v)
  have h1 := noise_exp_mul q hq hdt 0 3 (√v)
  have h2 := noise_exp_sq q hq hdt 0 3 (√v)
  have c00 : p.correlations.matrix (0 : Fin 4) (0 : Fin 4) = 1 := rfl
  have c33 : p.correlations.matrix (3 : Fin 4) (3 : Fin 4) = 1 := rfl
  have c03 : p.correlations.matrix (0 : Fin 4) (3 : Fin 4) = p.correlations.xiF := rfl
  rw [c00, Real.sq_sqrt hv0, one_mul] at h0 h1 h2
  rw [c03] at h1 h2
  rw [c33, one_mul] at h2
  have hKe : K * Real.exp (v * dt / 2) = s.fx * Real.exp ((s.rd - s.rf) * dt) := by
    rw [hK, mul_assoc, ← Real.exp_add]
    congr 2
    ring
  have e1 : ∀ z, (q.euler s dt a b z).fx * (q.euler s dt a b z).rf
      = K * m * Real.exp (√v * q.noise dt z 0)
        + K * p.foreign.sigma * (Real.exp (√v * q.noise dt z 0) * q.noise dt z 3) := fun z => by
    rw [hfx, hrf]; ring
  have e2 : ∀ z, (q.euler s dt a b z).fx * (q.euler s dt a b z).rf ^ 2
      = K * m ^ 2 * Real.exp (√v * q.noise dt z 0)
        + 2 * K * m * p.foreign.sigma * (Real.exp (√v * q.noise dt z 0) * q.noise dt z 3)
        + K * p.foreign.sigma ^ 2 * (Real.exp (√v * q.noise dt z 0) * q.noise dt z 3 ^ 2) := fun z => by
    rw [hfx, hrf]; ring
  simp_rw [e1, e2]
  refine ⟨⟨(h0.1.const_mul _).add (h1.1.const_mul _), ?_⟩,
    ((h0.1.const_mul _).add (h1.1.const_mul _)).add (h2.1.const_mul _), ?_⟩
  · rw [integral_add (h0.1.const_mul _) (h1.1.const_mul _), integral_const_mul, integral_const_mul,
      h0.2, h1.2, ← hKe, hm]
    ring
  · have i01 : Integrable (fun z => K * m ^ 2 * Real.exp (√v * q.noise dt z 0)
        + 2 * K * m * p.foreign.sigma * (Real.exp (√v * q.noise dt z 0) * q.noise dt z 3))
        (stdNormal 4) := (h0.1.const_mul _).add (h1.1.const_mul _)
    rw [integral_add i01 (h2.1.const_mul _),
      integral_add (h0.1.const_mul _) (h1.1.const_mul _), integral_const_mul, integral_const_mul,
      integral_const_mul, h0.2, h1.2, h2.2, ← hKe, hm]
    ring

/-- **C67**: the quanto correction is exact: under the foreign measure (weighting by the FX rate)
the foreign rate mean-reverts to its target without any FX term, with its own volatility. -/
theorem C67_quanto {p : HhwParams} {q : HhwSim} (h : HhwSim.new p = .ok q) {dt : ℝ} (hdt : 0 ≤ dt)
    {s : HhwState} (hs : 0 < s.fx) (a b : ℝ) :
    ∫ z, (q.euler s dt a b z).fx / (s.fx * Real.exp ((s.rd - s.rf) * dt)) * (q.euler s dt a b z).rf
        ∂stdNormal 4 = s.rf + p.foreign.lambda * (b - s.rf) * dt
    ∧ ∫ z, (q.euler s dt a b z).fx / (s.fx * Real.exp ((s.rd - s.rf) * dt))
        * (q.euler s dt a b z).rf ^ 2 ∂stdNormal 4
      = (s.rf + p.foreign.lambda * (b - s.rf) * dt) ^ 2 + p.foreign.sigma ^ 2 * dt := by
  obtain ⟨⟨-, h1⟩, -, h2⟩ := hhw_foreign_moments h hdt hs a b
  have hK : s.fx * Real.exp ((s.rd - s.rf) * dt) ≠ 0 := (mul_pos hs (Real.exp_pos _)).ne'
  constructor
  · simp_rw [div_mul_eq_mul_div]
    rw [integral_div, h1, mul_div_cancel_left₀ _ hK]
  · simp_rw [div_mul_eq_mul_div]
    rw [integral_div, h2, mul_div_cancel_left₀ _ hK]

/-- **C67**: under the domestic measure the rates have the drifts and variances of the model, the
foreign one carrying the quanto term; the log FX rate has drift `r_d − r_f − σ/2` and variance
`σ dt`. -/
theorem C67_moments {p : HhwParams} {q : HhwSim} (h : HhwSim.new p = .ok q) {dt : ℝ} (hdt : 0 ≤ dt)
    {s : HhwState} (hs : 0 ≤ s.variance) (a b : ℝ) :
    ∫ z, (q.euler s dt a b z).rd ∂stdNormal 4 = s.rd + p.domestic.lambda * (a - s.rd) * dt
    ∧ ∫ z, ((q.euler s dt a b z).rd - (s.rd + p.domestic.lambda * (a - s.rd) * dt)) ^ 2 ∂stdNormal 4
      = p.domestic.sigma ^ 2 * dt
    ∧ ∫ z, (q.euler s dt a b z).rf ∂stdNormal 4 = s.rf + (p.foreign.lambda * (b - s.rf)
        - p.foreign.sigma * p.correlations.xiF * √s.variance) * dt
    ∧ ∫ z, Real.log (q.euler s dt a b z).fx ∂stdNormal 4
      = Real.log s.fx + (s.rd - s.rf - s.variance / 2) * dt
    ∧ ∫ z, (Real.log (q.euler s dt a b z).fx
        - (Real.log s.fx + (s.rd - s.rf - s.variance / 2) * dt)) ^ 2 ∂stdNormal 4
      = s.variance * dt := by
  obtain ⟨hp, -, hq⟩ := hhw_new_factor h
  have hv : max s.variance 0 = s.variance := max_eq_left hs
  have hmean := noise_mean q hq dt
  have hcov := noise_cov q hq hdt
  have hrd : ∀ z, (q.euler s dt a b z).rd
      = s.rd + p.domestic.lambda * (a - s.rd) * dt + p.domestic.sigma * q.noise dt z 2 := fun z => by
    rw [← hp]; rfl
  have hrf : ∀ z, (q.euler s dt a b z).rf = s.rf + (p.foreign.lambda * (b - s.rf)
        - p.foreign.sigma * p.correlations.xiF * √s.variance) * dt
        + p.foreign.sigma * q.noise dt z 3 := fun z => by
    rw [← hp]; nth_rewrite 1 [← hv]; rfl
  have hfx : ∀ z, Real.log (q.euler s dt a b z).fx
      = Real.log s.fx + (s.rd - s.rf - s.variance / 2) * dt + √s.variance * q.noise dt z 0 := fun z => by
    change Real.log (Real.exp _) = _
    rw [Real.log_exp, hv]
    ring
  have affine : ∀ (m x : ℝ) (i : Fin 4), ∫ z, (m + x * q.noise dt z i) ∂stdNormal 4 = m := by
    intro m x i
    rw [integral_add (integrable_const _) ((hmean i).1.const_mul _), integral_const_mul, (hmean i).2]
    simp
  have quad : ∀ (m x : ℝ) (i : Fin 4), ∫ z, (m + x * q.noise dt z i - m) ^ 2 ∂stdNormal 4
      = x ^ 2 * (p.correlations.matrix i i * dt) := by
    intro m x i
    rw [← (hcov i i).2, ← integral_const_mul]
    exact integral_congr_ae (Filter.Eventually.of_forall fun z => by ring)
  simp_rw [hrd, hrf, hfx]
  refine ⟨affine _ _ _, ?_, affine _ _ _, affine _ _ _, ?_⟩
  · rw [quad]; change _ * (1 * dt) = _; ring
  · rw [quad, Real.sq_sqrt hs]; change _ * (1 * dt) = _; ring

/-- **C67**: over any number of steps, of any positive lengths and with any time-dependent targets,
the FX rate divided by the money-market accounts is a martingale: its mean is the spot. -/
theorem C67_martingale {p : HhwParams} {q : HhwSim} (h : HhwSim.new p = .ok q) {dt : ℕ → ℝ}
    (hdt : ∀ k, 0 ≤ dt k) (θ : ℕ → ℝ × ℝ) {s : HhwState} (hs : 0 < s.fx) (n : ℕ) :
    Integrable (fun zs => (chain (hhwChainStep q dt θ) n s (firstDraws zs)).fx
      / hhwCarry q dt θ n s (firstDraws zs)) (hhwDraws n)
    ∧ ∫ zs, (chain (hhwChainStep q dt θ) n s (firstDraws zs)).fx
        / hhwCarry q dt θ n s (firstDraws zs) ∂hhwDraws n = s.fx := by
  have := chain_martingale (stdNormal 4) (hhwChainStep q dt θ) (measurable_hhwChainStep q dt θ)
    (fun s => 0 < s.fx) (fun k s z _ => euler_fx_pos _ _ _ _ _ _) HhwState.fx measurable_fx
    (fun s hs => hs.le) (fun k s => (s.rd - s.rf) * dt k)
    (fun k => (measurable_rd.sub measurable_rf).mul_const _)
    (fun k s hs => (C67_fx_mean h (hdt k) hs _ _).1)
    (fun k s hs => (C67_fx_mean h (hdt k) hs _ _).2) hs n
  simp_rw [Real.exp_neg, ← div_eq_mul_inv] at this
  exact this

/-- **C67**: over any number of steps the foreign rate, under the foreign measure, has the mean of
the mean-reverting scheme with the foreign targets, free of any FX term. -/
theorem C67_foreign_mean {p : HhwParams} {q : HhwSim} (h : HhwSim.new p = .ok q) {dt : ℕ → ℝ}
    (hdt : ∀ k, 0 ≤ dt k) (θ : ℕ → ℝ × ℝ) {s : HhwState} (hs : 0 < s.fx) (n : ℕ) :
    ∫ zs, (chain (hhwChainStep q dt θ) n s (firstDraws zs)).fx
        / hhwCarry q dt θ n s (firstDraws zs)
        * (chain (hhwChainStep q dt θ) n s (firstDraws zs)).rf ∂hhwDraws n
      = s.fx * eulerMean p.foreign.lambda dt (fun k => (θ k).2) s.rf n := by
  have := (chain_tilted_mean (stdNormal 4) (hhwChainStep q dt θ) (measurable_hhwChainStep q dt θ)
    (fun s => 0 < s.fx) (fun k s z _ => euler_fx_pos _ _ _ _ _ _) HhwState.fx measurable_fx
    (fun s hs => hs.le) (fun k s => (s.rd - s.rf) * dt k)
    (fun k => (measurable_rd.sub measurable_rf).mul_const _)
    (fun k s hs => (C67_fx_mean h (hdt k) hs _ _).1)
    (fun k s hs => (C67_fx_mean h (hdt k) hs _ _).2) HhwState.rf measurable_rf
    (fun k => 1 - p.foreign.lambda * dt k) (fun k => p.foreign.lambda * (θ k).2 * dt k)
    (fun k => 2 * (1 - p.foreign.lambda * dt k) ^ 2)
    (fun k => 2 * (p.foreign.lambda * (θ k).2 * dt k) ^ 2 + p.foreign.sigma ^ 2 * dt k)
    (fun k => by positivity)
    (fun k => by have := hdt k; positivity)
    (fun k s hs => (hhw_foreign_moments h (hdt k) hs _ _).2.1)
    (fun k s hs => by
      change ∫ z, (q.euler s (dt k) (θ k).1 (θ k).2 z).fx
        * (q.euler s (dt k) (θ k).1 (θ k).2 z).rf ^ 2 ∂stdNormal 4 ≤ _
      rw [(hhw_foreign_moments h (hdt k) hs _ _).2.2]
      refine mul_le_mul_of_nonneg_left ?_ (mul_pos hs (Real.exp_pos _)).le
      nlinarith [sq_nonneg ((1 - p.foreign.lambda * dt k) * s.rf - p.foreign.lambda * (θ k).2 * dt k)])
    (fun k s hs => by
      refine ((hhw_foreign_moments h (hdt k) hs _ _).1.2).trans ?_
      ring)
    (eulerMean p.foreign.lambda dt (fun k => (θ k).2) s.rf) hs rfl (fun k => rfl) n).2
  simp_rw [Real.exp_neg, ← div_eq_mul_inv] at this
  exact this

/-- **C67**: over any number of steps the domestic rate has the mean of the mean-reverting scheme. -/
theorem C67_domestic_mean {p : HhwParams} {q : HhwSim} (h : HhwSim.new p = .ok q) (dt : ℕ → ℝ)
    (θ : ℕ → ℝ × ℝ) (s : HhwState) (n : ℕ) :
    ∫ zs, (chain (hhwChainStep q dt θ) n s (firstDraws zs)).rd ∂hhwDraws n
      = eulerMean p.domestic.lambda dt (fun k => (θ k).1) s.rd n := by
  obtain ⟨hp, -, hq⟩ := hhw_new_factor h
  refine (chain_mean (stdNormal 4) (hhwChainStep q dt θ) HhwState.rd
    (fun k => 1 - p.domestic.lambda * dt k) (fun k => p.domestic.lambda * (θ k).1 * dt k)
    (fun k z => p.domestic.sigma * q.noise (dt k) z 2) (fun k => (noise_mean q hq _ 2).1.const_mul _)
    (fun k => by rw [integral_const_mul, (noise_mean q hq _ 2).2, mul_zero]) (fun k s z => ?_)
    (eulerMean p.domestic.lambda dt (fun k => (θ k).1) s.rd) s rfl (fun k => rfl) n).2
  change s.rd + q.params.domestic.lambda * ((θ k).1 - s.rd) * dt k
    + q.params.domestic.sigma * q.noise (dt k) z 2 = _
  rw [hp]
  ring

/-- **C67**: with equal steps and a constant target the scheme mean is
`θ + (1 − λ dt)ⁿ (r₀ − θ)`; with a target `f + f'/λ` for an affine curve `f` it is on the curve. -/
theorem C67_scheme_mean (lambda dt target r0 : ℝ) (n : ℕ) :
    eulerMean lambda (fun _ => dt) (fun _ => target) r0 n
        = target + (1 - lambda * dt) ^ n * (r0 - target)
    ∧ ∀ slope : ℝ, lambda ≠ 0 →
      eulerMean lambda (fun _ => dt) (fun k => r0 + slope * (k * dt) + slope / lambda) r0 n
        = r0 + slope * (n * dt) := by
  constructor
  · induction n with
    | zero => simp [eulerMean]
    | succ n ih => rw [eulerMean, ih]; ring
  · intro slope hl
    induction n with
    | zero => simp [eulerMean]
    | succ n ih =>
      rw [eulerMean, ih]
      push_cast
      field_simp
      ring

theorem hhw_pathLoop (q : HhwSim) {dt : ℝ} (hdt : 0 < dt) (draws : ℕ → Fin 4 → ℝ) :
    ∀ (n k : ℕ) (s : HhwState), ∀ m, s = chain (hhwChainStep q (fun _ => dt)
        fun _ => (q.params.thetaD, q.params.thetaF)) m (HhwState.initial q.params)
          (fun j => draws (k - m + j)) → m ≤ k →
      q.pathLoop dt draws n k s = .ok (chain (hhwChainStep q (fun _ => dt)
        fun _ => (q.params.thetaD, q.params.thetaF)) (m + n) (HhwState.initial q.params)
          (fun j => draws (k - m + j)))
  | 0, k, s, m, hs, _ => by rw [HhwSim.pathLoop, hs]; rfl
  | n + 1, k, s, m, hs, hm => by
    rw [HhwSim.pathLoop, HhwSim.step, HhwSim.stepAtTime, if_pos hdt, ok_bind]
    rw [hhw_pathLoop q hdt draws n (k + 1) _ (m + 1) ?_ (by omega)]
    · rw [show k + 1 - (m + 1) = k - m by omega, show m + 1 + n = m + (n + 1) by omega]
    · rw [chain, show k + 1 - (m + 1) = k - m by omega, ← hs, show k - m + m = k by omega]
      rfl

theorem hhw_pathsLoop (q : HhwSim) {dt : ℝ} (hdt : 0 < dt) (nSteps : ℕ) (draws : ℕ → Fin 4 → ℝ) :
    ∀ n k : ℕ, q.pathsLoop dt nSteps draws n k = .ok ((List.range n).map fun i =>
      chain (hhwChainStep q (fun _ => dt) fun _ => (q.params.thetaD, q.params.thetaF)) nSteps
        (HhwState.initial q.params) fun j => draws (k + i * nSteps + j))
  | 0, k => rfl
  | n + 1, k => by
    rw [HhwSim.pathsLoop, hhw_pathLoop q hdt draws nSteps k (HhwState.initial q.params) 0 rfl
      (by omega), ok_bind,
      hhw_pathsLoop q hdt nSteps draws n (k + nSteps), ok_bind, List.range_succ_eq_map]
    simp only [List.map_cons, List.map_map, Nat.sub_zero, zero_mul, add_zero, zero_add]
    congr 2
    refine List.map_congr_left fun i _ => ?_
    simp only [Function.comp]
    congr 1
    funext j
    rw [show k + nSteps + i * nSteps + j = k + (i + 1) * nSteps + j by ring]

/-- **C67**: `simulate` returns one terminal state per path; path `i` is the chain of equal steps
driven by its own block of draws, with the constant targets of the parameters, a positive FX rate
and a non-negative variance.  Empty requests panic. -/
theorem C67_simulate (q : HhwSim) (draws : ℕ → Fin 4 → ℝ) (tEnd : ℝ) (nSteps nPaths : ℕ) :
    (0 < nSteps → 0 < nPaths → 0 < tEnd → ∃ l, q.simulate draws tEnd nSteps nPaths = .ok l
      ∧ l.length = nPaths
      ∧ (∀ i < nPaths, l[i]? = some (chain (hhwChainStep q (fun _ => tEnd / nSteps)
          fun _ => (q.params.thetaD, q.params.thetaF)) nSteps
          ⟨q.params.fx0, q.params.heston.sigma0, q.params.rd0, q.params.rf0⟩
          fun j => draws (i * nSteps + j)))
      ∧ ∀ s ∈ l, 0 < s.fx ∧ 0 ≤ s.variance)
    ∧ (nSteps = 0 ∨ nPaths = 0 ∨ tEnd ≤ 0 → q.simulate draws tEnd nSteps nPaths = .panic) := by
  unfold HhwSim.simulate
  constructor
  · intro h1 h2 h3
    rw [if_pos ⟨h1, h2, h3⟩, hhw_pathsLoop q (by positivity)]
    refine ⟨_, rfl, by simp, fun i hi => ?_, fun s hs => ?_⟩
    · simp [hi, HhwState.initial]
    · obtain ⟨i, -, rfl⟩ := List.mem_map.1 hs
      obtain ⟨m, rfl⟩ : ∃ m, nSteps = m + 1 := ⟨nSteps - 1, by omega⟩
      rw [chain]
      exact ⟨euler_fx_pos _ _ _ _ _ _, le_max_right _ _⟩
  · intro h
    rw [if_neg]
    rintro ⟨h1, h2, h3⟩
    rcases h with h | h | h
    · omega
    · omega
    · linarith

/-- **C67**: driven by dates, the simulator is the same chain with the steps between consecutive
dates, its targets read from `theta_fn` at the middle of each step; so `C67_martingale`,
`C67_foreign_mean` and `C67_domestic_mean` apply to it. -/
theorem C67_dated (q : HhwSim) (draws : ℕ → Fin 4 → ℝ) (f : Int → ℝ) (later : List Int) :
    ∀ (val : Int) (s : HhwState) (k : ℕ),
    walk (q.toModel draws) f val later (s, k)
      = (chain (hhwChainStep q
          (fun j => f ((val :: later).getD (j + 1) 0) - f ((val :: later).getD j 0))
          fun j => q.theta ((f ((val :: later).getD j 0) + f ((val :: later).getD (j + 1) 0)) / 2))
          later.length s (fun j => draws (k + j)), k + later.length) := by
  induction later with
  | nil => intro val s k; rfl
  | cons d ds ih =>
    intro val s k
    rw [walk]
    change walk (q.toModel draws) f d ds (_, k + 1) = _
    rw [ih, List.length_cons, chain_front]
    refine Prod.ext ?_ (by simp; omega)
    dsimp only
    congr 1
    funext j
    rw [show k + 1 + j = k + (j + 1) by omega]

/-- **C67**, refuted part: `simulate` ignores a target function installed by `with_theta_fn`. -/
theorem C67_theta_fn_false (q : HhwSim) (f : ℝ → ℝ × ℝ) (draws : ℕ → Fin 4 → ℝ) (tEnd : ℝ)
    (nSteps nPaths : ℕ) :
    (q.withThetaFn f).simulate draws tEnd nSteps nPaths = q.simulate draws tEnd nSteps nPaths := by
  have hstep : ∀ s dt z, (q.withThetaFn f).step s dt z = q.step s dt z := fun s dt z => rfl
  have hpath : ∀ dt n k s, (q.withThetaFn f).pathLoop dt draws n k s = q.pathLoop dt draws n k s := by
    intro dt n
    induction n with
    | zero => intro k s; rfl
    | succ n ih =>
      intro k s
      rw [HhwSim.pathLoop, HhwSim.pathLoop, hstep]
      congr 1
      funext r
      exact ih _ _
  have hpaths : ∀ dt n k, (q.withThetaFn f).pathsLoop dt nSteps draws n k
      = q.pathsLoop dt nSteps draws n k := by
    intro dt n
    induction n with
    | zero => intro k; rfl
    | succ n ih =>
      intro k
      rw [HhwSim.pathsLoop, HhwSim.pathsLoop, hpath, ih]
      rfl
  unfold HhwSim.simulate
  rw [hpaths]

/-- **C67**, refuted part: because the updated variance itself is clamped at zero, the scheme is
not the full-truncation scheme: the mean of the variance after one step exceeds
`v + κ (θ − v) dt` strictly whenever there is noise. -/
theorem C67_full_truncation_false {p : HhwParams} {q : HhwSim} (h : HhwSim.new p = .ok q) {dt : ℝ}
    (hdt : 0 < dt) {s : HhwState} (hs : 0 < s.variance) (hg : p.heston.gamma ≠ 0) (a b : ℝ) :
    s.variance + p.heston.kappa * (p.heston.theta - s.variance) * dt
      < ∫ z, (q.euler s dt a b z).variance ∂stdNormal 4 := by
  obtain ⟨hp, -, hq⟩ := hhw_new_factor h
  have hv : max s.variance 0 = s.variance := max_eq_left hs.le
  set m := s.variance + p.heston.kappa * (p.heston.theta - s.variance) * dt with hm
  set g := p.heston.gamma * √s.variance with hgd
  have hg0 : g ≠ 0 := mul_ne_zero hg (Real.sqrt_pos.2 hs).ne'
  have hvar : ∀ z, (q.euler s dt a b z).variance = max (m + g * q.noise dt z 1) 0 := fun z => by
    change max (max s.variance 0 + q.params.heston.kappa
      * (q.params.heston.theta - max s.variance 0) * dt
      + q.params.heston.gamma * √(max s.variance 0) * q.noise dt z 1) 0 = _
    rw [hv, hp]
  have hn := noise_mean q hq dt 1
  have hX : Integrable (fun z => m + g * q.noise dt z 1) (stdNormal 4) :=
    (integrable_const _).add (hn.1.const_mul _)
  have hXm : ∫ z, (m + g * q.noise dt z 1) ∂stdNormal 4 = m := by
    rw [integral_add (integrable_const _) (hn.1.const_mul _), integral_const_mul, hn.2]
    simp
  have hcont : Continuous fun z : Fin 4 → ℝ => m + g * q.noise dt z 1 := by
    unfold HhwSim.noise; fun_prop
  simp_rw [hvar]
  have hneg : Integrable (fun z => max (-(m + g * q.noise dt z 1)) 0) (stdNormal 4) := hX.neg.pos_part
  have hsum : ∀ z, max (m + g * q.noise dt z 1) 0
      = (m + g * q.noise dt z 1) + max (-(m + g * q.noise dt z 1)) 0 := fun z => by
    rcases le_total 0 (m + g * q.noise dt z 1) with h0 | h0
    · rw [max_eq_left h0, max_eq_right (by linarith)]; ring
    · rw [max_eq_right h0, max_eq_left (by linarith)]; ring
  simp_rw [hsum]
  rw [integral_add hX hneg, hXm]
  refine lt_add_of_pos_right _ ?_
  refine (integral_pos_iff_support_of_nonneg (fun z => le_max_right _ 0) hneg).2 ?_
  have hsupp : {z : Fin 4 → ℝ | m + g * q.noise dt z 1 < 0}
      ⊆ Function.support fun z => max (-(m + g * q.noise dt z 1)) 0 := fun z hz => by
    have hz' : m + g * q.noise dt z 1 < 0 := hz
    rw [Function.mem_support, max_eq_left (by linarith)]
    linarith
  refine lt_of_lt_of_le ?_ (measure_mono hsupp)
  refine (isOpen_lt hcont continuous_const).measure_pos _ ?_
  -- a draw that makes the increment as negative as needed
  have hl : q.chol 1 1 * √dt ≠ 0 :=
    mul_ne_zero (hq.diagonal 1 (by norm_num)).ne' (Real.sqrt_pos.2 hdt).ne'
  refine ⟨fun j => if j = 1 then (-(m + 1)) / (g * (q.chol 1 1 * √dt)) else 0, ?_⟩
  change m + g * q.noise dt _ 1 < 0
  rw [noise_linear q hq]
  simp only [mul_ite, mul_zero, Finset.sum_ite_eq', Finset.mem_univ, if_true]
  have : g * (q.chol ((1 : Fin 4) : ℕ) ((1 : Fin 4) : ℕ) * √dt
      * (-(m + 1) / (g * (q.chol 1 1 * √dt)))) = -(m + 1) := by
    change g * (q.chol 1 1 * √dt * (-(m + 1) / (g * (q.chol 1 1 * √dt)))) = _
    generalize q.chol 1 1 * √dt = y at hl
    clear_value g m
    field_simp
  rw [this]
  linarith

/-- Independent factors, `κ = 2`, `σ̄ = γ = 1/5`: the hypotheses of the theorems above hold. -/
noncomputable def exHhwSim : HhwParams :=
  ⟨1, ⟨2, 1 / 5, 1 / 5, 1 / 5⟩, ⟨1 / 10, 1 / 100⟩, ⟨1 / 20, 1 / 100⟩, 3 / 100, 1 / 100, 3 / 100, 1 / 100,
    ⟨0, 0, 0, 0, 0, 0⟩⟩

theorem exHhwSim_new : ∃ q, HhwSim.new exHhwSim = .ok q := by
  rw [(C67_new exHhwSim).1]
  intro x ⟨a, ha, hx⟩
  simp only [quadForm, Finset.sum_range_succ, Finset.sum_range_zero, Correlation4.matrix, exHhwSim]
  interval_cases a <;> nlinarith [sq_nonneg (x 0), sq_nonneg (x 1), sq_nonneg (x 2),
    sq_nonneg (x 3), mul_self_pos.2 hx]

/-- The spot of a two-step simulation is the mean of the discounted FX rate. -/
example : ∃ q, HhwSim.new exHhwSim = .ok q
    ∧ ∫ zs, (chain (hhwChainStep q (fun _ => 1 / 2) fun _ => (3 / 100, 1 / 100)) 2
        (HhwState.initial exHhwSim) (firstDraws zs)).fx
        / hhwCarry q (fun _ => 1 / 2) (fun _ => (3 / 100, 1 / 100)) 2 (HhwState.initial exHhwSim)
          (firstDraws zs) ∂hhwDraws 2 = 1 := by
  obtain ⟨q, h⟩ := exHhwSim_new
  exact ⟨q, h, (C67_martingale h (fun _ => by norm_num) _ (by norm_num [HhwState.initial, exHhwSim])
    2).2⟩

/-- The variance bias shows on the first step. -/
example : ∃ q, HhwSim.new exHhwSim = .ok q
    ∧ 1 / 5 < ∫ z, (q.euler (HhwState.initial exHhwSim) (1 / 2) 0 0 z).variance ∂stdNormal 4 := by
  obtain ⟨q, h⟩ := exHhwSim_new
  refine ⟨q, h, ?_⟩
  have := C67_full_truncation_false h (dt := 1 / 2) (by norm_num) (s := HhwState.initial exHhwSim)
    (by norm_num [HhwState.initial, exHhwSim]) (by norm_num [exHhwSim]) 0 0
  refine lt_of_le_of_lt (le_of_eq ?_) this
  norm_num [HhwState.initial, exHhwSim]

/-- Time-dependent targets reach the date-driven simulation: a target of `5` after `t = 0` moves
the domestic rate, while `simulate` keeps the constant target. -/
example : ∃ q, HhwSim.new exHhwSim = .ok q
    ∧ (((q.withThetaFn fun _ => (5, 0)).toModel fun _ _ => 0).step 0 (HhwState.initial exHhwSim) 0 1).1.rd
      ≠ ((q.toModel fun _ _ => 0).step 0 (HhwState.initial exHhwSim) 0 1).1.rd := by
  obtain ⟨q, h⟩ := exHhwSim_new
  refine ⟨q, h, ?_⟩
  have hp := (hhw_new_factor h).1
  have ht := (hhw_new_factor h).2.1
  simp only [HhwSim.toModel, HhwSim.euler, HhwSim.withThetaFn, HhwSim.noise, hp, ht]
  norm_num [exHhwSim, HhwState.initial]

end Verif
