import Verif.Spec.ClosedForms
import Verif.Lemmas.GaussChain
import Verif.Props.ModelMc
import Verif.Props.ExpectedPayoff
import Verif.Props.HullWhite

/-!
# C89: simulators against closed formulas
-/

namespace Verif

open MeasureTheory ProbabilityTheory Filter Topology

variable {Ω : Type} [MeasurableSpace Ω] {P : Measure Ω} [IsProbabilityMeasure P]

instance stdNormal_isProbability (n : ℕ) : IsProbabilityMeasure (stdNormal n) := by
  unfold stdNormal; infer_instance

theorem reverting_succ (x θ r0 : ℝ) (k : ℕ) :
    reverting x θ r0 (k + 1) = reverting x θ r0 k + x * (θ - reverting x θ r0 k) := by
  unfold reverting
  rw [pow_succ]
  ring

theorem reverting_zero (x θ r0 : ℝ) : reverting x θ r0 0 = r0 := by
  unfold reverting
  rw [pow_zero]
  ring

theorem reverting_nonneg {x θ r0 : ℝ} (h0 : 0 ≤ x) (h1 : x ≤ 1) (ht : 0 ≤ θ) (hr : 0 ≤ r0) (k : ℕ) :
    0 ≤ reverting x θ r0 k := by
  have ha : (0 : ℝ) ≤ (1 - x) ^ k := pow_nonneg (by linarith) k
  have hb : (1 - x) ^ k ≤ 1 := pow_le_one₀ (by linarith) (by linarith)
  have e : reverting x θ r0 k = (1 - (1 - x) ^ k) * θ + (1 - x) ^ k * r0 := by unfold reverting; ring
  rw [e]
  exact add_nonneg (mul_nonneg (by linarith) ht) (mul_nonneg ha hr)

/-! ## The law of the simulated short rate -/

/-- The variances of the scheme, step by step. -/
theorem revertingVariance_rec (x w : ℝ) (k : ℕ) :
    ∑ j ∈ Finset.range (k + 1), ((1 - x) ^ j) ^ 2 * w
      = (1 - x) ^ 2 * (∑ j ∈ Finset.range k, ((1 - x) ^ j) ^ 2 * w) + w := by
  rw [Finset.sum_range_succ', Finset.mul_sum, pow_zero]
  congr 1
  · exact Finset.sum_congr rfl fun j _ => by rw [pow_succ]; ring
  · ring

/-- A chain whose observed quantity reverts with normal noise of variance `w` per step. -/
theorem reverting_law {S Z : Type} [MeasurableSpace Z] [Zero Z] (μ : Measure Z) [IsProbabilityMeasure μ]
    (step : ℕ → S → Z → S) (f : S → ℝ) {x θ w : ℝ} (hw : 0 ≤ w) (g : Z → ℝ) (hg : Measurable g)
    (hl : μ.map g = gaussianReal 0 w.toNNReal)
    (hf : ∀ k s z, f (step k s z) = f s + x * (θ - f s) + g z) (s : S) (n : ℕ) :
    (iidLaw μ n).map (fun zs => f (chain step n s (firstDraws zs)))
      = gaussianReal (reverting x θ (f s) n)
        (∑ k ∈ Finset.range n, ((1 - x) ^ k) ^ 2 * w).toNNReal := by
  have hn : ∀ n, 0 ≤ ∑ k ∈ Finset.range n, ((1 - x) ^ k) ^ 2 * w := fun n =>
    Finset.sum_nonneg fun k _ => mul_nonneg (sq_nonneg _) hw
  refine (chain_gauss μ step (fun _ _ => True) (fun _ _ _ _ => trivial) f (fun _ => 1 - x)
    (fun _ => x * θ) (fun _ => w.toNNReal) (fun _ => g) (fun _ => hg) (fun _ => hl)
    (fun k s z _ => by rw [hf]; ring) (reverting x θ (f s))
    (fun n => (∑ k ∈ Finset.range n, ((1 - x) ^ k) ^ 2 * w).toNNReal) trivial
    (reverting_zero _ _ _) (by simp) (fun k => by rw [reverting_succ]; ring) (fun k => ?_) n).2
  rw [Real.coe_toNNReal _ (hn _), Real.coe_toNNReal _ (hn _), Real.coe_toNNReal _ hw]
  exact revertingVariance_rec x w k

/-- The noise of one factor of the FX simulator is normal with variance `dt`. -/
theorem noise_law {p : HhwParams} {q : HhwSim} (h : HhwSim.new p = .ok q) {dt : ℝ} (hdt : 0 ≤ dt)
    (c : ℝ) (i : Fin 4) :
    Measurable (fun z => c * q.noise dt z i)
    ∧ (stdNormal 4).map (fun z => c * q.noise dt z i) = gaussianReal 0 (c ^ 2 * dt).toNNReal := by
  obtain ⟨-, -, hq⟩ := hhw_new_factor h
  have e : (fun z => c * q.noise dt z i)
      = fun z : Fin 4 → ℝ => ∑ j : Fin 4, (c * (q.chol i j * √dt)) * z j := by
    funext z
    rw [noise_linear q hq, Finset.mul_sum]
    exact Finset.sum_congr rfl fun j _ => by ring
  rw [e, linear_law]
  refine ⟨by fun_prop, ?_⟩
  have hs : ∑ j : Fin 4, (c * (q.chol i j * √dt)) ^ 2
      = c ^ 2 * ∑ j : Fin 4, (q.chol i j * √dt) * (q.chol i j * √dt) := by
    rw [Finset.mul_sum]
    exact Finset.sum_congr rfl fun j _ => by ring
  have hd : p.correlations.matrix i i = 1 := by
    fin_cases i <;> rfl
  rw [hs, noise_product q hq hdt, hd, one_mul]

/-- **C89**: the domestic short rate simulated over `N` steps is exactly normal. -/
theorem C89_domestic_law {p : HhwParams} {q : HhwSim} (h : HhwSim.new p = .ok q) {T : ℝ} (hT : 0 < T)
    (N : ℕ) :
    (iidLaw (stdNormal 4) N).map (fun zs => (chain (hhwChainStep q (fun _ => T / N)
        fun _ => (p.thetaD, p.thetaF)) N (HhwState.initial p) (firstDraws zs)).rd)
      = gaussianReal (reverting (p.domestic.lambda * (T / N)) p.thetaD p.rd0 N)
        (revertingVariance p.domestic.lambda p.domestic.sigma T N).toNNReal := by
  obtain ⟨hp, -, -⟩ := hhw_new_factor h
  have hdt : 0 ≤ T / N := div_nonneg hT.le (Nat.cast_nonneg N)
  obtain ⟨h1, h2⟩ := noise_law h hdt p.domestic.sigma 2
  exact reverting_law (stdNormal 4) _ HhwState.rd (mul_nonneg (sq_nonneg _) hdt) _ h1 h2
    (fun k s z => by
      change s.rd + q.params.domestic.lambda * (p.thetaD - s.rd) * (T / N)
        + q.params.domestic.sigma * q.noise (T / N) z 2 = _
      rw [hp]
      ring) (HhwState.initial p) N

/-- **C89**: so is the rate of the Hull-White simulator with a constant target. -/
theorem C89_hull_white_law (m : HullWhite) (θ r0 : ℝ) {T : ℝ} (hT : 0 < T) (N : ℕ) :
    (iidLaw (gaussianReal 0 1) N).map (fun zs => chain (fun k s z =>
        m.step (fun _ => θ) s (k * (T / N)) (T / N) z) N r0 (firstDraws zs))
      = gaussianReal (reverting (m.lambda * (T / N)) θ r0 N)
        (revertingVariance m.lambda m.sigma T N).toNNReal := by
  have hdt : 0 ≤ T / N := div_nonneg hT.le (Nat.cast_nonneg N)
  have hl : (gaussianReal 0 1).map (fun z => m.sigma * √(T / N) * z)
      = gaussianReal 0 (m.sigma ^ 2 * (T / N)).toNNReal := by
    rw [gaussianReal_map_const_mul, mul_zero, mul_one]
    congr 1
    apply NNReal.eq
    rw [Real.coe_toNNReal _ (mul_nonneg (sq_nonneg _) hdt)]
    change (m.sigma * √(T / N)) ^ 2 = _
    rw [mul_pow, Real.sq_sqrt hdt]
  exact reverting_law (gaussianReal 0 1) _ id (mul_nonneg (sq_nonneg _) hdt) _ (by fun_prop) hl
    (fun k s z => by
      change s + m.lambda * (θ - s) * (T / N) + m.sigma * √(T / N) * z = _
      simp only [id]
      ring) r0 N

/-! ## Limits of small steps -/

theorem reverting_limit (lam θ r0 T : ℝ) :
    Tendsto (fun N : ℕ => reverting (lam * (T / N)) θ r0 N) atTop
      (𝓝 (θ + Real.exp (-(lam * T)) * (r0 - θ))) := by
  have h := Real.tendsto_one_add_div_pow_exp (-(lam * T))
  unfold reverting
  refine ((h.congr fun N => ?_).mul_const _).const_add _
  congr 1
  ring

/-- **C89**: with smaller and smaller steps mean and variance of the simulated rate converge to the
mean of the Hull-White model and to what `short_rate_variance` returns. -/
theorem C89_rate_limit (m : HullWhite) (θ r0 : ℝ) {T : ℝ} (hT : 0 < T)
    (hl : m.lambda = 0 ∨ 1 / 10 ^ 12 ≤ |m.lambda|) :
    Tendsto (fun N : ℕ => reverting (m.lambda * (T / N)) θ r0 N) atTop
      (𝓝 (θ + Real.exp (-(m.lambda * T)) * (r0 - θ)))
    ∧ Tendsto (fun N : ℕ => revertingVariance m.lambda m.sigma T N) atTop
      (𝓝 (m.shortRateVariance 0 T)) := by
  refine ⟨reverting_limit _ _ _ _, ?_⟩
  unfold HullWhite.shortRateVariance
  rw [sub_zero, if_neg (not_le.2 hT)]
  rcases hl with h0 | hl
  · rw [if_pos (by rw [h0, abs_zero]; norm_num)]
    refine tendsto_const_nhds.congr' ?_
    filter_upwards [eventually_gt_atTop 0] with N hN
    have hNr : (N : ℝ) ≠ 0 := by exact_mod_cast hN.ne'
    unfold revertingVariance
    rw [h0]
    simp only [zero_mul, sub_zero, one_pow, one_mul, Finset.sum_const, Finset.card_range, nsmul_eq_mul]
    field_simp
  · rw [if_neg (not_lt.2 hl)]
    have hne : m.lambda ≠ 0 := by
      intro h; rw [h, abs_zero] at hl; norm_num at hl
    have h := Real.tendsto_one_add_div_pow_exp (-(m.lambda * T))
    have h2 : Tendsto (fun N : ℕ => m.lambda * (T / (N : ℝ))) atTop (𝓝 0) := by
      have := (tendsto_const_div_atTop_nhds_zero_nat T).const_mul m.lambda
      rwa [mul_zero] at this
    have h3 : Tendsto (fun N : ℕ => m.sigma ^ 2 * (1 - ((1 + -(m.lambda * T) / (N : ℝ)) ^ N) ^ 2)
        / (m.lambda * (2 - m.lambda * (T / N)))) atTop
        (𝓝 (m.sigma ^ 2 * (1 - Real.exp (-(m.lambda * T)) ^ 2) / (m.lambda * (2 - 0)))) :=
      (((h.pow 2).const_sub 1).const_mul _).div ((h2.const_sub 2).const_mul _)
        (by rw [sub_zero]; exact mul_ne_zero hne two_ne_zero)
    have e : m.sigma ^ 2 * (1 - Real.exp (-(m.lambda * T)) ^ 2) / (m.lambda * (2 - 0))
        = m.sigma * m.sigma / (2 * m.lambda) * (1 - Real.exp (-(2 * m.lambda) * T)) := by
      rw [← Real.exp_nat_mul]
      rw [show ((2 : ℕ) : ℝ) * -(m.lambda * T) = -(2 * m.lambda) * T by push_cast; ring]
      field_simp
      ring
    rw [e] at h3
    refine h3.congr' ?_
    have hsmall : ∀ᶠ N : ℕ in atTop, m.lambda * (T / (N : ℝ)) < 2 :=
      h2.eventually_lt_const (by norm_num)
    filter_upwards [eventually_gt_atTop 0, hsmall] with N hN hs
    have hNr : (0 : ℝ) < N := by exact_mod_cast hN
    unfold revertingVariance
    set x := m.lambda * (T / (N : ℝ)) with hx
    have hx0 : x ≠ 0 := mul_ne_zero hne (div_pos hT hNr).ne'
    have hx1 : (1 - x) ^ 2 ≠ 1 := by
      intro h
      have : x * (x - 2) = 0 := by linear_combination h
      rcases mul_eq_zero.1 this with h | h
      · exact hx0 h
      · linarith
    have hg : ∑ k ∈ Finset.range N, ((1 - x) ^ k) ^ 2 * (m.sigma ^ 2 * (T / N))
        = (((1 - x) ^ 2) ^ N - 1) / ((1 - x) ^ 2 - 1) * (m.sigma ^ 2 * (T / N)) := by
      rw [← geom_sum_eq hx1, Finset.sum_mul]
      exact Finset.sum_congr rfl fun k _ => by rw [← pow_mul, ← pow_mul, mul_comm k 2]
    rw [hg, show -(m.lambda * T) / (N : ℝ) = -x by rw [hx]; ring, ← sub_eq_add_neg]
    have e1 : (1 - x) ^ 2 - 1 = -(x * (2 - x)) := by ring
    have e2 : T / (N : ℝ) = x / m.lambda := by rw [hx]; field_simp
    have h2x : 2 - x ≠ 0 := by linarith
    rw [e1, e2, ← pow_mul, ← pow_mul, mul_comm 2 N]
    field_simp
    ring

/-- The sums over small steps. -/
theorem revertingSum_eq {lam θ r0 T : ℝ} (hl : lam ≠ 0) {N : ℕ} (hT : 0 < T) (hN : 0 < N) :
    revertingSum lam θ r0 T N
      = θ * T + (r0 - θ) * (1 - (1 + -(lam * T) / (N : ℝ)) ^ N) / lam := by
  have hNr : (0 : ℝ) < N := by exact_mod_cast hN
  unfold revertingSum reverting
  set x := lam * (T / (N : ℝ)) with hx
  have hx0 : x ≠ 0 := mul_ne_zero hl (div_pos hT hNr).ne'
  have hx1 : 1 - x ≠ 1 := fun h => hx0 (by linarith)
  have e2 : T / (N : ℝ) = x / lam := by rw [hx]; field_simp
  have hg : ∑ k ∈ Finset.range N, (θ + (1 - x) ^ k * (r0 - θ)) * (T / N)
      = N * (θ * (T / N)) + ((1 - x) ^ N - 1) / (1 - x - 1) * ((r0 - θ) * (T / N)) := by
    rw [← geom_sum_eq hx1, Finset.sum_mul]
    have : (N : ℝ) * (θ * (T / N)) = ∑ k ∈ Finset.range N, θ * (T / N) := by
      rw [Finset.sum_const, Finset.card_range, nsmul_eq_mul]
    rw [this, ← Finset.sum_add_distrib]
    exact Finset.sum_congr rfl fun k _ => by ring
  rw [hg, show -(lam * T) / (N : ℝ) = -x by rw [hx]; ring, ← sub_eq_add_neg]
  have e1 : (N : ℝ) * (θ * (T / N)) = θ * T := by field_simp
  rw [e1, e2, show 1 - x - 1 = -x by ring]
  field_simp
  ring

/-- **C89**: with smaller and smaller steps the sum of a mean-reverting rate converges to its integral,
expressed by the kernel `b` of the Hull-White model. -/
theorem C89_sum_limit (m : HullWhite) (θ r0 : ℝ) {T : ℝ} (hT : 0 < T)
    (hl : m.lambda = 0 ∨ 1 / 10 ^ 12 ≤ |m.lambda|) :
    Tendsto (fun N : ℕ => revertingSum m.lambda θ r0 T N) atTop (𝓝 (θ * T - (r0 - θ) * m.b 0 T)) := by
  unfold HullWhite.b
  rw [sub_zero]
  rcases hl with h0 | hl
  · rw [if_pos (by rw [h0, abs_zero]; norm_num)]
    refine tendsto_const_nhds.congr' ?_
    filter_upwards [eventually_gt_atTop 0] with N hN
    have hNr : (N : ℝ) ≠ 0 := by exact_mod_cast hN.ne'
    unfold revertingSum reverting
    rw [h0]
    simp only [zero_mul, sub_zero, one_pow, one_mul, Finset.sum_const, Finset.card_range, nsmul_eq_mul]
    field_simp
    ring
  · rw [if_neg (not_lt.2 hl)]
    have hne : m.lambda ≠ 0 := by
      intro h; rw [h, abs_zero] at hl; norm_num at hl
    have h := Real.tendsto_one_add_div_pow_exp (-(m.lambda * T))
    have h3 := (((h.const_sub 1).const_mul (r0 - θ)).div_const m.lambda).const_add (θ * T)
    have e : θ * T + (r0 - θ) * (1 - Real.exp (-(m.lambda * T))) / m.lambda
        = θ * T - (r0 - θ) * ((Real.exp (-m.lambda * T) - 1) / m.lambda) := by
      rw [neg_mul]
      field_simp
      ring
    rw [e] at h3
    refine h3.congr' ?_
    filter_upwards [eventually_gt_atTop 0] with N hN
    exact (revertingSum_eq hne hT hN).symm

/-! ## Deterministic variance and rates: Black's formula -/

/-- The parameters make variance and rates deterministic; `dt` is short enough for the variance scheme
not to overshoot. -/
structure HhwParams.Deterministic (p : HhwParams) (dt : ℝ) : Prop where
  gamma : p.heston.gamma = 0
  domestic : p.domestic.sigma = 0
  foreign : p.foreign.sigma = 0
  start : 0 ≤ p.heston.sigma0
  level : 0 ≤ p.heston.theta
  speed : 0 ≤ p.heston.kappa * dt
  short : p.heston.kappa * dt ≤ 1
  fx : 0 < p.fx0

/-- The total variance and the logarithm of the forward in the deterministic case. -/
noncomputable def totalVariance (p : HhwParams) (T : ℝ) (N : ℕ) : ℝ :=
  revertingSum p.heston.kappa p.heston.theta p.heston.sigma0 T N

noncomputable def parityForward (p : HhwParams) (T : ℝ) (N : ℕ) : ℝ :=
  p.fx0 * Real.exp (revertingSum p.domestic.lambda p.thetaD p.rd0 T N
    - revertingSum p.foreign.lambda p.thetaF p.rf0 T N)

theorem totalVariance_nonneg {p : HhwParams} {T : ℝ} {N : ℕ} (hT : 0 < T) (hd : p.Deterministic (T / N)) :
    0 ≤ totalVariance p T N := by
  unfold totalVariance revertingSum
  exact Finset.sum_nonneg fun k _ => mul_nonneg (reverting_nonneg hd.speed hd.short hd.level hd.start k)
    (div_nonneg hT.le (Nat.cast_nonneg N))

/-- **C89**: the logarithm of the simulated FX rate is exactly normal, with the total variance of the
scheme, around the forward. -/
theorem C89_fx_law {p : HhwParams} {q : HhwSim} (h : HhwSim.new p = .ok q) {T : ℝ} (hT : 0 < T) {N : ℕ}
    (hd : p.Deterministic (T / N)) :
    Measurable (fun zs : Fin N → Fin 4 → ℝ => Real.log (chain (hhwChainStep q (fun _ => T / N)
        fun _ => (p.thetaD, p.thetaF)) N (HhwState.initial p) (firstDraws zs)).fx)
    ∧ (∀ z, 0 < (chain (hhwChainStep q (fun _ => T / N)
        fun _ => (p.thetaD, p.thetaF)) N (HhwState.initial p) z).fx)
    ∧ (iidLaw (stdNormal 4) N).map (fun zs => Real.log (chain (hhwChainStep q (fun _ => T / N)
        fun _ => (p.thetaD, p.thetaF)) N (HhwState.initial p) (firstDraws zs)).fx)
      = gaussianReal (Real.log (parityForward p T N) - totalVariance p T N / 2)
        (totalVariance p T N).toNNReal := by
  obtain ⟨hp, -, -⟩ := hhw_new_factor h
  set dt := T / (N : ℝ) with hdtd
  have hdt : 0 ≤ dt := div_nonneg hT.le (Nat.cast_nonneg N)
  set vk : ℕ → ℝ := reverting (p.heston.kappa * dt) p.heston.theta p.heston.sigma0 with hvk
  set dk : ℕ → ℝ := reverting (p.domestic.lambda * dt) p.thetaD p.rd0 with hdk
  set fk : ℕ → ℝ := reverting (p.foreign.lambda * dt) p.thetaF p.rf0 with hfk
  have hv0 : ∀ k, 0 ≤ vk k := reverting_nonneg hd.speed hd.short hd.level hd.start
  have hw0 : ∀ k, 0 ≤ vk k * dt := fun k => mul_nonneg (hv0 k) hdt
  set I : ℕ → HhwState → Prop := fun k s => 0 < s.fx ∧ s.variance = vk k ∧ s.rd = dk k ∧ s.rf = fk k
    with hI
  have hstep : ∀ k s z, I k s → I (k + 1) (hhwChainStep q (fun _ => dt)
      (fun _ => (p.thetaD, p.thetaF)) k s z) := by
    rintro k s z ⟨-, i2, i3, i4⟩
    refine ⟨Real.exp_pos _, ?_, ?_, ?_⟩
    · change max (max s.variance 0 + q.params.heston.kappa * (q.params.heston.theta - max s.variance 0) * dt
        + q.params.heston.gamma * √(max s.variance 0) * q.noise dt z 1) 0 = _
      rw [hp, hd.gamma, i2, max_eq_left (hv0 k), zero_mul, zero_mul, add_zero, hvk, reverting_succ]
      rw [max_eq_left]
      · ring
      · have := hv0 (k + 1)
        rw [hvk, reverting_succ] at this
        linarith
    · change s.rd + q.params.domestic.lambda * (p.thetaD - s.rd) * dt
        + q.params.domestic.sigma * q.noise dt z 2 = _
      rw [hp, hd.domestic, i3, hdk, reverting_succ]
      ring
    · change s.rf + (q.params.foreign.lambda * (p.thetaF - s.rf)
          - q.params.foreign.sigma * q.params.correlations.xiF * √(max s.variance 0)) * dt
          + q.params.foreign.sigma * q.noise dt z 3 = _
      rw [hp, hd.foreign, i4, hfk, reverting_succ]
      ring
  have h0 : I 0 (HhwState.initial p) :=
    ⟨hd.fx, (reverting_zero _ _ _).symm, (reverting_zero _ _ _).symm, (reverting_zero _ _ _).symm⟩
  have hinv : ∀ (z : ℕ → Fin 4 → ℝ) n, I n (chain (hhwChainStep q (fun _ => dt)
      fun _ => (p.thetaD, p.thetaF)) n (HhwState.initial p) z) := by
    intro z n
    induction n with
    | zero => exact h0
    | succ n ih => exact hstep _ _ _ ih
  have hn : ∀ n, 0 ≤ ∑ k ∈ Finset.range n, vk k * dt := fun n =>
    Finset.sum_nonneg fun k _ => hw0 k
  have key := chain_gauss (stdNormal 4) (hhwChainStep q (fun _ => dt) fun _ => (p.thetaD, p.thetaF)) I hstep
    (fun s => Real.log s.fx) (fun _ => 1) (fun k => (dk k - fk k - 1 / 2 * vk k) * dt)
    (fun k => (vk k * dt).toNNReal) (fun k z => √(vk k) * q.noise dt z 0)
    (fun k => (noise_law h hdt _ 0).1)
    (fun k => by rw [(noise_law h hdt _ 0).2, Real.sq_sqrt (hv0 k)])
    (fun k s z ⟨i1, i2, i3, i4⟩ => by
      change Real.log (Real.exp (Real.log s.fx + (s.rd - s.rf - 1 / 2 * max s.variance 0) * dt
        + √(max s.variance 0) * q.noise dt z 0)) = _
      rw [Real.log_exp, i2, i3, i4, max_eq_left (hv0 k), one_mul])
    (fun n => Real.log p.fx0 + ∑ k ∈ Finset.range n, (dk k - fk k - 1 / 2 * vk k) * dt)
    (fun n => (∑ k ∈ Finset.range n, vk k * dt).toNNReal) h0
    (by rw [Finset.sum_range_zero, add_zero]; rfl) (by simp)
    (fun k => by rw [Finset.sum_range_succ]; ring)
    (fun k => by
      rw [Real.coe_toNNReal _ (hn _), Real.coe_toNNReal _ (hn _), Real.coe_toNNReal _ (hw0 k),
        Finset.sum_range_succ]
      ring) N
  refine ⟨key.1, fun z => (hinv z N).1, key.2.trans ?_⟩
  have e : Real.log p.fx0 + ∑ k ∈ Finset.range N, (dk k - fk k - 1 / 2 * vk k) * dt
      = Real.log (parityForward p T N) - totalVariance p T N / 2 := by
    rw [parityForward, Real.log_mul hd.fx.ne' (Real.exp_ne_zero _), Real.log_exp]
    have : ∑ k ∈ Finset.range N, (dk k - fk k - 1 / 2 * vk k) * dt
        = ∑ k ∈ Finset.range N, dk k * dt - ∑ k ∈ Finset.range N, fk k * dt
          - (∑ k ∈ Finset.range N, vk k * dt) / 2 := by
      rw [Finset.sum_div, ← Finset.sum_sub_distrib, ← Finset.sum_sub_distrib]
      exact Finset.sum_congr rfl fun k _ => by ring
    rw [this]
    unfold totalVariance revertingSum
    ring
  rw [e]
  rfl

/-- **C89**: with deterministic variance and rates the Monte Carlo price of a call or a put converges
almost surely to Black's formula, for every number of time steps. -/
theorem C89_black {p : HhwParams} {q : HhwSim} (h : HhwSim.new p = .ok q)
    {ξ : ℕ → Ω → Fin 4 → ℝ} (hξ : IidDraws P (stdNormal 4) ξ) {T : ℝ} {N : ℕ}
    (hd : p.Deterministic (T / N)) {r : ℕ → Ω → List HhwState}
    (hr : ∀ n ω, 0 < n → q.simulate (fun k => ξ k ω) T N n = .ok (r n ω)) {K : ℝ} (hK : 0 < K)
    (disc : ℝ) (ot : OptionType) :
    ∀ᵐ ω ∂P, Tendsto (fun n => disc * average (fun s : HhwState =>
        vanillaPayoff (ot == .call) K s.fx) (r n ω)) atTop
      (𝓝 (blackScholes (parityForward p T N) K (totalVariance p T N) disc ot)) := by
  obtain ⟨⟨hN, hT⟩, hs, hG⟩ := hhw_sample hξ hr
  obtain ⟨hp, -, -⟩ := hhw_new_factor h
  set F := parityForward p T N with hF
  set w := totalVariance p T N with hw
  have hF0 : 0 < F := mul_pos hd.fx (Real.exp_pos _)
  have hw0 : 0 ≤ w := totalVariance_nonneg hT hd
  have hm : Measurable (vanillaPayoff (ot == .call) K) := by
    unfold vanillaPayoff
    cases (ot == .call) <;> simp <;> fun_prop
  have hg : Measurable fun v : ℝ × ℝ × ℝ × ℝ => vanillaPayoff (ot == .call) K v.1 :=
    hm.comp measurable_fst
  obtain ⟨g1, g2⟩ := hG _ hg
  rw [hp] at g1 g2
  obtain ⟨l1, l2, l3⟩ := C89_fx_law h hT hd
  -- both laws are pushed forward from a standard normal draw
  have hlaw := l3.trans (normalLevel_law (Real.log F - w / 2) hw0).symm
  have hlev : ∀ z, Real.exp (normalLevel (Real.log F - w / 2) w z) = lognormalLevel F w z := by
    intro z
    rw [normalLevel, lognormalLevel, show Real.log F - w / 2 + √w * z = Real.log F + (√w * z - w / 2) by ring,
      Real.exp_add, Real.exp_log hF0]
  have hme : Measurable fun x : ℝ => vanillaPayoff (ot == .call) K (Real.exp x) :=
    hm.comp Real.measurable_exp
  have hmn : Measurable (normalLevel (Real.log F - w / 2) w) := by unfold normalLevel; fun_prop
  have hi0 : Integrable (fun z => vanillaPayoff (ot == .call) K
      (Real.exp (normalLevel (Real.log F - w / 2) w z))) (gaussianReal 0 1) := by
    simp only [hlev]
    exact payoff_integrable _ K (lognormal_integrable F w)
  have hi1 : Integrable (fun x => vanillaPayoff (ot == .call) K (Real.exp x))
      ((gaussianReal 0 1).map (normalLevel (Real.log F - w / 2) w)) :=
    (integrable_map_measure hme.aestronglyMeasurable hmn.aemeasurable).2 hi0
  have hfx : ∀ zs : Fin N → Fin 4 → ℝ, vanillaPayoff (ot == .call) K
      (Real.exp (Real.log (chain (hhwChainStep q (fun _ => T / N)
        fun _ => (p.thetaD, p.thetaF)) N (HhwState.initial p) (firstDraws zs)).fx))
      = vanillaPayoff (ot == .call) K (chain (hhwChainStep q (fun _ => T / N)
        fun _ => (p.thetaD, p.thetaF)) N (HhwState.initial p) (firstDraws zs)).fx := fun zs => by
    rw [Real.exp_log (l2 _)]
  have hi2 := hi1
  rw [← hlaw] at hi2
  have hi3 := (integrable_map_measure hme.aestronglyMeasurable l1.aemeasurable).1 hi2
  have hi4 := hi3.congr (Eventually.of_forall hfx)
  have hint : ∫ zs, vanillaPayoff (ot == .call) K (chain (hhwChainStep q (fun _ => T / N)
        fun _ => (p.thetaD, p.thetaF)) N (HhwState.initial p) (firstDraws zs)).fx
        ∂iidLaw (stdNormal 4) N
      = meanOverDraw fun z => vanillaPayoff (ot == .call) K (lognormalLevel F w z) := by
    rw [← integral_congr_ae (Eventually.of_forall hfx), ← integral_map l1.aemeasurable
      hme.aestronglyMeasurable (f := fun x => vanillaPayoff (ot == .call) K (Real.exp x)), hlaw,
      integral_map hmn.aemeasurable hme.aestronglyMeasurable]
    simp only [hlev]
    rfl
  have := C88_average hs hg (g1.2 hi4)
  rw [g2] at this
  rw [C85_black hF0 hK hw0]
  filter_upwards [this] with ω hω
  exact (hint ▸ hω : _).const_mul disc

/-- **C89**: with constant variance and rates this is the formula of `bs_call_forward` and
`bs_put_forward` with the parity forward and the square root of the variance. -/
theorem C89_black_scholes {p : HhwParams} {q : HhwSim} (h : HhwSim.new p = .ok q)
    {ξ : ℕ → Ω → Fin 4 → ℝ} (hξ : IidDraws P (stdNormal 4) ξ) {T : ℝ} {N : ℕ}
    (hd : p.Deterministic (T / N)) (hv : p.heston.theta = p.heston.sigma0) (hdr : p.thetaD = p.rd0)
    (hfr : p.thetaF = p.rf0) {r : ℕ → Ω → List HhwState}
    (hr : ∀ n ω, 0 < n → q.simulate (fun k => ξ k ω) T N n = .ok (r n ω)) {K : ℝ} (hK : 0 < K)
    (disc : ℝ) :
    ∀ᵐ ω ∂P, Tendsto (fun n => disc * average (fun s : HhwState => vanillaPayoff true K s.fx) (r n ω))
        atTop (𝓝 (bsCallForward (p.fx0 * Real.exp ((p.rd0 - p.rf0) * T)) K √p.heston.sigma0 T disc))
      ∧ Tendsto (fun n => disc * average (fun s : HhwState => vanillaPayoff false K s.fx) (r n ω))
        atTop (𝓝 (bsPutForward (p.fx0 * Real.exp ((p.rd0 - p.rf0) * T)) K √p.heston.sigma0 T disc)) := by
  obtain ⟨⟨hN, hT⟩, -⟩ := hhw_sample hξ hr
  have hNr : (N : ℝ) ≠ 0 := by exact_mod_cast hN.ne'
  have hconst : ∀ lam c : ℝ, revertingSum lam c c T N = c * T := by
    intro lam c
    unfold revertingSum reverting
    simp only [sub_self, mul_zero, add_zero, Finset.sum_const, Finset.card_range, nsmul_eq_mul]
    field_simp
  have hF : parityForward p T N = p.fx0 * Real.exp ((p.rd0 - p.rf0) * T) := by
    rw [parityForward, hdr, hfr, hconst, hconst]
    congr 2
    ring
  have hw : totalVariance p T N = √p.heston.sigma0 ^ 2 * T := by
    rw [totalVariance, hv, hconst, Real.sq_sqrt hd.start]
  have hF0 : 0 < p.fx0 * Real.exp ((p.rd0 - p.rf0) * T) := mul_pos hd.fx (Real.exp_pos _)
  have hw0 : 0 ≤ √p.heston.sigma0 ^ 2 * T := mul_nonneg (sq_nonneg _) hT.le
  obtain ⟨e1, e2⟩ := C85_black_forward hF0 hK (Real.sqrt_nonneg p.heston.sigma0) hT.le disc
  have hc := C89_black h hξ hd hr hK disc .call
  have hpt := C89_black h hξ hd hr hK disc .put
  rw [hF, hw, C85_black hF0 hK hw0] at hc hpt
  rw [e1, e2]
  filter_upwards [hc, hpt] with ω a b
  exact ⟨a, b⟩

/-! ## The volatility of the SABR simulator -/

/-- **C89**: the simulated SABR volatility is exactly lognormal for every number of steps. -/
theorem C89_sabr_vol (a : ℕ → ℝ) {ρ ν T : ℝ} (β : ℝ) (hρ : -1 ≤ ρ ∧ ρ ≤ 1) (hT : 0 < T) {N : ℕ}
    (hN : 0 < N) (f0 : ℝ) :
    (iidLaw (stdNormal 2) N).map (fun zs => Real.log (chain (sabrScheme a (fun _ => ρ) (fun _ => ν)
        (fun _ => T / N) β) N (f0, 1) (firstDraws zs)).2)
      = gaussianReal (-(ν ^ 2 * T) / 2) (ν ^ 2 * T).toNNReal := by
  have hNr : (0 : ℝ) < N := by exact_mod_cast hN
  have hdt : 0 ≤ T / (N : ℝ) := (div_pos hT hNr).le
  set dt := T / (N : ℝ) with hdtd
  have hw : 0 ≤ ν ^ 2 * dt := mul_nonneg (sq_nonneg _) hdt
  have hg : (fun z : Fin 2 → ℝ => ν * (√dt * (ρ * z 0 + √(1 - ρ ^ 2) * z 1)))
      = fun z => ∑ i, ![ν * √dt * ρ, ν * √dt * √(1 - ρ ^ 2)] i * z i := by
    funext z
    simp only [Fin.sum_univ_two, Matrix.cons_val_zero, Matrix.cons_val_one]
    ring
  have hl : (stdNormal 2).map (fun z : Fin 2 → ℝ => ν * (√dt * (ρ * z 0 + √(1 - ρ ^ 2) * z 1)))
      = gaussianReal 0 (ν ^ 2 * dt).toNNReal := by
    rw [hg, linear_law]
    congr 2
    simp only [Fin.sum_univ_two, Matrix.cons_val_zero, Matrix.cons_val_one, mul_pow, Real.sq_sqrt hdt]
    rw [Real.sq_sqrt (by nlinarith)]
    ring
  have key := chain_gauss (stdNormal 2) (sabrScheme a (fun _ => ρ) (fun _ => ν) (fun _ => dt) β)
    (fun _ s => 0 < s.2) (fun k s z hs => mul_pos hs (Real.exp_pos _)) (fun s => Real.log s.2) (fun _ => 1)
    (fun _ => -(ν ^ 2 / 2 * dt)) (fun _ => (ν ^ 2 * dt).toNNReal)
    (fun _ z => ν * (√dt * (ρ * z 0 + √(1 - ρ ^ 2) * z 1))) (fun _ => by fun_prop) (fun _ => hl)
    (fun k s z hs => by
      change Real.log (s.2 * Real.exp _) = _
      rw [Real.log_mul hs.ne' (Real.exp_ne_zero _), Real.log_exp]
      ring)
    (fun n => n * -(ν ^ 2 / 2 * dt)) (fun n => (n * (ν ^ 2 * dt)).toNNReal) (s := (f0, 1)) one_pos
    (by simp) (by simp) (fun k => by push_cast; ring)
    (fun k => by
      rw [Real.coe_toNNReal _ (mul_nonneg (Nat.cast_nonneg _) hw),
        Real.coe_toNNReal _ (mul_nonneg (Nat.cast_nonneg _) hw), Real.coe_toNNReal _ hw]
      push_cast
      ring) N
  have e1 : (N : ℝ) * -(ν ^ 2 / 2 * dt) = -(ν ^ 2 * T) / 2 := by rw [hdtd]; field_simp
  have e2 : (N : ℝ) * (ν ^ 2 * dt) = ν ^ 2 * T := by rw [hdtd]; field_simp
  rw [key.2, e1, e2]

/-! ## Examples -/

/-- Variance `1/25` and rates of 3 % and 1 %, all constant. -/
noncomputable def exFlat : HhwParams :=
  ⟨1, ⟨2, 1 / 25, 0, 1 / 25⟩, ⟨1 / 10, 0⟩, ⟨1 / 20, 0⟩, 3 / 100, 1 / 100, 3 / 100, 1 / 100,
    ⟨0, 0, 0, 0, 0, 0⟩⟩

/-- Two steps over one year price an option at 20 % volatility. -/
example : ∃ (q : HhwSim) (r : ℕ → (ℕ → Fin 4 → ℝ) → List HhwState),
    HhwSim.new exFlat = .ok q ∧ exFlat.Deterministic (1 / (2 : ℕ))
    ∧ (∀ n ω, 0 < n → q.simulate ω 1 2 n = .ok (r n ω))
    ∧ ∀ᵐ ω ∂Measure.infinitePi fun _ : ℕ => stdNormal 4,
      Tendsto (fun n => 1 * average (fun s : HhwState => vanillaPayoff true 1 s.fx) (r n ω)) atTop
        (𝓝 (bsCallForward (1 * Real.exp ((3 / 100 - 1 / 100) * 1)) 1 √(1 / 25) 1 1)) := by
  obtain ⟨q, h⟩ : ∃ q, HhwSim.new exFlat = .ok q := by
    rw [(C67_new exFlat).1]
    intro x ⟨a, ha, hx⟩
    simp only [quadForm, Finset.sum_range_succ, Finset.sum_range_zero, Correlation4.matrix, exFlat]
    interval_cases a <;> nlinarith [sq_nonneg (x 0), sq_nonneg (x 1), sq_nonneg (x 2),
      sq_nonneg (x 3), mul_self_pos.2 hx]
  have hd : exFlat.Deterministic (1 / (2 : ℕ)) := by
    constructor <;> norm_num [exFlat]
  have hex : ∀ n (ω : ℕ → Fin 4 → ℝ), ∃ l, 0 < n → q.simulate ω 1 2 n = .ok l := by
    intro n ω
    by_cases hn : 0 < n
    · obtain ⟨l, h1, -⟩ := (C67_simulate q ω 1 2 n).1 (by norm_num) hn (by norm_num)
      exact ⟨l, fun _ => h1⟩
    · exact ⟨[], fun h => absurd h hn⟩
  choose r hr using hex
  refine ⟨q, r, h, hd, hr, ?_⟩
  have := C89_black_scholes h (exists_vectorDraws 4) (T := 1) (N := 2) hd rfl rfl rfl (r := r) hr one_pos 1
  filter_upwards [this] with ω hω using hω.1

/-- The simulated rate of the Heston/Hull-White example after two half-year steps has variance
`(1 + (19/20)²) / 20000`. -/
example : revertingVariance (1 / 10) (1 / 100) 1 2 = (1 + (19 / 20) ^ 2) / 20000 := by
  norm_num [revertingVariance, Finset.sum_range_succ]

/-- The hypotheses of the limits hold for the domestic rate of the example. -/
example : Tendsto (fun N : ℕ => revertingVariance (1 / 10) (1 / 100) 1 N) atTop
    (𝓝 ((⟨1 / 10, 1 / 100⟩ : HullWhite).shortRateVariance 0 1)) :=
  (C89_rate_limit ⟨1 / 10, 1 / 100⟩ (3 / 100) (1 / 100) one_pos (Or.inr (by
    rw [abs_of_pos] <;> norm_num))).2

end Verif
