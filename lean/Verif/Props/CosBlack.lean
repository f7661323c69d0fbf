import Verif.Lemmas.CosBlack
import Verif.Model.Calibrate

/-!
# C93: cosine prices of normal log-forwards are Black prices
-/

namespace Verif

open MeasureTheory ProbabilityTheory Outcome Filter Topology

/-- **C93**: for the characteristic function of any probability law that is at most `E` in size at
the omitted frequencies, the series remainder of `C61_call_error` and `C61_put_error` shrinks by the
factor `E`. -/
theorem C93_decay (p : CosPricer) {μ : Measure ℝ} [IsProbabilityMeasure μ]
    (hφ : ∀ u : ℝ, p.chf.evaluate u = charFun μ u) {K E : ℝ} (hK : 0 < K) (h : p.lo < p.hi)
    (h0 : p.lo ≤ Real.log K) (h1 : Real.log K ≤ p.hi) (hn : 2 ≤ p.nTerms)
    (hE : ∀ k : ℕ, p.nTerms ≤ k → ‖charFun μ (k * Real.pi / (p.hi - p.lo))‖ ≤ E) {discount c q : ℝ}
    (hc : p.call K discount = .ok c) (hq : p.put K discount = .ok q) :
    |c - discount * ∫ y, callPayoff K (foldInto p.lo p.hi y) ∂μ|
      ≤ |discount| * (E * (2 * (p.hi - p.lo) * (Real.exp p.hi + 2 * K) / Real.pi ^ 2
          / (p.nTerms - 1))) ∧
    |q - discount * ∫ y, putPayoff K (foldInto p.lo p.hi y) ∂μ|
      ≤ |discount| * (E * (2 * (p.hi - p.lo) * (Real.exp p.hi + 2 * K) / Real.pi ^ 2
          / (p.nTerms - 1))) := by
  constructor
  · rw [C61_call_series p hK h h0 h1] at hc
    obtain rfl := Outcome.ok.inj hc
    simp only [cosFactor_of_law hφ]
    exact discounted_error (partial_sum_decay (μ := μ) h (continuous_callPayoff K) hn hE
      (fun k hk => by rw [← call_coef h hK h0 h1]; exact call_coef_bound hk h hK))
  · rw [C61_put_series p hK h h0 h1] at hq
    obtain rfl := Outcome.ok.inj hq
    simp only [cosFactor_of_law hφ]
    exact discounted_error (partial_sum_decay (μ := μ) h (continuous_putPayoff K) hn hE
      (fun k hk => by rw [← put_coef h hK h0 h1]; exact put_coef_bound hk h hK))

/-- **C93**: for a normal log-forward with mean `log F - V/2` and variance `V`, a range of half-width
`H` around `log F` and a strike inside it, the cosine price is Black's price up to a remainder that
falls with the square of the number of terms in the exponent, and tails that fall with the square of
the half-width in the exponent. -/
theorem C93_normal (p : CosPricer) {F V H K : ℝ} (hF : 0 < F) (hV : 0 < V) (hH : V / 2 ≤ H)
    (hφ : ∀ u : ℝ, p.chf.evaluate u = charFun (logLaw (Real.log F) V) u) (hlo : p.lo = Real.log F - H)
    (hhi : p.hi = Real.log F + H) (hK : 0 < K) (hKH : |Real.log (K / F)| ≤ H) (hn : 2 ≤ p.nTerms)
    {discount c q : ℝ} (hc : p.call K discount = .ok c) (hq : p.put K discount = .ok q) :
    |c - blackScholes F K V discount .call|
      ≤ |discount| * (Real.exp (-(V * (p.nTerms * Real.pi / (2 * H)) ^ 2 / 2))
          * (4 * H * (F * Real.exp H + 2 * K) / Real.pi ^ 2 / (p.nTerms - 1))
        + F * (1 + Real.exp H) * (2 * Real.exp (-((H - V / 2) ^ 2 / (2 * V))))) ∧
    |q - blackScholes F K V discount .put|
      ≤ |discount| * (Real.exp (-(V * (p.nTerms * Real.pi / (2 * H)) ^ 2 / 2))
          * (4 * H * (F * Real.exp H + 2 * K) / Real.pi ^ 2 / (p.nTerms - 1))
        + K * (2 * Real.exp (-((H - V / 2) ^ 2 / (2 * V))))) := by
  have hH0 : 0 < H := by linarith
  have hw : p.hi - p.lo = 2 * H := by rw [hlo, hhi]; ring
  have hlt : p.lo < p.hi := by linarith
  rw [Real.log_div hK.ne' hF.ne', abs_le] at hKH
  have h0 : p.lo ≤ Real.log K := by rw [hlo]; linarith
  have h1 : Real.log K ≤ p.hi := by rw [hhi]; linarith
  have hehi : Real.exp p.hi = F * Real.exp H := by rw [hhi, Real.exp_add, Real.exp_log hF]
  have hpi := Real.pi_pos
  have hE : ∀ k : ℕ, p.nTerms ≤ k → ‖charFun (logLaw (Real.log F) V) (k * Real.pi / (p.hi - p.lo))‖
      ≤ Real.exp (-(V * (p.nTerms * Real.pi / (2 * H)) ^ 2 / 2)) := by
    intro k hk
    have hk' : (p.nTerms : ℝ) ≤ k := by exact_mod_cast hk
    rw [logLaw_charFun_norm _ hV.le, hw, Real.exp_le_exp, neg_le_neg_iff]
    gcongr
  obtain ⟨d1, d2⟩ := C93_decay p hφ hK hlt h0 h1 hn hE hc hq
  rw [hw, hehi] at d1 d2
  have e4 : 2 * (2 * H) = 4 * H := by ring
  rw [e4] at d1 d2
  obtain ⟨b1, b2⟩ := black_logLaw hF hK hV.le discount
  have hfold := continuous_foldInto p.lo p.hi
  have ht1 := logLaw_outside (Real.log F) hV hH
  have ht2 := logLaw_outside_exp (Real.log F) hV hH
  rw [← hlo, ← hhi] at ht1 ht2
  rw [Real.exp_log hF] at ht2
  have hexp := logLaw_exp_integrable (Real.log F) V
  constructor
  · have hb : ∀ y, 0 ≤ callPayoff K y ∧ callPayoff K y ≤ Real.exp y := by
      intro y
      refine ⟨le_max_right _ _, max_le (by linarith) (Real.exp_pos y).le⟩
    have hb2 : ∀ y, callPayoff K (foldInto p.lo p.hi y) ≤ Real.exp p.hi := fun y =>
      (hb _).2.trans (Real.exp_le_exp.2 (foldInto_mem hlt y).2)
    have hcont := continuous_callPayoff K
    have hg : Integrable (callPayoff K) (logLaw (Real.log F) V) :=
      Integrable.mono' hexp hcont.aestronglyMeasurable (Filter.Eventually.of_forall fun y => by
        rw [Real.norm_eq_abs, abs_of_nonneg (hb y).1]; exact (hb y).2)
    have hf : Integrable (fun y => callPayoff K (foldInto p.lo p.hi y)) (logLaw (Real.log F) V) :=
      integrable_of_le_const (hcont.comp hfold) (Real.exp p.hi) fun y => by
        rw [abs_of_nonneg (hb _).1]; exact hb2 y
    have e2 := folding_error hlt hg hf ((integrable_const (Real.exp p.hi)).add hexp) fun y => by
      rw [abs_le]
      have := hb y; have := hb (foldInto p.lo p.hi y); have := hb2 y
      have := Real.exp_pos y; have := Real.exp_pos p.hi
      simp only [Pi.add_apply]
      constructor <;> linarith
    simp only [Pi.add_apply] at e2
    rw [integral_add (integrable_const _) hexp.integrableOn, setIntegral_const, smul_eq_mul, hehi] at e2
    rw [abs_sub_comm] at e2
    have e3 := discounted_error (discount := discount) e2
    rw [b1]
    have := abs_sub_le c (discount * ∫ y, callPayoff K (foldInto p.lo p.hi y) ∂logLaw (Real.log F) V)
      (discount * ∫ y, callPayoff K y ∂logLaw (Real.log F) V)
    have e5 : (logLaw (Real.log F) V).real (Set.Icc p.lo p.hi)ᶜ * (F * Real.exp H)
        + ∫ y in (Set.Icc p.lo p.hi)ᶜ, Real.exp y ∂logLaw (Real.log F) V
        ≤ F * (1 + Real.exp H) * (2 * Real.exp (-((H - V / 2) ^ 2 / (2 * V)))) := by
      have : 0 < F * Real.exp H := mul_pos hF (Real.exp_pos H)
      nlinarith [mul_le_mul_of_nonneg_right ht1 this.le]
    have e6 := e3.trans (mul_le_mul_of_nonneg_left e5 (abs_nonneg discount))
    rw [mul_add]
    linarith
  · have hb : ∀ y, 0 ≤ putPayoff K y ∧ putPayoff K y ≤ K := by
      intro y
      refine ⟨le_max_right _ _, max_le ?_ hK.le⟩
      linarith [Real.exp_pos y]
    have hcont := continuous_putPayoff K
    have hg : Integrable (putPayoff K) (logLaw (Real.log F) V) := integrable_of_le_const hcont K fun y => by
      rw [abs_of_nonneg (hb y).1]; exact (hb y).2
    have hf : Integrable (fun y => putPayoff K (foldInto p.lo p.hi y)) (logLaw (Real.log F) V) :=
      integrable_of_le_const (hcont.comp hfold) K fun y => by
        rw [abs_of_nonneg (hb _).1]; exact (hb _).2
    have e2 := folding_error hlt hg hf (integrable_const K) fun y => by
      rw [abs_le]
      have := hb y; have := hb (foldInto p.lo p.hi y)
      constructor <;> linarith
    rw [setIntegral_const, smul_eq_mul, mul_comm] at e2
    rw [abs_sub_comm] at e2
    have e3 := discounted_error (discount := discount) e2
    rw [b2]
    have := abs_sub_le q (discount * ∫ y, putPayoff K (foldInto p.lo p.hi y) ∂logLaw (Real.log F) V)
      (discount * ∫ y, putPayoff K y ∂logLaw (Real.log F) V)
    have e6 := e3.trans (mul_le_mul_of_nonneg_left (mul_le_mul_of_nonneg_left ht1 hK.le)
      (abs_nonneg discount))
    rw [mul_add]
    linarith

/-- A pricer on the characteristic function of a normal log-forward. -/
noncomputable def normalPricer : CosPricer :=
  ⟨⟨fun u => charFun (logLaw (Real.log 1) (1 / 25)) u.re, 1, 0, 1 / 25⟩, 64, Real.log 1 - 2, Real.log 1 + 2⟩

example : ∃ c q, normalPricer.call 1 1 = .ok c ∧ normalPricer.put 1 1 = .ok q ∧
    |c - blackScholes 1 1 (1 / 25) 1 .call| ≤ |(1 : ℝ)|
      * (Real.exp (-(1 / 25 * ((64 : ℕ) * Real.pi / (2 * 2)) ^ 2 / 2))
          * (4 * 2 * (1 * Real.exp 2 + 2 * 1) / Real.pi ^ 2 / ((64 : ℕ) - 1))
        + 1 * (1 + Real.exp 2) * (2 * Real.exp (-((2 - 1 / 25 / 2) ^ 2 / (2 * (1 / 25)))))) := by
  obtain ⟨c, q, hc, hq⟩ := (C61_total normalPricer 1 1).2 one_pos
  exact ⟨c, q, hc, hq, (C93_normal normalPricer (F := 1) (V := 1 / 25) (H := 2) one_pos (by norm_num)
    (by norm_num) (fun u => rfl) rfl rfl one_pos (by norm_num) (show 2 ≤ 64 by norm_num) hc hq).1⟩

/-- **C93**: without volatility of variance, whatever the volatilities of the two short rates, the
FX-HHW1 characteristic function is exactly that of a normal log-forward; its variance is
`simpsonVariance`. -/
theorem C93_hhw_law (p : HhwParams) (hk : 0 < p.heston.kappa) (hg : p.heston.gamma = 0)
    (hθ : 0 ≤ p.heston.theta) (hs : 0 ≤ p.heston.sigma0) {T : ℝ} (hT : 0 ≤ T) {m : ℕ} (hm : 0 < m)
    (hV : 0 ≤ p.simpsonVariance T m) :
    ∃ q, HhwChf.withSimpsonSteps p T (2 * m) = .ok q ∧
      ∀ u : ℝ, q.evaluate u = .ok (charFun (gaussianReal
        (p.logForward T - p.simpsonVariance T m / 2) (p.simpsonVariance T m).toNNReal) u) := by
  obtain ⟨q, h1, -, -, h2⟩ := hhw_law p hk hg hθ hs hT hm hV
  exact ⟨q, h1, h2⟩

/-- The reference parameters with both rate volatilities and all correlations, but no volatility of
variance. -/
noncomputable def rateVolHhw : HhwParams := { paperHhw with heston := ⟨1 / 2, 1 / 10, 0, 1 / 10⟩ }

theorem rateVol_rate (T t : ℝ) : 7 / 100 ≤ rateVolHhw.varianceRate T t := by
  have hd : rateVolHhw.heston.decayed t = 1 / 10 := by simp only [Cir.decayed, rateVolHhw]; ring
  have h1 : rateVolHhw.correlations.xiD = -3 / 20 := rfl
  have h2 : rateVolHhw.correlations.xiF = -3 / 20 := rfl
  have h3 : rateVolHhw.correlations.dF = 1 / 4 := rfl
  have hq : √(1 / 10 : ℝ) ^ 2 = 1 / 10 := Real.sq_sqrt (by norm_num)
  simp only [HhwParams.varianceRate, fwdVarX, hd, h1, h2, h3]
  generalize -(rateVolHhw.domestic.sigma * rateVolHhw.domestic.b t T) = d
  generalize rateVolHhw.foreign.sigma * rateVolHhw.foreign.b t T = f
  generalize √(1 / 10 : ℝ) = φ at *
  nlinarith [sq_nonneg (φ - d), sq_nonneg (φ - f), sq_nonneg (d + f), sq_nonneg d, sq_nonneg f]

example : ∃ q, HhwChf.withSimpsonSteps rateVolHhw 1 (2 * 5) = .ok q ∧
    ∀ u : ℝ, q.evaluate u = .ok (charFun (gaussianReal
      (rateVolHhw.logForward 1 - rateVolHhw.simpsonVariance 1 5 / 2)
      (rateVolHhw.simpsonVariance 1 5).toNNReal) u) := by
  have hk : rateVolHhw.heston.kappa = 1 / 2 := rfl
  have hs : rateVolHhw.heston.sigma0 = 1 / 10 := rfl
  refine C93_hhw_law rateVolHhw (by rw [hk]; norm_num) rfl (by norm_num [rateVolHhw]) (by rw [hs]; norm_num)
    zero_le_one (by norm_num) ?_
  have h1 : simpsonOn 5 0 1 (fun _ => (-3 / 100 : ℝ)) ≤ simpsonOn 5 0 1 (fun t =>
      rateVolHhw.varianceRate 1 t
        - rateVolHhw.heston.sigma0 * Real.exp (-rateVolHhw.heston.kappa * t)) := by
    refine simpsonOn_le zero_le_one fun t ht => ?_
    have e1 : Real.exp (-rateVolHhw.heston.kappa * t) ≤ 1 :=
      Real.exp_le_one_iff.2 (by rw [hk]; linarith [ht.1])
    have := rateVol_rate 1 t
    rw [hs]
    linarith
  have h2 : simpsonOn 5 0 1 (fun _ => (-3 / 100 : ℝ)) = -3 / 100 := by
    simp only [simpsonOn, Finset.sum_const, Finset.card_range]; norm_num
  have h3 : Real.exp (-rateVolHhw.heston.kappa * 1) ≤ 2 / 3 := by
    have h := Real.add_one_le_exp (1 / 2 : ℝ)
    rw [hk, show -(1 / 2 : ℝ) * 1 = -(1 / 2) by norm_num, Real.exp_neg, inv_le_comm₀ (Real.exp_pos _) (by norm_num)]
    linarith
  rw [h2] at h1
  unfold HhwParams.simpsonVariance
  rw [hk, hs] at *
  linarith

/-- **C93**: that variance converges to the variance of the log-forward of the model as the Simpson
rule is refined; with constant variance and deterministic rates the error is explicit. -/
theorem C93_variance (p : HhwParams) (hk : 0 < p.heston.kappa) {T : ℝ} (hT : 0 ≤ T) :
    Tendsto (fun m => p.simpsonVariance T m) atTop (𝓝 (p.forwardVariance T)) ∧
    (p.domestic.sigma = 0 → p.foreign.sigma = 0 → 0 ≤ p.heston.theta →
      p.heston.sigma0 = p.heston.theta → p.forwardVariance T = p.heston.theta * T ∧
      ∀ m : ℕ, 0 < m → |p.simpsonVariance T m - p.heston.theta * T|
        ≤ p.heston.theta * p.heston.kappa ^ 4 * T ^ 5 / (180 * (2 * m) ^ 4)) := by
  refine ⟨simpsonVariance_tendsto p hk hT, fun hd hf hθ hs => ⟨?_, fun m hm =>
    simpsonVariance_constant p hk hd hf hθ hs hT hm⟩⟩
  have hrate : ∀ t, p.varianceRate T t = p.heston.theta := by
    intro t
    have : p.heston.decayed t = p.heston.theta := by rw [Cir.decayed, hs]; ring
    simp [HhwParams.varianceRate, fwdVarX, hd, hf, this]
  simp [HhwParams.forwardVariance, hrate, mul_comm]

example : |bsHhw.simpsonVariance 1 64 - 1 / 25| ≤ 1 / 10 ^ 12 := by
  have h := (C93_variance bsHhw (T := 1) (by norm_num [bsHhw]) zero_le_one).2 rfl rfl (by norm_num [bsHhw]) rfl
  have h2 := h.2 64 (by norm_num)
  have e1 : bsHhw.heston.theta = 1 / 25 := rfl
  have e2 : bsHhw.heston.kappa = 1 := rfl
  rw [e1, e2, mul_one] at h2
  exact h2.trans (by norm_num)

theorem pricer_chf {V x : ℝ} {q : HhwChf}
    (h : ∀ u : ℝ, q.evaluate u = .ok (charFun (logLaw x V) u)) (u : ℝ) :
    q.forwardChf.evaluate u = charFun (logLaw x V) u := by
  simp only [HhwChf.forwardChf, h u, outcomeValue]

/-- A coarser form of the bound of `C93_normal`, for wide ranges. -/
theorem C93_wide (p : CosPricer) {F V H K : ℝ} (hF : 0 < F) (hV : 0 < V) (hH : 5 * V ≤ H)
    (hφ : ∀ u : ℝ, p.chf.evaluate u = charFun (logLaw (Real.log F) V) u) (hlo : p.lo = Real.log F - H)
    (hhi : p.hi = Real.log F + H) (hK : 0 < K) (hKH : |Real.log (K / F)| ≤ H) (hn : 2 ≤ p.nTerms)
    {discount c q : ℝ} (hc : p.call K discount = .ok c) (hq : p.put K discount = .ok q) :
    |c - blackScholes F K V discount .call|
      ≤ |discount| * (4 * H * (F * Real.exp H + 2 * K) / Real.pi ^ 2 / (p.nTerms - 1)
        + 4 * (F + K) * Real.exp (-H)) ∧
    |q - blackScholes F K V discount .put|
      ≤ |discount| * (4 * H * (F * Real.exp H + 2 * K) / Real.pi ^ 2 / (p.nTerms - 1)
        + 4 * (F + K) * Real.exp (-H)) := by
  have hH0 : 0 < H := by linarith
  have hpi := Real.pi_pos
  have hn' : (0 : ℝ) < p.nTerms - 1 := by
    have : (2 : ℝ) ≤ p.nTerms := by exact_mod_cast hn
    linarith
  have hE : Real.exp (-(V * (p.nTerms * Real.pi / (2 * H)) ^ 2 / 2)) ≤ 1 :=
    Real.exp_le_one_iff.2 (by rw [neg_nonpos]; positivity)
  have hR : 0 ≤ 4 * H * (F * Real.exp H + 2 * K) / Real.pi ^ 2 / (p.nTerms - 1) := by positivity
  have ht : Real.exp (-((H - V / 2) ^ 2 / (2 * V))) ≤ Real.exp (-H) * Real.exp (-H) := by
    rw [← Real.exp_add, Real.exp_le_exp, ← neg_add, neg_le_neg_iff, le_div_iff₀ (by positivity)]
    nlinarith
  have hm : Real.exp (-H) * Real.exp H = 1 := by rw [← Real.exp_add]; simp
  have h1 : Real.exp (-H) ≤ 1 := Real.exp_le_one_iff.2 (by linarith)
  have h0 := Real.exp_pos (-H)
  have h2 := Real.exp_pos H
  obtain ⟨b1, b2⟩ := C93_normal p hF hV (by linarith) hφ hlo hhi hK hKH hn hc hq
  refine ⟨b1.trans (mul_le_mul_of_nonneg_left (add_le_add ?_ ?_) (abs_nonneg _)),
    b2.trans (mul_le_mul_of_nonneg_left (add_le_add ?_ ?_) (abs_nonneg _))⟩
  · exact mul_le_of_le_one_left hR hE
  · calc F * (1 + Real.exp H) * (2 * Real.exp (-((H - V / 2) ^ 2 / (2 * V))))
        ≤ F * (1 + Real.exp H) * (2 * (Real.exp (-H) * Real.exp (-H))) := by gcongr
      _ = 2 * F * (Real.exp (-H) * Real.exp (-H) + Real.exp (-H) * (Real.exp (-H) * Real.exp H)) := by ring
      _ ≤ 2 * F * (1 * Real.exp (-H) + Real.exp (-H)) := by
        rw [hm, mul_one]
        gcongr
      _ ≤ 4 * (F + K) * Real.exp (-H) := by nlinarith [mul_pos hK h0]
  · exact mul_le_of_le_one_left hR hE
  · calc K * (2 * Real.exp (-((H - V / 2) ^ 2 / (2 * V))))
        ≤ K * (2 * (Real.exp (-H) * Real.exp (-H))) := by gcongr
      _ ≤ K * (2 * (1 * Real.exp (-H))) := by gcongr
      _ ≤ 4 * (F + K) * Real.exp (-H) := by nlinarith [mul_pos hK h0, mul_pos hF h0]

/-- **C93**: without volatility of variance the cosine prices of the FX-HHW1 model converge to Black's
prices with the variance of the log-forward, including the volatilities of both short rates, as the
range, the number of terms and the number of Simpson intervals grow. -/
theorem C93_converges (p : HhwParams) (hk : 0 < p.heston.kappa) (hg : p.heston.gamma = 0)
    (hθ : 0 ≤ p.heston.theta) (hs : 0 ≤ p.heston.sigma0) (hfx : 0 < p.fx0) {T : ℝ} (hT : 0 ≤ T)
    (hV : 0 < p.forwardVariance T) {K : ℝ} (hK : 0 < K) (discount : ℝ) {ε : ℝ} (hε : 0 < ε) :
    ∃ H0 : ℝ, ∀ H ≥ H0, ∃ n0 : ℕ, ∀ n ≥ n0, ∃ m0 : ℕ, ∀ m ≥ m0, ∃ q c w,
      HhwChf.withSimpsonSteps p T (2 * m) = .ok q ∧
      CosPricer.call ⟨q.forwardChf, n, p.logForward T - H, p.logForward T + H⟩ K discount = .ok c ∧
      CosPricer.put ⟨q.forwardChf, n, p.logForward T - H, p.logForward T + H⟩ K discount = .ok w ∧
      |c - blackScholes (p.fx0 * Real.exp ((p.rd0 - p.rf0) * T)) K (p.forwardVariance T) discount .call|
        < ε ∧
      |w - blackScholes (p.fx0 * Real.exp ((p.rd0 - p.rf0) * T)) K (p.forwardVariance T) discount .put|
        < ε := by
  set F := p.fx0 * Real.exp ((p.rd0 - p.rf0) * T) with hFdef
  have hF : 0 < F := by positivity
  have hlog : p.logForward T = Real.log F := by
    rw [hFdef, ← exp_logForward p hfx T, Real.log_exp]
  rw [hlog]
  set V := p.forwardVariance T with hVdef
  have l1 : Tendsto (fun H : ℝ => |discount| * (4 * (F + K) * Real.exp (-H))) atTop (𝓝 0) := by
    have := (Real.tendsto_exp_neg_atTop_nhds_zero.const_mul (4 * (F + K))).const_mul |discount|
    simpa using this
  obtain ⟨H1, hH1⟩ := (l1.eventually (gt_mem_nhds (show (0 : ℝ) < ε / 3 by linarith))).exists_forall_of_atTop
  refine ⟨max (max H1 (10 * V)) (max |Real.log (K / F)| 1), fun H hH => ?_⟩
  have a1 : H1 ≤ H := le_trans (le_trans (le_max_left _ _) (le_max_left _ _)) hH
  have a2 : 10 * V ≤ H := le_trans (le_trans (le_max_right _ _) (le_max_left _ _)) hH
  have a3 : |Real.log (K / F)| ≤ H := le_trans (le_trans (le_max_left _ _) (le_max_right _ _)) hH
  have l2 : Tendsto (fun n : ℕ => |discount| * (4 * H * (F * Real.exp H + 2 * K) / Real.pi ^ 2
      / ((n : ℝ) - 1))) atTop (𝓝 0) := by
    have h1 : Tendsto (fun n : ℕ => (n : ℝ) - 1) atTop atTop :=
      tendsto_atTop_add_const_right _ _ tendsto_natCast_atTop_atTop
    have := (h1.const_div_atTop (4 * H * (F * Real.exp H + 2 * K) / Real.pi ^ 2)).const_mul |discount|
    simpa using this
  obtain ⟨n1, hn1⟩ := (l2.eventually (gt_mem_nhds (show (0 : ℝ) < ε / 3 by linarith))).exists_forall_of_atTop
  refine ⟨max n1 2, fun n hn => ?_⟩
  have l3 := simpsonVariance_tendsto p hk hT
  have l4 : Tendsto (fun m => |discount| * (F / 2 * |√(p.simpsonVariance T m) - √V|)) atTop (𝓝 0) := by
    have := (((((Real.continuous_sqrt.tendsto V).comp l3).sub_const (√V)).abs).const_mul (F / 2)).const_mul
      |discount|
    simpa using this
  obtain ⟨m1, hm1⟩ := ((l4.eventually (gt_mem_nhds (show (0 : ℝ) < ε / 3 by linarith))).and
    ((l3.eventually (lt_mem_nhds hV)).and
      (l3.eventually (gt_mem_nhds (show V < 2 * V by linarith))))).exists_forall_of_atTop
  refine ⟨max m1 1, fun m hm => ?_⟩
  obtain ⟨b1, b2, b3⟩ := hm1 m (le_trans (le_max_left _ _) hm)
  obtain ⟨q, hq, -, -, hlaw⟩ := hhw_law p hk hg hθ hs hT (lt_of_lt_of_le one_pos (le_trans (le_max_right _ _) hm))
    b2.le
  obtain ⟨c, w, hc, hw⟩ := (C61_total ⟨q.forwardChf, n, Real.log F - H, Real.log F + H⟩ K discount).2 hK
  refine ⟨q, c, w, hq, hc, hw, ?_⟩
  rw [hlog] at hlaw
  obtain ⟨e1, e2⟩ := C93_wide ⟨q.forwardChf, n, Real.log F - H, Real.log F + H⟩ hF b2
    (by linarith) (fun u => pricer_chf hlaw u) rfl rfl hK a3
    (le_trans (le_max_right _ _) hn) hc hw
  have f1 := hH1 H a1
  have f2 := hn1 n (le_trans (le_max_left _ _) hn)
  have g1 := black_lipschitz hF hK b2 hV discount .call
  have g2 := black_lipschitz hF hK b2 hV discount .put
  have t1 := abs_sub_le c (blackScholes F K (p.simpsonVariance T m) discount .call)
    (blackScholes F K V discount .call)
  have t2 := abs_sub_le w (blackScholes F K (p.simpsonVariance T m) discount .put)
    (blackScholes F K V discount .put)
  rw [mul_add] at e1 e2
  dsimp only at e1 e2 f1 f2 b1
  constructor <;> linarith
theorem rateVol_variance : 0 < rateVolHhw.forwardVariance 1 := by
  have hi := (varianceRate_continuous rateVolHhw 1).intervalIntegrable (μ := volume) 0 1
  have h1 := intervalIntegral.integral_mono_on (zero_le_one' ℝ) intervalIntegrable_const hi
    fun t _ => rateVol_rate 1 t
  simp only [intervalIntegral.integral_const, sub_zero, one_smul] at h1
  exact lt_of_lt_of_le (by norm_num) h1

example : ∃ H0 : ℝ, ∀ H ≥ H0, ∃ n0 : ℕ, ∀ n ≥ n0, ∃ m0 : ℕ, ∀ m ≥ m0, ∃ q c w,
    HhwChf.withSimpsonSteps rateVolHhw 1 (2 * m) = .ok q ∧
    CosPricer.call ⟨q.forwardChf, n, rateVolHhw.logForward 1 - H, rateVolHhw.logForward 1 + H⟩ (7 / 5) 1
      = .ok c ∧
    CosPricer.put ⟨q.forwardChf, n, rateVolHhw.logForward 1 - H, rateVolHhw.logForward 1 + H⟩ (7 / 5) 1
      = .ok w ∧
    |c - blackScholes (rateVolHhw.fx0 * Real.exp ((rateVolHhw.rd0 - rateVolHhw.rf0) * 1)) (7 / 5)
      (rateVolHhw.forwardVariance 1) 1 .call| < 1 / 10 ^ 9 ∧
    |w - blackScholes (rateVolHhw.fx0 * Real.exp ((rateVolHhw.rd0 - rateVolHhw.rf0) * 1)) (7 / 5)
      (rateVolHhw.forwardVariance 1) 1 .put| < 1 / 10 ^ 9 :=
  C93_converges rateVolHhw (by norm_num [rateVolHhw]) rfl (by norm_num [rateVolHhw])
    (by norm_num [rateVolHhw]) (by norm_num [rateVolHhw, paperHhw]) zero_le_one rateVol_variance (by norm_num) 1
    (by norm_num)

/-- The error of the default settings when the range is ten standard deviations `s`. -/
theorem C93_ten_deviations (p : CosPricer) {F V s K : ℝ} (hF : 0 < F) (hs : 0 < s) (hs1 : s ≤ 1)
    (hV1 : 179 / 180 * s ^ 2 ≤ V) (hV2 : V ≤ 181 / 180 * s ^ 2)
    (hφ : ∀ u : ℝ, p.chf.evaluate u = charFun (logLaw (Real.log F) V) u)
    (hlo : p.lo = Real.log F - 10 * s) (hhi : p.hi = Real.log F + 10 * s) (hK : 0 < K)
    (hKH : |Real.log (K / F)| ≤ 10 * s) (hn : p.nTerms = 128)
    {discount c q : ℝ} (hc : p.call K discount = .ok c) (hq : p.put K discount = .ok q) :
    |c - blackScholes F K V discount .call| ≤ |discount| * (2 / 10 ^ 14 * (F + K)) ∧
    |q - blackScholes F K V discount .put| ≤ |discount| * (2 / 10 ^ 14 * (F + K)) := by
  have hs2 : 0 < s ^ 2 := by positivity
  have hss : s ^ 2 ≤ s := by nlinarith
  have hV : 0 < V := by linarith
  obtain ⟨b1, b2⟩ := C93_normal p hF hV (by linarith) hφ hlo hhi hK hKH (by rw [hn]; norm_num) hc hq
  rw [hn] at b1 b2
  have ha0 : (0 : ℝ) ≤ 4 * (10 * s) * (F * Real.exp (10 * s) + 2 * K) / Real.pi ^ 2 / ((128 : ℕ) - 1) := by
    have : (0 : ℝ) ≤ (128 : ℕ) - 1 := by push_cast; norm_num
    positivity
  obtain ⟨e1, e2⟩ := ten_errors hF hK hs1 (ten_tail hs hs1 hV hV2) (ten_series hs hV1) ha0
    (ten_coefficient hF hK hs1)
  exact ⟨b1.trans (mul_le_mul_of_nonneg_left e1 (abs_nonneg _)),
    b2.trans (mul_le_mul_of_nonneg_left e2 (abs_nonneg _))⟩

/-- **C93**: with the default settings, constant variance and deterministic rates (the
Black–Scholes limit the crate tests), total standard deviation `√(θT)` between `10⁻⁶` and one and a
strike within ten of them from the forward, prices are Black's to within a relative `2·10⁻¹⁴` and the
effect of the Simpson rule. -/
theorem C93_default (p : HhwParams) (hk : 0 < p.heston.kappa) (hg : p.heston.gamma = 0)
    (hd : p.domestic.sigma = 0) (hf : p.foreign.sigma = 0) (hsθ : p.heston.sigma0 = p.heston.theta)
    (hfx : 0 < p.fx0) {T : ℝ} (hT : 0 < T) (hkT : p.heston.kappa * T ≤ 128)
    (hlow : 1 / 10 ^ 6 ≤ √(p.heston.theta * T)) (hupp : √(p.heston.theta * T) ≤ 1) {K : ℝ} (hK : 0 < K)
    (hKH : |Real.log (K / (p.fx0 * Real.exp ((p.rd0 - p.rf0) * T)))| ≤ 10 * √(p.heston.theta * T))
    (discount : ℝ) :
    ∃ q c w, HhwChf.new p T = .ok q ∧
      (CosPricer.new q.forwardChf).call K discount = .ok c ∧
      (CosPricer.new q.forwardChf).put K discount = .ok w ∧
      |c - blackScholes (p.fx0 * Real.exp ((p.rd0 - p.rf0) * T)) K (p.heston.theta * T) discount .call|
        ≤ |discount| * (2 / 10 ^ 14 * (p.fx0 * Real.exp ((p.rd0 - p.rf0) * T) + K)
          + p.fx0 * Real.exp ((p.rd0 - p.rf0) * T) * √(p.heston.theta * T)
            * (p.heston.kappa * T / 128) ^ 4 / 360) ∧
      |w - blackScholes (p.fx0 * Real.exp ((p.rd0 - p.rf0) * T)) K (p.heston.theta * T) discount .put|
        ≤ |discount| * (2 / 10 ^ 14 * (p.fx0 * Real.exp ((p.rd0 - p.rf0) * T) + K)
          + p.fx0 * Real.exp ((p.rd0 - p.rf0) * T) * √(p.heston.theta * T)
            * (p.heston.kappa * T / 128) ^ 4 / 360) := by
  set F := p.fx0 * Real.exp ((p.rd0 - p.rf0) * T) with hFdef
  have hF : 0 < F := by positivity
  have hlog : p.logForward T = Real.log F := by
    rw [hFdef, ← exp_logForward p hfx T, Real.log_exp]
  have hs0 : 0 < √(p.heston.theta * T) := lt_of_lt_of_le (by norm_num) hlow
  have hV : 0 < p.heston.theta * T := Real.sqrt_pos.1 hs0
  have hθ : 0 < p.heston.theta := pos_of_mul_pos_left hV hT.le
  have hsq : √(p.heston.theta * T) ^ 2 = p.heston.theta * T := Real.sq_sqrt hV.le
  have hsv := simpsonVariance_constant p hk hd hf hθ.le hsθ hT.le (m := 64) (by norm_num)
  set W := p.simpsonVariance T 64 with hW
  set s := √(p.heston.theta * T) with hs
  set δ := (p.heston.kappa * T / 128) ^ 4 / 180 with hδ
  have hd0 : 0 ≤ δ := by positivity
  have hd1 : δ ≤ 1 / 180 := by
    have : (p.heston.kappa * T / 128) ^ 4 ≤ 1 :=
      pow_le_one₀ (by positivity) (by linarith)
    rw [hδ]; linarith
  have hsv' : |W - s ^ 2| ≤ s ^ 2 * δ := by
    rw [hsq]
    refine hsv.trans (le_of_eq ?_)
    rw [hδ]; push_cast; ring
  have hs2 : 0 < s ^ 2 := by positivity
  have hbd : s ^ 2 * δ ≤ 1 / 180 * s ^ 2 := by nlinarith
  rw [abs_le] at hsv'
  have hW1 : 179 / 180 * s ^ 2 ≤ W := by linarith
  have hW2 : W ≤ 181 / 180 * s ^ 2 := by linarith
  have hW0 : 0 < W := by nlinarith
  obtain ⟨q, hq, hp, hx, hlaw⟩ := hhw_law p hk hg hθ.le (hsθ ▸ hθ.le) hT.le (m := 64) (by norm_num) hW0.le
  rw [hlog] at hlaw
  obtain ⟨c, w, hc, hw⟩ := (C61_total (CosPricer.new q.forwardChf) K discount).2 hK
  have hmax : max √(p.heston.theta * T) (1 / 10 ^ 6) = s := max_eq_left hlow
  have hlo : (CosPricer.new q.forwardChf).lo = Real.log F - 10 * s := by
    simp only [CosPricer.new, HhwChf.forwardChf, hp, hx, hlog, hmax]
  have hhi : (CosPricer.new q.forwardChf).hi = Real.log F + 10 * s := by
    simp only [CosPricer.new, HhwChf.forwardChf, hp, hx, hlog, hmax]
  obtain ⟨e1, e2⟩ := C93_ten_deviations (CosPricer.new q.forwardChf) hF hs0 hupp hW1 hW2
    (fun u => pricer_chf hlaw u) hlo hhi hK hKH rfl hc hw
  have hroot : |√W - √(p.heston.theta * T)| ≤ s * δ := by
    have h1 : |√W - s| * s ≤ |W - s ^ 2| := by
      have : W - s ^ 2 = (√W - s) * (√W + s) := by
        have := Real.sq_sqrt hW0.le
        linear_combination -this
      rw [this, abs_mul]
      have := Real.sqrt_nonneg W
      rw [abs_of_nonneg (show 0 ≤ √W + s by linarith)]
      exact mul_le_mul_of_nonneg_left (by linarith) (abs_nonneg _)
    have h2 : |W - s ^ 2| ≤ s ^ 2 * δ := abs_le.2 hsv'
    have : |√W - s| * s ≤ s * δ * s := by linarith [show s * δ * s = s ^ 2 * δ by ring]
    exact le_of_mul_le_mul_right this hs0
  have g1 := black_lipschitz hF hK hW0 hV discount .call
  have g2 := black_lipschitz hF hK hW0 hV discount .put
  have g3 : |discount| * (F / 2 * |√W - √(p.heston.theta * T)|)
      ≤ |discount| * (F * s * (p.heston.kappa * T / 128) ^ 4 / 360) := by
    refine mul_le_mul_of_nonneg_left ?_ (abs_nonneg _)
    calc F / 2 * |√W - √(p.heston.theta * T)| ≤ F / 2 * (s * δ) := by gcongr
      _ = _ := by rw [hδ]; ring
  have t1 := abs_sub_le c (blackScholes F K W discount .call)
    (blackScholes F K (p.heston.theta * T) discount .call)
  have t2 := abs_sub_le w (blackScholes F K W discount .put)
    (blackScholes F K (p.heston.theta * T) discount .put)
  refine ⟨q, c, w, hq, hc, hw, ?_, ?_⟩
  · rw [mul_add]; linarith
  · rw [mul_add]; linarith

/-- The parameters of the crate's test of this limit, with flat rates. -/
noncomputable def gbmHhw : HhwParams :=
  { bsHhw with fx0 := 27 / 20, rd0 := 1 / 50, rf0 := 1 / 50 }

example : ∃ q c w, HhwChf.new gbmHhw 1 = .ok q ∧
    (CosPricer.new q.forwardChf).call (7 / 5) 1 = .ok c ∧
    (CosPricer.new q.forwardChf).put (7 / 5) 1 = .ok w ∧
    |c - blackScholes (27 / 20) (7 / 5) (1 / 25) 1 .call| ≤ 1 / 10 ^ 11 ∧
    |w - blackScholes (27 / 20) (7 / 5) (1 / 25) 1 .put| ≤ 1 / 10 ^ 11 := by
  have hr : √(1 / 25 : ℝ) = 1 / 5 := by
    rw [show (1 / 25 : ℝ) = (1 / 5) ^ 2 by norm_num, Real.sqrt_sq (by norm_num)]
  have e1 : gbmHhw.heston.theta * 1 = 1 / 25 := by norm_num [gbmHhw, bsHhw]
  have e2 : gbmHhw.fx0 * Real.exp ((gbmHhw.rd0 - gbmHhw.rf0) * 1) = 27 / 20 := by
    norm_num [gbmHhw, bsHhw]
  have e3 : gbmHhw.heston.kappa = 1 := rfl
  have h := C93_default gbmHhw (by rw [e3]; norm_num) rfl rfl rfl rfl (by norm_num [gbmHhw])
    (T := 1) one_pos (by rw [e3]; norm_num) (by rw [e1, hr]; norm_num) (by rw [e1, hr]; norm_num)
    (K := 7 / 5) (by norm_num) (by
      rw [e1, e2, hr, abs_le]
      have h1 := Real.log_le_sub_one_of_pos (show (0 : ℝ) < 7 / 5 / (27 / 20) by norm_num)
      have h2 := Real.log_nonneg (show (1 : ℝ) ≤ 7 / 5 / (27 / 20) by norm_num)
      constructor <;> linarith) 1
  obtain ⟨q, c, w, h1, h2, h3, h4, h5⟩ := h
  rw [e1, e2, e3, hr] at h4 h5
  exact ⟨q, c, w, h1, h2, h3, h4.trans (by norm_num), h5.trans (by norm_num)⟩

/-- Initial variance far above its mean. -/
noncomputable def narrowHhw : HhwParams :=
  { bsHhw with fx0 := 1, rd0 := 0, rf0 := 0, heston := ⟨1 / 10, 1 / 10 ^ 4, 0, 1 / 4⟩ }

theorem narrow_rate (t : ℝ) : narrowHhw.varianceRate 1 t
    = 1 / 4 * Real.exp (-(1 / 10) * t) + 1 / 10 ^ 4 * (1 - Real.exp (-(1 / 10) * t)) := by
  have hd : narrowHhw.domestic.sigma = 0 := rfl
  have hf : narrowHhw.foreign.sigma = 0 := rfl
  simp only [HhwParams.varianceRate, fwdVarX, hd, hf]
  simp only [mul_zero, zero_mul, add_zero, neg_zero, Cir.decayed, narrowHhw]

theorem narrow_variance : 9 / 40 ≤ narrowHhw.forwardVariance 1 ∧ narrowHhw.forwardVariance 1 ≤ 1 / 4 := by
  have hb : ∀ t ∈ Set.Icc (0 : ℝ) 1, 9 / 40 ≤ narrowHhw.varianceRate 1 t
      ∧ narrowHhw.varianceRate 1 t ≤ 1 / 4 := by
    rintro t ⟨h0, h1⟩
    rw [narrow_rate]
    have e1 : Real.exp (-(1 / 10) * t) ≤ 1 := Real.exp_le_one_iff.2 (by linarith)
    have e2 : -(1 / 10) * t + 1 ≤ Real.exp (-(1 / 10) * t) := Real.add_one_le_exp _
    constructor <;> linarith
  have hi := (varianceRate_continuous narrowHhw 1).intervalIntegrable (μ := volume) 0 1
  have h1 := intervalIntegral.integral_mono_on (zero_le_one' ℝ) intervalIntegrable_const hi
    fun t ht => (hb t ht).1
  have h2 := intervalIntegral.integral_mono_on (zero_le_one' ℝ) hi intervalIntegrable_const
    fun t ht => (hb t ht).2
  simp only [intervalIntegral.integral_const, sub_zero, one_smul] at h1 h2
  exact ⟨h1, h2⟩

/-- **C93 refuted for the default range**: it is built from the mean variance alone, so it does not
catch the support of the log-forward when the initial variance is far above its mean. Here the true
price, which wider ranges approach by `C93_converges`, is at least a twentieth of the forward above
the default price. -/
theorem C93_default_range_false : ∃ q c, HhwChf.new narrowHhw 1 = .ok q ∧
    (CosPricer.new q.forwardChf).call 1 1 = .ok c ∧
    c + 1 / 20 ≤ blackScholes 1 1 (narrowHhw.forwardVariance 1) 1 .call := by
  have hk : narrowHhw.heston.kappa = 1 / 10 := rfl
  have hW : 0 ≤ narrowHhw.simpsonVariance 1 64 := by
    have h1 : simpsonOn 64 0 1 (fun _ => (0 : ℝ)) ≤ simpsonOn 64 0 1 (fun t => narrowHhw.varianceRate 1 t
        - narrowHhw.heston.sigma0 * Real.exp (-narrowHhw.heston.kappa * t)) := by
      refine simpsonOn_le zero_le_one fun t ht => ?_
      rw [narrow_rate, hk]
      have e1 : Real.exp (-(1 / 10) * t) ≤ 1 := Real.exp_le_one_iff.2 (by linarith [ht.1])
      have : narrowHhw.heston.sigma0 = 1 / 4 := rfl
      rw [this]
      linarith
    have h2 : simpsonOn 64 0 1 (fun _ => (0 : ℝ)) = 0 := by simp [simpsonOn]
    rw [h2] at h1
    have h3 : Real.exp (-narrowHhw.heston.kappa * 1) ≤ 1 := Real.exp_le_one_iff.2 (by rw [hk]; norm_num)
    have h4 : (0 : ℝ) ≤ narrowHhw.heston.sigma0 := by norm_num [narrowHhw]
    have := mul_nonneg h4 (div_nonneg (sub_nonneg.2 h3) (show (0 : ℝ) ≤ narrowHhw.heston.kappa by rw [hk]; norm_num))
    unfold HhwParams.simpsonVariance
    linarith
  obtain ⟨q, hq, hp, hx, hlaw⟩ := hhw_law narrowHhw (by rw [hk]; norm_num) rfl (by norm_num [narrowHhw])
    (by norm_num [narrowHhw]) zero_le_one (m := 64) (by norm_num) hW
  obtain ⟨c, w, hc, -⟩ := (C61_total (CosPricer.new q.forwardChf) 1 1).2 one_pos
  refine ⟨q, c, hq, hc, ?_⟩
  have hl : narrowHhw.logForward 1 = 0 := by simp [HhwParams.logForward, narrowHhw]
  have hth : √(narrowHhw.heston.theta * 1) = 1 / 100 := by
    have : narrowHhw.heston.theta * 1 = (1 / 100) ^ 2 := by norm_num [narrowHhw]
    rw [this, Real.sqrt_sq (by norm_num)]
  have hlo : (CosPricer.new q.forwardChf).lo = -(1 / 10) := by
    simp only [CosPricer.new, HhwChf.forwardChf, hp, hx, hl, hth]; norm_num
  have hhi : (CosPricer.new q.forwardChf).hi = 1 / 10 := by
    simp only [CosPricer.new, HhwChf.forwardChf, hp, hx, hl, hth]; norm_num
  have hlt : (CosPricer.new q.forwardChf).lo < (CosPricer.new q.forwardChf).hi := by
    rw [hlo, hhi]; norm_num
  have herr := C61_call_error (CosPricer.new q.forwardChf) (fun u => pricer_chf hlaw u) one_pos hlt
    (by rw [hlo, Real.log_one]; norm_num) (by rw [hhi, Real.log_one]; norm_num)
    (show 2 ≤ 128 by norm_num) hc
  have hexp : Real.exp (1 / 10) ≤ 112 / 100 := by
    have h1 := Real.add_one_le_exp (-(1 / 10) : ℝ)
    rw [Real.exp_neg] at h1
    have h2 := Real.exp_pos (1 / 10)
    have h3 : (9 / 10 : ℝ) * Real.exp (1 / 10) ≤ 1 := by
      have := mul_le_mul_of_nonneg_right (show (9 / 10 : ℝ) ≤ (Real.exp (1 / 10))⁻¹ by linarith) h2.le
      rwa [inv_mul_cancel₀ h2.ne'] at this
    linarith
  have hfold : ∫ y, callPayoff 1 (foldInto (CosPricer.new q.forwardChf).lo
      (CosPricer.new q.forwardChf).hi y) ∂logLaw (narrowHhw.logForward 1) (narrowHhw.simpsonVariance 1 64)
      ≤ 12 / 100 := by
    have hb : ∀ y, 0 ≤ callPayoff 1 (foldInto (CosPricer.new q.forwardChf).lo
        (CosPricer.new q.forwardChf).hi y) ∧ callPayoff 1 (foldInto (CosPricer.new q.forwardChf).lo
        (CosPricer.new q.forwardChf).hi y) ≤ 12 / 100 := by
      intro y
      have h1 := (foldInto_mem hlt y).2
      have h2 := Real.exp_le_exp.2 (h1.trans hhi.le)
      exact ⟨le_max_right _ _, max_le (by linarith) (by norm_num)⟩
    have hi := integrable_of_le_const (μ := logLaw (narrowHhw.logForward 1) (narrowHhw.simpsonVariance 1 64))
      ((continuous_callPayoff 1).comp
        (continuous_foldInto (CosPricer.new q.forwardChf).lo (CosPricer.new q.forwardChf).hi)) (12 / 100)
      fun y => by
        rw [Function.comp_apply, abs_le]
        exact ⟨by linarith [(hb y).1], (hb y).2⟩
    have := integral_mono hi (integrable_const (12 / 100 : ℝ)) fun y => (hb y).2
    simpa using this
  rw [hlo, hhi] at herr
  rw [hlo, hhi] at hfold
  have hbs := black_at_the_money narrow_variance.1 narrow_variance.2
  have hpi := Real.pi_gt_three
  have hB : |(1 : ℝ)| * (2 * (1 / 10 - -(1 / 10)) * (Real.exp (1 / 10) + 2 * 1) / Real.pi ^ 2
      / (((CosPricer.new q.forwardChf).nTerms : ℝ) - 1)) ≤ 2 / 1000 := by
    have : (CosPricer.new q.forwardChf).nTerms = 128 := rfl
    rw [this, abs_one, one_mul, div_div, div_le_iff₀ (by push_cast; norm_num; positivity)]
    push_cast
    nlinarith
  have := (abs_le.1 (herr.trans hB)).2
  linarith

end Verif
