import Verif.Lemmas.Cos
import Mathlib.Probability.Distributions.Gaussian.CharFun

/-!
# C61: the COS pricer

`chi_k` and `psi_k` are the integrals they stand for; the price is the partial cosine series of
the payoff; it satisfies put-call parity exactly; and for the characteristic function of any
probability law it is within an explicit distance of the discounted expected payoff.
-/

namespace Verif

open MeasureTheory

/-- `chi_k` is `∫_c^d e^y cos(kπ(y-a)/(b-a)) dy`. -/
theorem C61_chi (k : ℕ) (a b c d : ℝ) :
    chiK k a b c d = ∫ y in c..d, Real.exp y * Real.cos (k * Real.pi / (b - a) * (y - a)) :=
  chiK_eq_integral k a b c d

/-- `psi_k` is `∫_c^d cos(kπ(y-a)/(b-a)) dy`. -/
theorem C61_psi (k : ℕ) {a b : ℝ} (h : a < b) (c d : ℝ) :
    psiK k a b c d = ∫ y in c..d, Real.cos (k * Real.pi / (b - a) * (y - a)) :=
  psiK_eq_integral h c d

example : psiK 3 (-1) 1 0 1 = ∫ y in (0 : ℝ)..1, Real.cos (3 * Real.pi / (1 - -1) * (y - -1)) :=
  C61_psi 3 (by norm_num) 0 1

/-- The default range is a proper interval centred on the log-forward, ten typical standard
deviations to either side (never less than `1e-5`). -/
theorem C61_default_range (chf : ForwardChf) :
    (CosPricer.new chf).lo < (CosPricer.new chf).hi
    ∧ (CosPricer.new chf).lo + (CosPricer.new chf).hi = 2 * chf.logForward
    ∧ (1 / 10 ^ 6 ≤ √(chf.typicalVariance * chf.expiry) →
        (CosPricer.new chf).hi = chf.logForward + 10 * √(chf.typicalVariance * chf.expiry))
    ∧ (√(chf.typicalVariance * chf.expiry) ≤ 1 / 10 ^ 6 →
        (CosPricer.new chf).hi = chf.logForward + 1 / 10 ^ 5)
    ∧ (CosPricer.new chf).nTerms = 128 := by
  have h : (1 / 10 ^ 6 : ℝ) ≤ max √(chf.typicalVariance * chf.expiry) (1 / 10 ^ 6) := le_max_right _ _
  refine ⟨?_, ?_, fun h' => ?_, fun h' => ?_, rfl⟩
  · simp only [CosPricer.new]
    have : (0 : ℝ) < 1 / 10 ^ 6 := by norm_num
    linarith
  · simp only [CosPricer.new]; ring
  · simp only [CosPricer.new, max_eq_left h']
  · simp only [CosPricer.new, max_eq_right h']; norm_num

/-- The two setters check their arguments and change nothing else. -/
theorem C61_setters (p : CosPricer) (n : ℕ) (a b : ℝ) :
    (2 ≤ n → p.withNTerms n = .ok ⟨p.chf, n, p.lo, p.hi⟩) ∧ (n < 2 → p.withNTerms n = .panic)
    ∧ (a < b → p.withRange a b = .ok ⟨p.chf, p.nTerms, a, b⟩)
    ∧ (b ≤ a → p.withRange a b = .panic) := by
  refine ⟨fun h => ?_, fun h => ?_, fun h => ?_, fun h => ?_⟩
  · exact if_pos h
  · exact if_neg (by omega)
  · exact if_pos h
  · exact if_neg (not_lt.2 h)

/-- A strike that is not positive is refused, a positive one always gets a price. -/
theorem C61_total (p : CosPricer) (K discount : ℝ) :
    (K ≤ 0 → p.call K discount = .panic ∧ p.put K discount = .panic)
    ∧ (0 < K → ∃ c q, p.call K discount = .ok c ∧ p.put K discount = .ok q) := by
  refine ⟨fun h => ⟨?_, ?_⟩, fun h => ?_⟩
  · exact if_neg (not_lt.2 h)
  · exact if_neg (not_lt.2 h)
  · simp only [CosPricer.call, CosPricer.priceEuropean, CosPricer.put, if_pos h]
    exact ⟨_, _, rfl, rfl⟩

private theorem shift_eq (u a : ℝ) :
    Complex.exp ⟨0, -u * a⟩ = Complex.exp (-(u * a : ℝ) * Complex.I) := by
  congr 1
  apply Complex.ext <;> simp

private theorem call_eq (p : CosPricer) {K : ℝ} (hK : 0 < K) (discount : ℝ) :
    p.call K discount = .ok (discount * ∑ k ∈ Finset.range p.nTerms,
      (if k = 0 then (1 / 2 : ℝ) else 1) * cosFactor p.chf.evaluate p.lo p.hi k
        * (2 / (p.hi - p.lo) * (chiK k p.lo p.hi (Real.log K) p.hi
            - K * psiK k p.lo p.hi (Real.log K) p.hi))) := by
  rw [CosPricer.call, CosPricer.priceEuropean, if_pos hK]
  simp only [foldl_add_eq_sum, if_true]
  congr 3
  funext k
  simp only [CosPricer.term, if_true, cosFactor, shift_eq]
  norm_num

private theorem put_eq (p : CosPricer) {K : ℝ} (hK : 0 < K) (discount : ℝ) :
    p.put K discount = .ok (discount * ∑ k ∈ Finset.range p.nTerms,
      (if k = 0 then (1 / 2 : ℝ) else 1) * cosFactor p.chf.evaluate p.lo p.hi k
        * (2 / (p.hi - p.lo) * (-chiK k p.lo p.hi p.lo (Real.log K)
            + K * psiK k p.lo p.hi p.lo (Real.log K)))) := by
  rw [CosPricer.put, CosPricer.priceEuropean, if_pos hK]
  simp only [foldl_add_eq_sum, Bool.false_eq_true, if_false]
  congr 3
  funext k
  simp only [CosPricer.term, Bool.false_eq_true, if_false, cosFactor, shift_eq]
  norm_num

/-- With the strike inside the range the call price is the cosine series of the call payoff,
cut after `n_terms` terms, with the first term halved. -/
theorem C61_call_series (p : CosPricer) {K : ℝ} (hK : 0 < K) (h : p.lo < p.hi)
    (h0 : p.lo ≤ Real.log K) (h1 : Real.log K ≤ p.hi) (discount : ℝ) :
    p.call K discount = .ok (discount * ∑ k ∈ Finset.range p.nTerms,
      (if k = 0 then (1 / 2 : ℝ) else 1) * cosFactor p.chf.evaluate p.lo p.hi k
        * (2 / (p.hi - p.lo) * ∫ y in p.lo..p.hi,
            callPayoff K y * Real.cos (k * Real.pi / (p.hi - p.lo) * (y - p.lo)))) := by
  rw [call_eq p hK]
  simp only [call_coef h hK h0 h1]
  rfl

/-- The same for puts. -/
theorem C61_put_series (p : CosPricer) {K : ℝ} (hK : 0 < K) (h : p.lo < p.hi)
    (h0 : p.lo ≤ Real.log K) (h1 : Real.log K ≤ p.hi) (discount : ℝ) :
    p.put K discount = .ok (discount * ∑ k ∈ Finset.range p.nTerms,
      (if k = 0 then (1 / 2 : ℝ) else 1) * cosFactor p.chf.evaluate p.lo p.hi k
        * (2 / (p.hi - p.lo) * ∫ y in p.lo..p.hi,
            putPayoff K y * Real.cos (k * Real.pi / (p.hi - p.lo) * (y - p.lo)))) := by
  rw [put_eq p hK]
  simp only [put_coef h hK h0 h1]
  rfl

/-- Put-call parity is exact for every strike, also outside the range and for every number of
terms: the difference is the discounted difference of a forward that does not depend on the
strike and the strike (`φ(0) = 1`). -/
theorem C61_parity (p : CosPricer) {K : ℝ} (hK : 0 < K) (h : p.lo < p.hi) (hn : 0 < p.nTerms)
    (hφ : p.chf.evaluate 0 = 1) {discount c q : ℝ} (hc : p.call K discount = .ok c)
    (hq : p.put K discount = .ok q) :
    c - q = discount * ((∑ k ∈ Finset.range p.nTerms, (if k = 0 then (1 / 2 : ℝ) else 1)
        * cosFactor p.chf.evaluate p.lo p.hi k * (2 / (p.hi - p.lo) * ∫ y in p.lo..p.hi,
            Real.exp y * Real.cos (k * Real.pi / (p.hi - p.lo) * (y - p.lo)))) - K) := by
  have hw : 0 < p.hi - p.lo := by linarith
  rw [call_eq p hK] at hc
  rw [put_eq p hK] at hq
  obtain rfl := Outcome.ok.inj hc
  obtain rfl := Outcome.ok.inj hq
  rw [← mul_sub, ← Finset.sum_sub_distrib]
  congr 1
  have hpsi : ∀ k : ℕ, k ≠ 0 → psiK k p.lo p.hi p.lo p.hi = 0 := by
    intro k hk
    simp only [psiK, if_neg hk]
    rw [sin_nat_mul_width h, sub_self, mul_zero, Real.sin_zero, sub_zero, zero_div]
  have e : ∀ k : ℕ, (if k = 0 then (1 / 2 : ℝ) else 1) * cosFactor p.chf.evaluate p.lo p.hi k
        * (2 / (p.hi - p.lo) * (chiK k p.lo p.hi (Real.log K) p.hi
            - K * psiK k p.lo p.hi (Real.log K) p.hi))
      - (if k = 0 then (1 / 2 : ℝ) else 1) * cosFactor p.chf.evaluate p.lo p.hi k
        * (2 / (p.hi - p.lo) * (-chiK k p.lo p.hi p.lo (Real.log K)
            + K * psiK k p.lo p.hi p.lo (Real.log K)))
      = (if k = 0 then (1 / 2 : ℝ) else 1) * cosFactor p.chf.evaluate p.lo p.hi k
        * (2 / (p.hi - p.lo) * ∫ y in p.lo..p.hi,
            Real.exp y * Real.cos (k * Real.pi / (p.hi - p.lo) * (y - p.lo)))
        - if k = 0 then K else 0 := by
    intro k
    have a1 : (∫ y in p.lo..p.hi,
        Real.exp y * Real.cos (k * Real.pi / (p.hi - p.lo) * (y - p.lo)))
        = chiK k p.lo p.hi p.lo (Real.log K) + chiK k p.lo p.hi (Real.log K) p.hi := by
      rw [chiK_eq_integral, chiK_eq_integral]
      exact (intervalIntegral.integral_add_adjacent_intervals
        (by apply Continuous.intervalIntegrable; fun_prop)
        (by apply Continuous.intervalIntegrable; fun_prop)).symm
    have a2 : psiK k p.lo p.hi p.lo p.hi
        = psiK k p.lo p.hi p.lo (Real.log K) + psiK k p.lo p.hi (Real.log K) p.hi := by
      rw [psiK_eq_integral h, psiK_eq_integral h, psiK_eq_integral h]
      exact (intervalIntegral.integral_add_adjacent_intervals
        (by apply Continuous.intervalIntegrable; fun_prop)
        (by apply Continuous.intervalIntegrable; fun_prop)).symm
    rw [a1]
    by_cases hk : k = 0
    · subst hk
      have a3 : psiK 0 p.lo p.hi p.lo p.hi = p.hi - p.lo := by simp [psiK]
      rw [a3] at a2
      have a4 : psiK 0 p.lo p.hi p.lo (Real.log K)
          = p.hi - p.lo - psiK 0 p.lo p.hi (Real.log K) p.hi := by linarith
      have a5 : cosFactor p.chf.evaluate p.lo p.hi 0 = 1 := by simp [cosFactor, hφ]
      rw [a4, a5]
      simp only [if_true]
      field_simp
      ring
    · rw [hpsi k hk] at a2
      have a4 : psiK k p.lo p.hi p.lo (Real.log K)
          = - psiK k p.lo p.hi (Real.log K) p.hi := by linarith
      rw [a4]
      simp only [if_neg hk]
      ring
  rw [Finset.sum_congr rfl fun k _ => e k, Finset.sum_sub_distrib]
  congr 1
  rw [Finset.sum_ite_eq' (Finset.range p.nTerms) 0 fun _ => K]
  simp [hn]

/-! ## Distance to the expected payoff -/

private theorem factor_of_law {μ : Measure ℝ} [IsProbabilityMeasure μ] {φ : ℂ → ℂ}
    (hφ : ∀ u : ℝ, φ u = charFun μ u) (a b : ℝ) (k : ℕ) :
    cosFactor φ a b k = ∫ y, Real.cos (k * Real.pi / (b - a) * (y - a)) ∂μ := by
  rw [cosFactor, hφ, ← shift_eq, re_charFun]

private theorem scaled_error {discount E S B : ℝ} (h : |E - S| ≤ B) :
    |discount * S - discount * E| ≤ |discount| * B := by
  rw [← mul_sub, abs_mul, abs_sub_comm]
  exact mul_le_mul_of_nonneg_left h (abs_nonneg _)

/-- For the characteristic function of a probability law the call price differs from the
discounted expectation of the payoff, folded into the range, by at most a constant over
`n_terms - 1`. -/
theorem C61_call_error (p : CosPricer) {μ : Measure ℝ} [IsProbabilityMeasure μ]
    (hφ : ∀ u : ℝ, p.chf.evaluate u = charFun μ u) {K : ℝ} (hK : 0 < K) (h : p.lo < p.hi)
    (h0 : p.lo ≤ Real.log K) (h1 : Real.log K ≤ p.hi) (hn : 2 ≤ p.nTerms) {discount c : ℝ}
    (hc : p.call K discount = .ok c) :
    |c - discount * ∫ y, callPayoff K (foldInto p.lo p.hi y) ∂μ|
      ≤ |discount| * (2 * (p.hi - p.lo) * (Real.exp p.hi + 2 * K) / Real.pi ^ 2
          / (p.nTerms - 1)) := by
  rw [C61_call_series p hK h h0 h1] at hc
  obtain rfl := Outcome.ok.inj hc
  simp only [factor_of_law hφ]
  exact scaled_error (partial_sum_error (μ := μ) h (continuous_callPayoff K)
    (fun k hk => by rw [← call_coef h hK h0 h1]; exact call_coef_bound hk h hK) hn)

/-- The same for puts. -/
theorem C61_put_error (p : CosPricer) {μ : Measure ℝ} [IsProbabilityMeasure μ]
    (hφ : ∀ u : ℝ, p.chf.evaluate u = charFun μ u) {K : ℝ} (hK : 0 < K) (h : p.lo < p.hi)
    (h0 : p.lo ≤ Real.log K) (h1 : Real.log K ≤ p.hi) (hn : 2 ≤ p.nTerms) {discount q : ℝ}
    (hq : p.put K discount = .ok q) :
    |q - discount * ∫ y, putPayoff K (foldInto p.lo p.hi y) ∂μ|
      ≤ |discount| * (2 * (p.hi - p.lo) * (Real.exp p.hi + 2 * K) / Real.pi ^ 2
          / (p.nTerms - 1)) := by
  rw [C61_put_series p hK h h0 h1] at hq
  obtain rfl := Outcome.ok.inj hq
  simp only [factor_of_law hφ]
  exact scaled_error (partial_sum_error (μ := μ) h (continuous_putPayoff K)
    (fun k hk => by rw [← put_coef h hK h0 h1]; exact put_coef_bound hk h hK) hn)

private theorem integrable_of_bounded {μ : Measure ℝ} [IsProbabilityMeasure μ] {g : ℝ → ℝ}
    (hg : Continuous g) (C : ℝ) (hC : ∀ y, |g y| ≤ C) : Integrable g μ :=
  Integrable.mono' (integrable_const C) hg.aestronglyMeasurable
    (Filter.Eventually.of_forall hC)

/-- Folding changes the expected payoff only through the mass outside the range. -/
private theorem fold_error {μ : Measure ℝ} [IsProbabilityMeasure μ] {a b : ℝ} (h : a < b)
    {g B : ℝ → ℝ} (hg : Integrable g μ) (hf : Integrable (fun y => g (foldInto a b y)) μ)
    (hB : Integrable B μ) (hle : ∀ y, |g (foldInto a b y) - g y| ≤ B y) :
    |(∫ y, g (foldInto a b y) ∂μ) - ∫ y, g y ∂μ| ≤ ∫ y in (Set.Icc a b)ᶜ, B y ∂μ := by
  rw [← integral_sub hf hg, ← integral_indicator measurableSet_Icc.compl]
  refine (abs_integral_le_integral_abs).trans ?_
  refine integral_mono (hf.sub hg).abs (hB.indicator measurableSet_Icc.compl) ?_
  intro y
  by_cases hy : y ∈ Set.Icc a b
  · have : y ∉ (Set.Icc a b)ᶜ := fun h => h hy
    simp only [Set.indicator_of_notMem this, foldInto_of_mem h hy.1 hy.2, sub_self, abs_zero,
      le_refl]
  · simp only [Set.indicator_of_mem (Set.mem_compl hy)]
    exact hle y

/-- Total error of a put: the series remainder plus the strike times the probability of leaving
the range. -/
theorem C61_put_total_error (p : CosPricer) {μ : Measure ℝ} [IsProbabilityMeasure μ]
    (hφ : ∀ u : ℝ, p.chf.evaluate u = charFun μ u) {K : ℝ} (hK : 0 < K) (h : p.lo < p.hi)
    (h0 : p.lo ≤ Real.log K) (h1 : Real.log K ≤ p.hi) (hn : 2 ≤ p.nTerms) {discount q : ℝ}
    (hq : p.put K discount = .ok q) :
    |q - discount * ∫ y, putPayoff K y ∂μ|
      ≤ |discount| * (2 * (p.hi - p.lo) * (Real.exp p.hi + 2 * K) / Real.pi ^ 2
          / (p.nTerms - 1) + K * μ.real (Set.Icc p.lo p.hi)ᶜ) := by
  have hb : ∀ y, 0 ≤ putPayoff K y ∧ putPayoff K y ≤ K := by
    intro y
    refine ⟨le_max_right _ _, max_le ?_ hK.le⟩
    linarith [Real.exp_pos y]
  have hcont := continuous_putPayoff K
  have hfold := continuous_foldInto p.lo p.hi
  have hg : Integrable (putPayoff K) μ := integrable_of_bounded hcont K fun y => by
    rw [abs_of_nonneg (hb y).1]; exact (hb y).2
  have hf : Integrable (fun y => putPayoff K (foldInto p.lo p.hi y)) μ :=
    integrable_of_bounded (hcont.comp hfold) K fun y => by
      rw [abs_of_nonneg (hb _).1]; exact (hb _).2
  have e1 := C61_put_error p hφ hK h h0 h1 hn hq
  have e2 := fold_error (μ := μ) h hg hf (integrable_const K) fun y => by
    rw [abs_le]
    have := hb y; have := hb (foldInto p.lo p.hi y)
    constructor <;> linarith
  rw [setIntegral_const, smul_eq_mul] at e2
  have e3 : |discount * (∫ y, putPayoff K (foldInto p.lo p.hi y) ∂μ)
      - discount * ∫ y, putPayoff K y ∂μ| ≤ |discount| * (K * μ.real (Set.Icc p.lo p.hi)ᶜ) := by
    rw [← mul_sub, abs_mul, mul_comm K]
    exact mul_le_mul_of_nonneg_left e2 (abs_nonneg _)
  have := abs_sub_le q (discount * ∫ y, putPayoff K (foldInto p.lo p.hi y) ∂μ)
    (discount * ∫ y, putPayoff K y ∂μ)
  rw [mul_add]
  linarith

/-- Total error of a call, for laws whose exponential has a mean. -/
theorem C61_call_total_error (p : CosPricer) {μ : Measure ℝ} [IsProbabilityMeasure μ]
    (hφ : ∀ u : ℝ, p.chf.evaluate u = charFun μ u) (hexp : Integrable Real.exp μ) {K : ℝ}
    (hK : 0 < K) (h : p.lo < p.hi) (h0 : p.lo ≤ Real.log K) (h1 : Real.log K ≤ p.hi)
    (hn : 2 ≤ p.nTerms) {discount c : ℝ} (hc : p.call K discount = .ok c) :
    |c - discount * ∫ y, callPayoff K y ∂μ|
      ≤ |discount| * (2 * (p.hi - p.lo) * (Real.exp p.hi + 2 * K) / Real.pi ^ 2
          / (p.nTerms - 1) + ∫ y in (Set.Icc p.lo p.hi)ᶜ, (Real.exp p.hi + Real.exp y) ∂μ) := by
  have hb : ∀ y, 0 ≤ callPayoff K y ∧ callPayoff K y ≤ Real.exp y := by
    intro y
    refine ⟨le_max_right _ _, max_le (by linarith) (Real.exp_pos y).le⟩
  have hb2 : ∀ y, callPayoff K (foldInto p.lo p.hi y) ≤ Real.exp p.hi := fun y =>
    (hb _).2.trans (Real.exp_le_exp.2 (foldInto_mem h y).2)
  have hcont := continuous_callPayoff K
  have hfold := continuous_foldInto p.lo p.hi
  have hg : Integrable (callPayoff K) μ :=
    Integrable.mono' hexp hcont.aestronglyMeasurable (Filter.Eventually.of_forall fun y => by
      rw [Real.norm_eq_abs, abs_of_nonneg (hb y).1]; exact (hb y).2)
  have hf : Integrable (fun y => callPayoff K (foldInto p.lo p.hi y)) μ :=
    integrable_of_bounded (hcont.comp hfold) (Real.exp p.hi) fun y => by
      rw [abs_of_nonneg (hb _).1]; exact hb2 y
  have e1 := C61_call_error p hφ hK h h0 h1 hn hc
  have e2 := fold_error (μ := μ) h hg hf ((integrable_const (Real.exp p.hi)).add hexp) fun y => by
    rw [abs_le]
    have := hb y; have := hb (foldInto p.lo p.hi y); have := hb2 y
    have := Real.exp_pos y; have := Real.exp_pos p.hi
    simp only [Pi.add_apply]
    constructor <;> linarith
  simp only [Pi.add_apply] at e2
  have e3 : |discount * (∫ y, callPayoff K (foldInto p.lo p.hi y) ∂μ)
      - discount * ∫ y, callPayoff K y ∂μ| ≤ |discount|
        * ∫ y in (Set.Icc p.lo p.hi)ᶜ, (Real.exp p.hi + Real.exp y) ∂μ := by
    rw [← mul_sub, abs_mul]
    exact mul_le_mul_of_nonneg_left e2 (abs_nonneg _)
  have := abs_sub_le c (discount * ∫ y, callPayoff K (foldInto p.lo p.hi y) ∂μ)
    (discount * ∫ y, callPayoff K y ∂μ)
  rw [mul_add]
  linarith

/-- For a law supported in the range the prices converge to the discounted expected payoff as
the number of terms grows. -/
theorem C61_converges (chf : ForwardChf) {μ : Measure ℝ} [IsProbabilityMeasure μ]
    (hφ : ∀ u : ℝ, chf.evaluate u = charFun μ u) {a b K : ℝ} (hK : 0 < K) (h : a < b)
    (h0 : a ≤ Real.log K) (h1 : Real.log K ≤ b) (hsupp : ∀ᵐ y ∂μ, y ∈ Set.Icc a b)
    (discount : ℝ) {ε : ℝ} (hε : 0 < ε) :
    ∃ N, ∀ n ≥ N, ∃ c q,
      CosPricer.call ⟨chf, n, a, b⟩ K discount = .ok c
      ∧ CosPricer.put ⟨chf, n, a, b⟩ K discount = .ok q
      ∧ |c - discount * ∫ y, callPayoff K y ∂μ| < ε
      ∧ |q - discount * ∫ y, putPayoff K y ∂μ| < ε := by
  set C := |discount| * (2 * (b - a) * (Real.exp b + 2 * K) / Real.pi ^ 2) with hC
  have hC0 : 0 ≤ C := by
    have := Real.exp_pos b
    have : 0 < b - a := by linarith
    rw [hC]; positivity
  obtain ⟨M, hM⟩ := exists_nat_gt (C / ε)
  refine ⟨M + 2, fun n hn => ?_⟩
  obtain ⟨c, q, hc, hq⟩ := (C61_total ⟨chf, n, a, b⟩ K discount).2 hK
  refine ⟨c, q, hc, hq, ?_⟩
  have ec := C61_call_error ⟨chf, n, a, b⟩ hφ hK h h0 h1 (by simp only; omega) hc
  have eq := C61_put_error ⟨chf, n, a, b⟩ hφ hK h h0 h1 (by simp only; omega) hq
  have fc : (∫ y, callPayoff K (foldInto a b y) ∂μ) = ∫ y, callPayoff K y ∂μ :=
    integral_congr_ae (hsupp.mono fun y hy => by
      simp only [foldInto_of_mem h hy.1 hy.2])
  have fq : (∫ y, putPayoff K (foldInto a b y) ∂μ) = ∫ y, putPayoff K y ∂μ :=
    integral_congr_ae (hsupp.mono fun y hy => by
      simp only [foldInto_of_mem h hy.1 hy.2])
  simp only [fc] at ec
  simp only [fq] at eq
  have hn' : (M : ℝ) + 2 ≤ n := by exact_mod_cast hn
  have hsmall : |discount| * (2 * (b - a) * (Real.exp b + 2 * K) / Real.pi ^ 2 / ((n : ℝ) - 1))
      < ε := by
    have e : |discount| * (2 * (b - a) * (Real.exp b + 2 * K) / Real.pi ^ 2 / ((n : ℝ) - 1))
        = C / (n - 1) := by rw [hC]; ring
    have hM0 : (0 : ℝ) ≤ M := by positivity
    rw [e, div_lt_iff₀ (by linarith)]
    rw [div_lt_iff₀ hε] at hM
    nlinarith
  exact ⟨ec.trans_lt hsmall, eq.trans_lt hsmall⟩

/-- A pricer for a normal law with standard deviation 1/10. -/
noncomputable def gaussPricer : CosPricer :=
  ⟨⟨fun u => Complex.exp (-u ^ 2 / 200), 1, 0, 1 / 100⟩, 128, -1, 1⟩

theorem gaussPricer_law (u : ℝ) : gaussPricer.chf.evaluate u
    = charFun (ProbabilityTheory.gaussianReal 0 (1 / 100)) u := by
  rw [ProbabilityTheory.charFun_gaussianReal]
  simp only [gaussPricer]
  congr 1
  push_cast
  ring

example {q : ℝ} (hq : gaussPricer.put 1 (1 / 2) = .ok q) :
    |q - 1 / 2 * ∫ y, putPayoff 1 y ∂(ProbabilityTheory.gaussianReal 0 (1 / 100))|
      ≤ |(1 / 2 : ℝ)| * (2 * (1 - -1) * (Real.exp 1 + 2 * 1) / Real.pi ^ 2 / (((128 : ℕ) : ℝ) - 1)
        + 1 * (ProbabilityTheory.gaussianReal 0 (1 / 100)).real (Set.Icc (-1) 1)ᶜ) :=
  C61_put_total_error gaussPricer gaussPricer_law one_pos
    (by norm_num [gaussPricer]) (by norm_num [gaussPricer]) (by norm_num [gaussPricer])
    (by norm_num [gaussPricer]) hq

/-- With the strike above the range the coefficients are not those of the payoff: a call that
can never pay anything is given a positive price.  (The law is the unit mass at zero, the
range `[-1, 1]`, the strike `e²`, two terms.) -/
theorem C61_outside_false :
    ∃ (p : CosPricer) (K c : ℝ), 0 < K ∧ p.lo < p.hi
      ∧ (∀ u : ℝ, p.chf.evaluate u = charFun (Measure.dirac (0 : ℝ)) u)
      ∧ (∀ y, y ≤ p.hi → callPayoff K y = 0)
      ∧ p.call K 1 = .ok c ∧ 0 < c := by
  refine ⟨⟨⟨fun _ => 1, 1, 0, 1⟩, 2, -1, 1⟩, Real.exp 2, _, Real.exp_pos 2, by norm_num, ?_, ?_,
    call_eq _ (Real.exp_pos 2) 1, ?_⟩
  · intro u
    rw [charFun_apply_real, integral_dirac]
    simp
  · intro y hy
    exact callPayoff_of_le (Real.exp_pos 2) (by rw [Real.log_exp]; exact hy.trans (by norm_num))
  · have f0 : cosFactor (fun _ => (1 : ℂ)) (-1) 1 0 = 1 := by simp [cosFactor]
    have f1 : cosFactor (fun _ => (1 : ℂ)) (-1) 1 1 = 0 := by
      have e : (-(((1 : ℕ) : ℝ) * Real.pi / (1 - -1) * -1 : ℝ) : ℂ) * Complex.I
          = ((Real.pi / 2 : ℝ) : ℂ) * Complex.I := by push_cast; ring
      rw [cosFactor, e, one_mul, Complex.exp_ofReal_mul_I_re, Real.cos_pi_div_two]
    simp only [Finset.sum_range_succ, Finset.sum_range_zero, f0, f1]
    simp only [chiK, psiK, Real.log_exp, if_true, Nat.cast_zero, zero_mul, zero_div,
      Real.cos_zero, Real.sin_zero]
    have h1 : Real.exp 2 = Real.exp 1 * Real.exp 1 := by rw [← Real.exp_add]; norm_num
    have h2 : 2 < Real.exp 1 := by
      have := Real.add_one_lt_exp (one_ne_zero); linarith
    rw [h1]
    nlinarith

end Verif
