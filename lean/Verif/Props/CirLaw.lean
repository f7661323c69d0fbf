import Verif.Lemmas.CirLaw
import Mathlib.Analysis.SpecialFunctions.ImproperIntegrals

/-!
# C81: the mean of the square root of a CIR process

The reference is the law of the process (Spec/CirLaw).
-/

namespace Verif

open MeasureTheory ProbabilityTheory Filter Topology

variable {p : Cir} {t : ℝ}

/-- The parameters of the law are admissible, and its mean and variance in terms of them. -/
theorem law_params (hk : 0 < p.kappa) (hθ : 0 < p.theta) (hg : p.gamma ≠ 0) (hs : 0 ≤ p.sigma0)
    (ht : 0 < t) : ∃ x a r : ℝ, 0 ≤ x ∧ 0 < a ∧ 0 < r ∧ p.law t = mixedGamma x a r
      ∧ x = 2 * p.kappa * p.sigma0 * Real.exp (-p.kappa * t) / (p.gamma ^ 2 * (1 - Real.exp (-p.kappa * t)))
      ∧ a = 2 * p.kappa * p.theta / p.gamma ^ 2
      ∧ r = 2 * p.kappa / (p.gamma ^ 2 * (1 - Real.exp (-p.kappa * t)))
      ∧ p.mean t = (a + x) / r ∧ p.variance t = (a + 2 * x) / r ^ 2 := by
  have h1 : 0 < 1 - Real.exp (-p.kappa * t) := by
    have : Real.exp (-p.kappa * t) < 1 := (Real.exp_lt_exp.2 (show -p.kappa * t < 0 by
      have := mul_pos hk ht; linarith)).trans_eq Real.exp_zero
    linarith
  have hd := Real.exp_pos (-p.kappa * t)
  have hg2 : 0 < p.gamma ^ 2 := by positivity
  refine ⟨_, _, _, by positivity, by positivity, by positivity, rfl, rfl, rfl, rfl, ?_, ?_⟩
  · rw [cir_mean_eq p ht.le]
    have h1' := h1.ne'
    generalize Real.exp (-p.kappa * t) = d at *
    field_simp
    ring
  · rw [cir_variance_eq p ht.le]
    have h1' := h1.ne'
    generalize Real.exp (-p.kappa * t) = d at *
    field_simp
    ring

/-- C81: the law is a probability on the non-negative numbers with the mean and the variance that
`mean` and `variance` compute. -/
theorem C81_law (hk : 0 < p.kappa) (hθ : 0 < p.theta) (hg : p.gamma ≠ 0) (hs : 0 ≤ p.sigma0)
    (ht : 0 < t) : IsProbabilityMeasure (p.law t) ∧ (∀ᵐ v ∂p.law t, 0 ≤ v)
      ∧ ∫ v, v ∂p.law t = p.mean t ∧ ∫ v, (v - p.mean t) ^ 2 ∂p.law t = p.variance t := by
  obtain ⟨x, a, r, hx, ha, hr, hl, -, -, -, hm, hv⟩ := law_params hk hθ hg hs ht
  rw [hl, hm, hv]
  exact ⟨mixedGamma_mass hx ha hr, mixedGamma_pos x a r, (mixedGamma_first hx ha hr).2,
    (mixedGamma_central hx ha hr).1.2⟩

example : IsProbabilityMeasure (sampleCir.law 1) ∧ ∫ v, v ∂sampleCir.law 1 = sampleCir.mean 1 := by
  obtain ⟨h1, -, h2, -⟩ := C81_law (p := sampleCir) (t := 1) (by norm_num [sampleCir])
    (by norm_num [sampleCir]) (by norm_num [sampleCir]) (by norm_num [sampleCir]) one_pos
  exact ⟨h1, h2⟩

theorem law_laplace (hk : 0 < p.kappa) (hθ : 0 < p.theta) (hg : p.gamma ≠ 0) (hs : 0 ≤ p.sigma0)
    (ht : 0 < t) {l : ℝ} (hl : 0 ≤ l) :
    ∫ v, Real.exp (-(l * v)) ∂p.law t
      = (2 * p.kappa / (2 * p.kappa + l * p.gamma ^ 2 * (1 - Real.exp (-p.kappa * t)))) ^ (2 * p.kappa * p.theta / p.gamma ^ 2)
        * Real.exp (-(2 * p.kappa * p.sigma0 * l * Real.exp (-p.kappa * t)
            / (2 * p.kappa + l * p.gamma ^ 2 * (1 - Real.exp (-p.kappa * t)))))
    ∧ ∫ v, v * Real.exp (-(l * v)) ∂p.law t
      = (∫ v, Real.exp (-(l * v)) ∂p.law t)
        * (2 * p.kappa * p.theta * (1 - Real.exp (-p.kappa * t))
            / (2 * p.kappa + l * p.gamma ^ 2 * (1 - Real.exp (-p.kappa * t)))
          + 4 * p.kappa ^ 2 * p.sigma0 * Real.exp (-p.kappa * t)
            / (2 * p.kappa + l * p.gamma ^ 2 * (1 - Real.exp (-p.kappa * t))) ^ 2) := by
  have h1 : 0 < 1 - Real.exp (-p.kappa * t) := by
    have : Real.exp (-p.kappa * t) < 1 := (Real.exp_lt_exp.2 (show -p.kappa * t < 0 by
      have := mul_pos hk ht; linarith)).trans_eq Real.exp_zero
    linarith
  obtain ⟨x, a, r, hx, ha, hr, hL, ex, ea, er, -, -⟩ := law_params hk hθ hg hs ht
  have hg2 : 0 < p.gamma ^ 2 := by positivity
  obtain ⟨e1, e2⟩ := mixedGamma_laplace hx ha hr hl
  have hD : 0 < 2 * p.kappa + l * p.gamma ^ 2 * (1 - Real.exp (-p.kappa * t)) := by positivity
  rw [ex, ea, er] at e1 e2
  rw [hL, ex, ea, er]
  clear * - e1 e2 h1 hg2 hD hk hg
  generalize Real.exp (-p.kappa * t) = d at *
  have h1' := h1.ne'
  have f0 : 2 * p.kappa / (p.gamma ^ 2 * (1 - d)) + l
      = (2 * p.kappa + l * p.gamma ^ 2 * (1 - d)) / (p.gamma ^ 2 * (1 - d)) := by field_simp
  rw [f0] at e1 e2
  generalize 2 * p.kappa + l * p.gamma ^ 2 * (1 - d) = D at *
  have f1 : 2 * p.kappa / (p.gamma ^ 2 * (1 - d)) / (D / (p.gamma ^ 2 * (1 - d))) = 2 * p.kappa / D := by
    field_simp
  have f2 : 2 * p.kappa * p.sigma0 * d / (p.gamma ^ 2 * (1 - d)) * l / (D / (p.gamma ^ 2 * (1 - d)))
      = 2 * p.kappa * p.sigma0 * l * d / D := by
    field_simp
  rw [f1, f2] at e1 e2
  refine ⟨e1, ?_⟩
  rw [e2, e1]
  congr 1
  field_simp
  ring

/-- C81: the law solves the equation `dσ = κ(θ - σ)dt + γ√σ dW`: the mean of each `exp(-λσ)` changes
at the rate given by the generator `κ(θ - y) f' + ½γ²y f''`, and starts at `exp(-λσ₀)`. -/
theorem C81_generator (hk : 0 < p.kappa) (hθ : 0 < p.theta) (hg : p.gamma ≠ 0) (hs : 0 ≤ p.sigma0)
    {l : ℝ} (hl : 0 ≤ l) :
    (∀ t, 0 < t → HasDerivAt (fun t => ∫ y, Real.exp (-(l * y)) ∂p.law t)
      (∫ y, (p.kappa * (p.theta - y) * deriv (fun y => Real.exp (-(l * y))) y
        + p.gamma ^ 2 * y / 2 * deriv^[2] (fun y => Real.exp (-(l * y))) y) ∂p.law t) t)
    ∧ Tendsto (fun t => ∫ y, Real.exp (-(l * y)) ∂p.law t) (𝓝[>] 0) (𝓝 (Real.exp (-(l * p.sigma0)))) := by
  have hg2 : 0 < p.gamma ^ 2 := by positivity
  have d1 : deriv (fun y : ℝ => Real.exp (-(l * y))) = fun y => -l * Real.exp (-(l * y)) := by
    funext y
    have h : HasDerivAt (fun y : ℝ => Real.exp (-(l * y))) (Real.exp (-(l * y)) * (-(l * 1))) y :=
      (((hasDerivAt_id y).const_mul l).neg).exp
    rw [h.deriv]; ring
  have d2 : deriv^[2] (fun y : ℝ => Real.exp (-(l * y))) = fun y => l ^ 2 * Real.exp (-(l * y)) := by
    rw [Function.iterate_succ, Function.iterate_one, Function.comp_apply, d1]
    funext y
    have h : HasDerivAt (fun y : ℝ => -l * Real.exp (-(l * y))) (-l * (Real.exp (-(l * y)) * (-(l * 1)))) y :=
      (((hasDerivAt_id y).const_mul l).neg).exp.const_mul (-l)
    rw [h.deriv]; ring
  rw [d1, d2]
  constructor
  · intro t ht
    obtain ⟨e1, e2⟩ := law_laplace hk hθ hg hs ht hl
    obtain ⟨x, a, r, hx, ha, hr, hL, -⟩ := law_params hk hθ hg hs ht
    have hmass : IsProbabilityMeasure (p.law t) := hL ▸ mixedGamma_mass hx ha hr
    have hb : ∀ᵐ y ∂p.law t, ‖Real.exp (-(l * y))‖ ≤ 1 := by
      rw [hL]
      filter_upwards [mixedGamma_pos x a r] with y hy
      rw [Real.norm_eq_abs, abs_of_pos (Real.exp_pos _)]
      exact Real.exp_le_one_iff.2 (by have := mul_nonneg hl hy; linarith)
    have i0 : Integrable (fun y => Real.exp (-(l * y))) (p.law t) :=
      (integrable_const (1 : ℝ)).mono' (by fun_prop) hb
    have i1 : Integrable (fun y => y * Real.exp (-(l * y))) (p.law t) :=
      Integrable.mul_bdd (hL ▸ (mixedGamma_first hx ha hr).1) (by fun_prop) hb
    have eq : ∫ y, (p.kappa * (p.theta - y) * (-l * Real.exp (-(l * y)))
        + p.gamma ^ 2 * y / 2 * (l ^ 2 * Real.exp (-(l * y)))) ∂p.law t
        = -(p.kappa * p.theta * l) * (∫ y, Real.exp (-(l * y)) ∂p.law t)
          + (p.kappa * l + p.gamma ^ 2 * l ^ 2 / 2) * ∫ y, y * Real.exp (-(l * y)) ∂p.law t := by
      rw [← integral_const_mul, ← integral_const_mul, ← integral_add (i0.const_mul _) (i1.const_mul _)]
      refine integral_congr_ae (.of_forall fun y => ?_)
      beta_reduce; ring
    rw [eq, e2, e1]
    set a := 2 * p.kappa * p.theta / p.gamma ^ 2 with ea'
    have hd : HasDerivAt (fun t : ℝ => Real.exp (-p.kappa * t)) (Real.exp (-p.kappa * t) * (-p.kappa * 1)) t :=
      ((hasDerivAt_id t).const_mul (-p.kappa)).exp
    have h1 : 0 < 1 - Real.exp (-p.kappa * t) := by
      have : Real.exp (-p.kappa * t) < 1 := (Real.exp_lt_exp.2 (show -p.kappa * t < 0 by
        have := mul_pos hk ht; linarith)).trans_eq Real.exp_zero
      linarith
    have hD : HasDerivAt (fun t : ℝ => 2 * p.kappa + l * p.gamma ^ 2 * (1 - Real.exp (-p.kappa * t)))
        (l * p.gamma ^ 2 * (-(Real.exp (-p.kappa * t) * (-p.kappa * 1)))) t :=
      ((hd.const_sub 1).const_mul _).const_add _
    have hD0 : 0 < 2 * p.kappa + l * p.gamma ^ 2 * (1 - Real.exp (-p.kappa * t)) := by positivity
    have hA := ((hasDerivAt_const t (2 * p.kappa)).div hD hD0.ne').rpow_const (p := a)
      (Or.inl (div_pos (by positivity) hD0).ne')
    have hB := (((hd.const_mul (2 * p.kappa * p.sigma0 * l)).div hD hD0.ne').neg).exp
    have hAB := hA.mul hB
    have hAB' := hAB.congr_of_eventuallyEq (f₁ := fun t => ∫ y, Real.exp (-(l * y)) ∂p.law t) (by
      filter_upwards [eventually_gt_nhds ht] with u hu
      rw [(law_laplace hk hθ hg hs hu hl).1]; rfl)
    refine hAB'.congr_deriv ?_
    simp only [Pi.div_apply, Pi.neg_apply]
    have hq : 0 < 2 * p.kappa / (2 * p.kappa + l * p.gamma ^ 2 * (1 - Real.exp (-p.kappa * t))) := by positivity
    rw [Real.rpow_sub_one hq.ne']
    generalize Real.exp (-(2 * p.kappa * p.sigma0 * l * Real.exp (-p.kappa * t) /
      (2 * p.kappa + l * p.gamma ^ 2 * (1 - Real.exp (-p.kappa * t))))) = E at *
    generalize (2 * p.kappa / (2 * p.kappa + l * p.gamma ^ 2 * (1 - Real.exp (-p.kappa * t)))) ^ a = F at *
    rw [ea']
    clear * - hk hg2 hD0 hg
    generalize Real.exp (-p.kappa * t) = d at *
    have := hD0.ne'
    have := hg2.ne'
    field_simp
    ring
  · have hd : Tendsto (fun t : ℝ => Real.exp (-p.kappa * t)) (𝓝[>] 0) (𝓝 1) := by
      have h : Continuous fun t : ℝ => Real.exp (-p.kappa * t) := by fun_prop
      have := (h.tendsto 0).mono_left (nhdsWithin_le_nhds (s := Set.Ioi 0))
      simpa using this
    have hD : Tendsto (fun t : ℝ => 2 * p.kappa + l * p.gamma ^ 2 * (1 - Real.exp (-p.kappa * t)))
        (𝓝[>] 0) (𝓝 (2 * p.kappa)) := by
      simpa using ((hd.const_sub 1).const_mul (l * p.gamma ^ 2)).const_add (2 * p.kappa)
    have hA : Tendsto (fun t : ℝ => (2 * p.kappa / (2 * p.kappa + l * p.gamma ^ 2 * (1 - Real.exp (-p.kappa * t))))
        ^ (2 * p.kappa * p.theta / p.gamma ^ 2)) (𝓝[>] 0) (𝓝 1) := by
      have h := ((tendsto_const_nhds (x := 2 * p.kappa)).div hD (by positivity))
      rw [div_self (by positivity)] at h
      have := h.rpow_const (p := 2 * p.kappa * p.theta / p.gamma ^ 2) (Or.inl one_ne_zero)
      rw [Real.one_rpow] at this
      exact this
    have hB := (Real.continuous_exp.tendsto _).comp
      ((hd.const_mul (2 * p.kappa * p.sigma0 * l)).div hD (by positivity)).neg
    have hAB := hA.mul hB
    rw [one_mul, show 2 * p.kappa * p.sigma0 * l * 1 / (2 * p.kappa) = l * p.sigma0 by field_simp] at hAB
    refine hAB.congr' ?_
    filter_upwards [self_mem_nhdsWithin] with u hu
    rw [(law_laplace hk hθ hg hs hu hl).1]; rfl

example : Tendsto (fun t => ∫ y, Real.exp (-(3 * y)) ∂sampleCir.law t) (𝓝[>] 0)
    (𝓝 (Real.exp (-(3 * sampleCir.sigma0)))) :=
  (C81_generator (by norm_num [sampleCir]) (by norm_num [sampleCir]) (by norm_num [sampleCir])
    (by norm_num [sampleCir]) (by norm_num)).2

/-- What the series branch returns: a partial sum, cut at the first term below the tolerance. -/
theorem series_value {tol : ℝ} (hk : 0 < p.kappa) (hθ : 0 < p.theta) (hg : 1 / 10 ^ 14 ≤ |p.gamma|)
    (hs : 0 ≤ p.sigma0) (ht : 0 < t) (hb : p.SeriesBranch t) (h1 : 1 / 10 ^ 14 ≤ tol) :
    ∃ x a r : ℝ, 0 ≤ x ∧ 0 < a ∧ 0 < r ∧ p.law t = mixedGamma x a r
      ∧ x = 2 * p.kappa * p.sigma0 * Real.exp (-p.kappa * t) / (p.gamma ^ 2 * (1 - Real.exp (-p.kappa * t)))
      ∧ a = 2 * p.kappa * p.theta / p.gamma ^ 2
      ∧ r = 2 * p.kappa / (p.gamma ^ 2 * (1 - Real.exp (-p.kappa * t)))
      ∧ ∃ n, 1 ≤ n ∧ n ≤ 647
        ∧ p.sqrtMeanTol t tol
          = .ok (√(1 / r) * Real.exp (-x) * ∑ i ∈ Finset.range (n + 1), sqrtTerm x a (a + 1 / 2) i)
        ∧ sqrtTerm x a (a + 1 / 2) n ≤ tol * ∑ i ∈ Finset.range (n + 1), sqrtTerm x a (a + 1 / 2) i
        ∧ ∀ j, 1 ≤ j → j < n → tol * ∑ i ∈ Finset.range (j + 1), sqrtTerm x a (a + 1 / 2) i
            < sqrtTerm x a (a + 1 / 2) j := by
  have hg0 : p.gamma ≠ 0 := by
    intro h; rw [h, abs_zero] at hg; norm_num at hg
  obtain ⟨x, a, r, hx, ha, hr, hl, ex, ea, er, -, -⟩ := law_params hk hθ hg0 hs ht
  have hx2 : x ≤ 250 := by
    rw [Cir.SeriesBranch] at hb
    have e : 4 * p.kappa * p.sigma0 * Real.exp (-p.kappa * t) /
        (p.gamma * p.gamma * (1 - Real.exp (-p.kappa * t))) = 2 * x := by rw [ex, sq]; ring
    linarith
  obtain ⟨n, hn1, hn, hL, hT, hF⟩ := sqrtMeanLoop_bound hx hx2 ha h1
  refine ⟨x, a, r, hx, ha, hr, hl, ex, ea, er, n, hn1, hn, ?_, hT, hF⟩
  rw [sqrtMeanTol_series p t tol ht hk hg hb]
  have e1 : 1 / 2 * (4 * p.kappa * p.theta / (p.gamma * p.gamma)) = a := by rw [ea]; ring
  have e2 : 1 / 2 * (4 * p.kappa * p.theta / (p.gamma * p.gamma) + 1) = a + 1 / 2 := by rw [ea]; ring
  have e3 : 1 / 2 * (4 * p.kappa * p.sigma0 * Real.exp (-p.kappa * t) /
      (p.gamma * p.gamma * (1 - Real.exp (-p.kappa * t)))) = x := by rw [ex, sq]; ring
  have e4 : 2 * (p.gamma * p.gamma * (1 - Real.exp (-p.kappa * t)) / (4 * p.kappa)) = 1 / r := by
    rw [er, sq]; field_simp; ring
  have e0 : sqrtTerm x a (a + 1 / 2) 0 = Real.Gamma (a + 1 / 2) / Real.Gamma a := by
    simp [sqrtTerm]
  rw [e1, e2, neg_mul (1 / 2 : ℝ), e3, e4, exp_log_gamma _ _ ha (by linarith), ← e0, hL]

/-- C81: in the series branch the result is never above the mean of the square root, and below it by
at most a hundred times the tolerance, for tolerances between `1e-14` and `1e-5`; the limit of 2000
terms is never reached. -/
theorem C81_series {tol : ℝ} (hk : 0 < p.kappa) (hθ : 0 < p.theta) (hg : 1 / 10 ^ 14 ≤ |p.gamma|)
    (hs : 0 ≤ p.sigma0) (ht : 0 < t) (hb : p.SeriesBranch t) (h1 : 1 / 10 ^ 14 ≤ tol)
    (h2 : tol ≤ 1 / 10 ^ 5) :
    ∃ v, p.sqrtMeanTol t tol = .ok v ∧ v ≤ ∫ y, √y ∂p.law t
      ∧ ∫ y, √y ∂p.law t ≤ v * (1 + 100 * tol) := by
  obtain ⟨x, a, r, hx, ha, hr, hl, -, -, -, n, -, hn, hv, hT, -⟩ := series_value hk hθ hg hs ht hb h1
  refine ⟨_, hv, ?_⟩
  rw [hl, (mixedGamma_root hx ha hr).2]
  have hC : 0 ≤ √(1 / r) * Real.exp (-x) := by positivity
  refine ⟨mul_le_mul_of_nonneg_left ?_ hC, ?_⟩
  · exact (sqrtTerm_summable hx ha).sum_le_tsum _ fun i _ => sqrtTerm_nonneg hx ha i
  · rw [mul_assoc (√(1 / r) * Real.exp (-x))]
    exact mul_le_mul_of_nonneg_left (sqrtSum_accuracy hx ha h2 hn hT) hC

/-- C81: in the series branch `sqrt_mean` has a relative error below `1e-12`. -/
theorem C81_sqrt_mean (hk : 0 < p.kappa) (hθ : 0 < p.theta) (hg : 1 / 10 ^ 14 ≤ |p.gamma|)
    (hs : 0 ≤ p.sigma0) (ht : 0 < t) (hb : p.SeriesBranch t) :
    ∃ v, p.sqrtMean t = .ok v ∧ v ≤ ∫ y, √y ∂p.law t ∧ ∫ y, √y ∂p.law t ≤ v * (1 + 1 / 10 ^ 12) := by
  obtain ⟨v, h1, h2, h3⟩ := C81_series hk hθ hg hs ht hb (le_refl (1 / 10 ^ 14)) (by norm_num)
  refine ⟨v, h1, h2, h3.trans (le_of_eq ?_)⟩
  norm_num

theorem exp_neg_log_two : Real.exp (-Real.log 2) = 1 / 2 := by
  rw [Real.exp_neg, Real.exp_log (by norm_num)]; norm_num

/-- At `t = log 2` the example has `ε = 8`. -/
example : ∃ v, sampleCir.sqrtMean (Real.log 2) = .ok v ∧ v ≤ ∫ y, √y ∂sampleCir.law (Real.log 2)
    ∧ ∫ y, √y ∂sampleCir.law (Real.log 2) ≤ v * (1 + 1 / 10 ^ 12) := by
  refine C81_sqrt_mean (by norm_num [sampleCir]) (by norm_num [sampleCir]) (by norm_num [sampleCir])
    (by norm_num [sampleCir]) (Real.log_pos (by norm_num)) ?_
  have := exp_neg_log_two
  rw [Cir.SeriesBranch]; norm_num [sampleCir, this]

/-- C81: in the small-time branch the result is always too high, by between a twentieth and a half
of `√m Var/m²`, which is below `√m/250`. -/
theorem C81_small_time {tol : ℝ} (hk : 0 < p.kappa) (hθ : 0 < p.theta) (hg : 1 / 10 ^ 14 ≤ |p.gamma|)
    (hs : 0 ≤ p.sigma0) (ht : 0 < t) (hb : ¬ p.SeriesBranch t) (hm : 1 / 10 ^ 300 ≤ p.mean t) :
    ∃ v, p.sqrtMeanTol t tol = .ok v
      ∧ (∫ y, √y ∂p.law t) + √(p.mean t) * (p.variance t / (20 * p.mean t ^ 2)) ≤ v
      ∧ v ≤ (∫ y, √y ∂p.law t) + √(p.mean t) * (p.variance t / (2 * p.mean t ^ 2))
      ∧ p.variance t / (2 * p.mean t ^ 2) < 1 / 250 := by
  have hg0 : p.gamma ≠ 0 := by
    intro h; rw [h, abs_zero] at hg; norm_num at hg
  obtain ⟨x, a, r, hx, ha, hr, hl, ex, ea, er, em, ev⟩ := law_params hk hθ hg0 hs ht
  have hx2 : 250 < x := by
    rw [Cir.SeriesBranch] at hb
    have e : 4 * p.kappa * p.sigma0 * Real.exp (-p.kappa * t) /
        (p.gamma * p.gamma * (1 - Real.exp (-p.kappa * t))) = 2 * x := by rw [ex, sq]; ring
    linarith
  have hm0 : 0 < p.mean t := lt_of_lt_of_le (by positivity) hm
  have hax : 0 < a + x := by positivity
  -- the relative variance
  set q := (a + 2 * x) / (8 * (a + x) ^ 2) with hq
  have eq : p.variance t / (8 * p.mean t ^ 2) = q := by
    rw [ev, em, hq]; field_simp
  have hq0 : 0 < q := by positivity
  have hqM : 1 / (a + x) ≤ 8 * q := by
    rw [hq, div_le_iff₀ hax, show 8 * ((a + 2 * x) / (8 * (a + x) ^ 2)) * (a + x) = (a + 2 * x) / (a + x) by
      field_simp, le_div_iff₀ hax]
    linarith
  have hq1 : q < 1 / 1000 := by
    rw [hq, div_lt_iff₀ (by positivity)]
    nlinarith
  have h3 : (2 * a + 6 * x) / (16 * (a + x) ^ 3) ≤ 24 * q ^ 2 := by
    have h4 : (2 * a + 6 * x) / (16 * (a + x) ^ 3) ≤ 3 / 8 * (1 / (a + x)) ^ 2 := by
      rw [div_le_iff₀ (by positivity),
        show 3 / 8 * (1 / (a + x)) ^ 2 * (16 * (a + x) ^ 3) = 6 * (a + x) by field_simp; ring]
      linarith
    have h5 : (1 / (a + x)) ^ 2 ≤ (8 * q) ^ 2 := pow_le_pow_left₀ (by positivity) hqM 2
    nlinarith
  obtain ⟨b1, b2, b3⟩ := mixedGamma_root_bounds hx ha hr
  rw [← em] at b1 b2 b3
  rw [← hl] at b1 b2 b3
  have e8 : p.variance t / (8 * p.mean t * p.mean t) = q := by rw [← eq]; ring
  have hs1 : 1 - q / 2 - q ^ 2 / 2 ≤ √(1 - q) := by
    apply Real.le_sqrt_of_sq_le
    nlinarith [pow_pos hq0 3, pow_pos hq0 4]
  have hs2 : √(1 - q) ≤ 1 := by
    exact Real.sqrt_le_iff.2 ⟨zero_le_one, by linarith⟩
  have hsm := Real.sqrt_nonneg (p.mean t)
  refine ⟨√(p.mean t) * √(1 - q), ?_, ?_, ?_, ?_⟩
  · rw [sqrtMeanTol_small p t tol ht hk hg hb, max_eq_left hm, e8,
      max_eq_left (mul_nonneg hm0.le (by linarith)), Real.sqrt_mul hm0.le]
  · rw [show p.variance t / (20 * p.mean t ^ 2) = 8 / 20 * q by rw [← eq]; ring]
    have : √(p.mean t) * (1 - q + 24 * q ^ 2 + 8 / 20 * q) ≤ √(p.mean t) * √(1 - q) :=
      mul_le_mul_of_nonneg_left (le_trans (by nlinarith) hs1) hsm
    have h6 := mul_le_mul_of_nonneg_left h3 hsm
    rw [← hq, mul_add] at b3
    rw [mul_add, mul_add] at this
    linarith
  · rw [show p.variance t / (2 * p.mean t ^ 2) = 4 * q by rw [← eq]; ring]
    have : (a + 2 * x) / (2 * (a + x) ^ 2) = 4 * q := by rw [hq]; field_simp; ring
    rw [this] at b1
    have := mul_le_mul_of_nonneg_left hs2 hsm
    rw [mul_sub] at b1
    linarith
  · rw [show p.variance t / (2 * p.mean t ^ 2) = 4 * q by rw [← eq]; ring]
    linarith

theorem tiny_le {m : ℝ} (h : 1 ≤ m) : 1 / 10 ^ 300 ≤ m :=
  le_trans (by rw [div_le_one (by positivity)]; exact one_le_pow₀ (by norm_num)) h

/-- At `t = log 2` this process has `ε = 504`. -/
def largeCir : Cir := ⟨1, 1, 1, 126⟩

theorem largeCir_branch : ¬ largeCir.SeriesBranch (Real.log 2) := by
  have := exp_neg_log_two
  rw [Cir.SeriesBranch]; norm_num [largeCir, this]

theorem largeCir_mean : largeCir.mean (Real.log 2) = 127 / 2 := by
  rw [cir_mean_eq _ (Real.log_nonneg (by norm_num))]
  have := exp_neg_log_two
  norm_num [largeCir, this]

theorem largeCir_variance : largeCir.variance (Real.log 2) = 253 / 8 := by
  rw [cir_variance_eq _ (Real.log_nonneg (by norm_num))]
  have := exp_neg_log_two
  norm_num [largeCir, this]

example : ∃ v, largeCir.sqrtMeanTol (Real.log 2) (1 / 10 ^ 14) = .ok v
    ∧ (∫ y, √y ∂largeCir.law (Real.log 2)) + √(127 / 2) * (253 / 8 / (20 * (127 / 2) ^ 2)) ≤ v := by
  obtain ⟨v, h1, h2, -⟩ := C81_small_time (p := largeCir) (t := Real.log 2) (tol := 1 / 10 ^ 14)
    (by norm_num [largeCir]) (by norm_num [largeCir]) (by norm_num [largeCir]) (by norm_num [largeCir])
    (Real.log_pos (by norm_num)) largeCir_branch (by rw [largeCir_mean]; exact tiny_le (by norm_num))
  rw [largeCir_mean, largeCir_variance] at h2
  exact ⟨v, h1, h2⟩

/-- C81, refuted in the small-time branch: the documented accuracy of `1e-14`.  The relative error of
the example is above `3e-4`. -/
theorem C81_small_time_false : ∃ v, largeCir.sqrtMean (Real.log 2) = .ok v
    ∧ 3 / 10 ^ 4 * (∫ y, √y ∂largeCir.law (Real.log 2)) < v - ∫ y, √y ∂largeCir.law (Real.log 2) := by
  have hk : (0 : ℝ) < largeCir.kappa := by norm_num [largeCir]
  have hθ : (0 : ℝ) < largeCir.theta := by norm_num [largeCir]
  have ht : (0 : ℝ) < Real.log 2 := Real.log_pos (by norm_num)
  obtain ⟨v, h1, h2, -⟩ := C81_small_time (p := largeCir) (t := Real.log 2) (tol := 1 / 10 ^ 14)
    hk hθ (by norm_num [largeCir]) (by norm_num [largeCir])
    ht largeCir_branch (by rw [largeCir_mean]; exact tiny_le (by norm_num))
  refine ⟨v, h1, ?_⟩
  obtain ⟨x, a, r, hx, ha, hr, hl, -, -, -, em, -⟩ := law_params (p := largeCir) hk hθ
    (by norm_num [largeCir]) (by norm_num [largeCir]) ht
  have h3 := (mixedGamma_root_bounds hx ha hr).2.1
  rw [← em, ← hl, largeCir_mean] at h3
  rw [largeCir_mean, largeCir_variance] at h2
  have h4 : (0 : ℝ) < √(127 / 2) := Real.sqrt_pos.2 (by norm_num)
  generalize ∫ y, √y ∂largeCir.law (Real.log 2) = I at *
  generalize √(127 / 2 : ℝ) = s at *
  norm_num at h2 ⊢
  linarith

/-- At `t = log 2` this process has `ε = 500`, the last value of the series branch. -/
noncomputable def edgeCir : Cir := ⟨1, 1 / 4, 1, 125⟩

/-- C81, refuted in the series branch: the documented accuracy "to `tol`", for the default `1e-14`.
The term at the stop is below the tolerance, the omitted terms together are not. -/
theorem C81_tolerance_false : ∃ v, edgeCir.sqrtMean (Real.log 2) = .ok v
    ∧ 1 / 10 ^ 14 * (∫ y, √y ∂edgeCir.law (Real.log 2)) < (∫ y, √y ∂edgeCir.law (Real.log 2)) - v := by
  have he := exp_neg_log_two
  obtain ⟨x, a, r, hx, ha, hr, hl, ex, ea, -, n, -, -, hv, -, hF⟩ := series_value (p := edgeCir)
    (t := Real.log 2) (tol := 1 / 10 ^ 14) (by norm_num [edgeCir]) (by norm_num [edgeCir])
    (by norm_num [edgeCir]) (by norm_num [edgeCir]) (Real.log_pos (by norm_num))
    (by rw [Cir.SeriesBranch]; norm_num [edgeCir, he]) le_rfl
  refine ⟨_, hv, ?_⟩
  have ex' : x = 250 := by rw [ex]; norm_num [edgeCir, he]
  have ea' : a = 1 / 2 := by rw [ea]; norm_num [edgeCir]
  subst ex' ea'
  rw [hl, (mixedGamma_root hx ha hr).2]
  have hC : 0 < √(1 / r) * Real.exp (-250) := by positivity
  have hT := sqrtTerm_nonneg hx ha
  have hT0 : 0 < sqrtTerm 250 (1 / 2) (1 / 2 + 1 / 2) 0 := by
    have := Real.Gamma_pos_of_pos (show (0 : ℝ) < 1 / 2 by norm_num)
    rw [sqrtTerm]; norm_num; positivity
  have p1 : (0 : ℝ) < oddProduct 379 := by exact_mod_cast oddProduct_pos 379
  have p2 : (0 : ℝ) < oddProduct 450 := by exact_mod_cast oddProduct_pos 450
  have hn : n ≤ 379 := by
    by_contra h
    have h1 := hF 379 (by norm_num) (by omega)
    rw [sqrtSum_250, sqrtTerm_250 379, mul_left_comm] at h1
    have h2 := lt_of_mul_lt_mul_left h1 hT0.le
    rw [mul_div_assoc', div_lt_div_iff_of_pos_right p1] at h2
    have h3 : ((500 ^ 379 * 10 ^ 14 : ℕ) : ℝ) ≤ (seriesNum 379 : ℕ) := Nat.cast_le.2 series_stop
    rw [Nat.cast_mul, Nat.cast_pow, Nat.cast_pow, Nat.cast_ofNat, Nat.cast_ofNat] at h3
    generalize (500 : ℝ) ^ 379 = A at *
    linarith
  have h1 : ∑ i ∈ Finset.range (n + 1), sqrtTerm 250 (1 / 2) (1 / 2 + 1 / 2) i
      ≤ ∑ i ∈ Finset.range (379 + 1), sqrtTerm 250 (1 / 2) (1 / 2 + 1 / 2) i :=
    Finset.sum_le_sum_of_subset_of_nonneg (Finset.range_mono (by omega)) fun i _ _ => hT i
  have h2 : ∑ i ∈ Finset.range (450 + 1), sqrtTerm 250 (1 / 2) (1 / 2 + 1 / 2) i
      ≤ ∑' i, sqrtTerm 250 (1 / 2) (1 / 2 + 1 / 2) i :=
    (sqrtTerm_summable hx ha).sum_le_tsum _ fun i _ => hT i
  have h3 : ∑ i ∈ Finset.range (379 + 1), sqrtTerm 250 (1 / 2) (1 / 2 + 1 / 2) i
      < (1 - 1 / 10 ^ 14) * ∑ i ∈ Finset.range (450 + 1), sqrtTerm 250 (1 / 2) (1 / 2 + 1 / 2) i := by
    rw [sqrtSum_250, sqrtSum_250, mul_left_comm]
    refine mul_lt_mul_of_pos_left ?_ hT0
    rw [mul_div_assoc', div_lt_div_iff₀ p1 p2]
    have h4 : ((seriesNum 379 * 10 ^ 14 * oddProduct 450 : ℕ) : ℝ)
        < ((99999999999999 * seriesNum 450 * oddProduct 379 : ℕ) : ℝ) := Nat.cast_lt.2 series_gap
    push_cast at h4
    generalize (seriesNum 379 : ℝ) = A at *
    generalize (seriesNum 450 : ℝ) = B at *
    generalize (oddProduct 379 : ℝ) = C at *
    generalize (oddProduct 450 : ℝ) = D at *
    nlinarith
  have h4 : ∑ i ∈ Finset.range (n + 1), sqrtTerm 250 (1 / 2) (1 / 2 + 1 / 2) i
      < (1 - 1 / 10 ^ 14) * ∑' i, sqrtTerm 250 (1 / 2) (1 / 2 + 1 / 2) i :=
    (h1.trans_lt h3).trans_le (mul_le_mul_of_nonneg_left h2 (by norm_num))
  have h5 := mul_lt_mul_of_pos_left h4 hC
  linarith

theorem tendsto_root_limit (hk : 0 < p.kappa) (hg : 0 < p.gamma) (a : ℝ) :
    Tendsto (fun t : ℝ => √(1 / (2 * p.kappa / (p.gamma ^ 2 * (1 - Real.exp (-p.kappa * t)))))
      * Real.exp (-(2 * p.kappa * p.sigma0 * Real.exp (-p.kappa * t)
          / (p.gamma ^ 2 * (1 - Real.exp (-p.kappa * t))))) * a) atTop
      (𝓝 (p.gamma / √(2 * p.kappa) * a))
    ∧ Tendsto (fun t : ℝ => 2 * p.kappa * p.sigma0 * Real.exp (-p.kappa * t)
          / (p.gamma ^ 2 * (1 - Real.exp (-p.kappa * t)))) atTop (𝓝 0) := by
  have hd := tendsto_decay p.kappa hk
  have h1 : Tendsto (fun t : ℝ => p.gamma ^ 2 * (1 - Real.exp (-p.kappa * t))) atTop (𝓝 (p.gamma ^ 2)) := by
    have := (hd.const_sub 1).const_mul (p.gamma ^ 2)
    simpa using this
  have h2 : Tendsto (fun t : ℝ => 2 * p.kappa * p.sigma0 * Real.exp (-p.kappa * t)
          / (p.gamma ^ 2 * (1 - Real.exp (-p.kappa * t)))) atTop (𝓝 0) := by
    have := (hd.const_mul (2 * p.kappa * p.sigma0)).div h1 (by positivity)
    rw [mul_zero, zero_div] at this
    exact this
  refine ⟨?_, h2⟩
  have h3 : Tendsto (fun t : ℝ => √(1 / (2 * p.kappa / (p.gamma ^ 2 * (1 - Real.exp (-p.kappa * t))))))
      atTop (𝓝 (p.gamma / √(2 * p.kappa))) := by
    have := ((Real.continuous_sqrt.tendsto _).comp (h1.div_const (2 * p.kappa)))
    rw [Real.sqrt_div (by positivity), Real.sqrt_sq hg.le] at this
    refine this.congr fun t => ?_
    rw [one_div_div]; rfl
  have h4 := (Real.continuous_exp.tendsto _).comp h2.neg
  rw [neg_zero, Real.exp_zero] at h4
  have := (h3.mul h4).mul_const a
  simpa using this

/-- C81: `sqrt_mean_infinity` is the limit of the mean of the square root, and of the computed
`sqrt_mean`, at large times. -/
theorem C81_infinity (hk : 0 < p.kappa) (hθ : 0 < p.theta) (hg : 1 / 10 ^ 14 ≤ p.gamma)
    (hs : 0 ≤ p.sigma0) : ∃ b, p.sqrtMeanInfinity = .ok b
      ∧ Tendsto (fun t => ∫ y, √y ∂p.law t) atTop (𝓝 b)
      ∧ ∃ f : ℝ → ℝ, (∀ᶠ t in atTop, p.sqrtMean t = .ok (f t)) ∧ Tendsto f atTop (𝓝 b) := by
  have hg0 : 0 < p.gamma := lt_of_lt_of_le (by norm_num) hg
  have ha : 0 < 2 * p.kappa * p.theta / p.gamma ^ 2 := by positivity
  have hT0 : sqrtTerm 0 (2 * p.kappa * p.theta / p.gamma ^ 2) (2 * p.kappa * p.theta / p.gamma ^ 2 + 1 / 2) 0
      = Real.Gamma (2 * p.kappa * p.theta / p.gamma ^ 2 + 1 / 2) / Real.Gamma (2 * p.kappa * p.theta / p.gamma ^ 2) := by
    simp [sqrtTerm]
  set a := 2 * p.kappa * p.theta / p.gamma ^ 2 with ea
  set G := Real.Gamma (a + 1 / 2) / Real.Gamma a with eG
  have hG : 0 < G := by
    have h1 := Real.Gamma_pos_of_pos ha
    have h2 := Real.Gamma_pos_of_pos (show 0 < a + 1 / 2 by linarith)
    positivity
  obtain ⟨h1, h2⟩ := tendsto_root_limit (p := p) hk hg0 G
  set L : ℝ → ℝ := fun t => √(1 / (2 * p.kappa / (p.gamma ^ 2 * (1 - Real.exp (-p.kappa * t)))))
      * Real.exp (-(2 * p.kappa * p.sigma0 * Real.exp (-p.kappa * t)
          / (p.gamma ^ 2 * (1 - Real.exp (-p.kappa * t))))) * G with eL
  set X : ℝ → ℝ := fun t => 2 * p.kappa * p.sigma0 * Real.exp (-p.kappa * t)
          / (p.gamma ^ 2 * (1 - Real.exp (-p.kappa * t))) with eX
  have hq : Tendsto (fun t => X t * ((a + 1 / 2) / a)) atTop (𝓝 0) := by
    simpa using h2.mul_const ((a + 1 / 2) / a)
  have hU : Tendsto (fun t => L t * (1 / (1 - X t * ((a + 1 / 2) / a)))) atTop
      (𝓝 (p.gamma / √(2 * p.kappa) * G)) := by
    have := h1.mul ((tendsto_const_nhds (x := (1 : ℝ))).div (hq.const_sub 1) (by norm_num))
    simpa using this
  -- both quantities lie between the two bounds
  have hE : ∀ᶠ t in atTop, L t ≤ ∫ y, √y ∂p.law t
      ∧ ∫ y, √y ∂p.law t ≤ L t * (1 / (1 - X t * ((a + 1 / 2) / a)))
      ∧ ∃ v, p.sqrtMean t = .ok v ∧ L t ≤ v ∧ v ≤ ∫ y, √y ∂p.law t := by
    have e1 : ∀ᶠ t in atTop, X t * ((a + 1 / 2) / a) < 1 := hq.eventually_lt_const one_pos
    have e2 : ∀ᶠ t in atTop, X t < 250 := h2.eventually_lt_const (by norm_num)
    filter_upwards [e1, e2, eventually_gt_atTop 0] with t t1 t2 t3
    have hb : p.SeriesBranch t := by
      rw [Cir.SeriesBranch]
      have : 4 * p.kappa * p.sigma0 * Real.exp (-p.kappa * t) /
        (p.gamma * p.gamma * (1 - Real.exp (-p.kappa * t))) = 2 * X t := by
          simp only [eX]; rw [sq]; ring
      linarith
    obtain ⟨x, a', r, hx, ha', hr, hl, ex, ea', er, n, -, -, hv, -, -⟩ := series_value hk hθ
      (by rwa [abs_of_pos hg0]) hs t3 hb (le_refl (1 / 10 ^ 14))
    rw [← ea] at ea'
    subst ea'
    have hS := sqrtTerm_summable hx ha
    have hT := sqrtTerm_nonneg hx ha
    have e0 : sqrtTerm x a (a + 1 / 2) 0 = G := by rw [eG]; simp [sqrtTerm]
    have eLt : L t = √(1 / r) * Real.exp (-x) * G := by rw [er, ex]
    have hC : 0 ≤ √(1 / r) * Real.exp (-x) := by positivity
    have hle : G ≤ ∑ i ∈ Finset.range (n + 1), sqrtTerm x a (a + 1 / 2) i := by
      rw [← e0]
      exact Finset.single_le_sum (f := fun i => sqrtTerm x a (a + 1 / 2) i) (fun i _ => hT i)
        (Finset.mem_range.2 (by omega))
    have hle2 : ∑ i ∈ Finset.range (n + 1), sqrtTerm x a (a + 1 / 2) i ≤ ∑' i, sqrtTerm x a (a + 1 / 2) i :=
      hS.sum_le_tsum _ fun i _ => hT i
    have hqx : sqrtRatio x a 0 = X t * ((a + 1 / 2) / a) := by
      rw [sqrtRatio, show X t = x from ex.symm]; push_cast; ring
    have htail := sqrtTerm_tail hx ha (n := 0) le_rfl (hqx ▸ t1)
    rw [zero_add, Finset.sum_range_one, e0, hqx] at htail
    have hpos : 0 < 1 - X t * ((a + 1 / 2) / a) := by linarith
    have htail' : ∑' i, sqrtTerm x a (a + 1 / 2) i ≤ G * (1 / (1 - X t * ((a + 1 / 2) / a))) := by
      refine htail.trans (le_of_eq ?_)
      generalize X t * ((a + 1 / 2) / a) = q at *
      field_simp
      ring
    rw [hl, (mixedGamma_root hx ha hr).2, eLt]
    refine ⟨mul_le_mul_of_nonneg_left (hle.trans hle2) hC, ?_, _, hv,
      mul_le_mul_of_nonneg_left hle hC, mul_le_mul_of_nonneg_left hle2 hC⟩
    rw [mul_assoc (√(1 / r) * Real.exp (-x))]
    exact mul_le_mul_of_nonneg_left htail' hC
  have hI : Tendsto (fun t => ∫ y, √y ∂p.law t) atTop (𝓝 (p.gamma / √(2 * p.kappa) * G)) :=
    tendsto_of_tendsto_of_tendsto_of_le_of_le' h1 hU (hE.mono fun t h => h.1) (hE.mono fun t h => h.2.1)
  refine ⟨p.gamma / √(2 * p.kappa) * G, ?_, hI, fun t => match p.sqrtMean t with | .ok v => v | _ => 0, ?_, ?_⟩
  · rw [Cir.sqrtMeanInfinity, if_neg (not_le.2 hk), if_neg (not_le.2 hg0)]
    have e1 : 1 / 2 * (4 * p.kappa * p.theta / (p.gamma * p.gamma)) = a := by rw [ea]; ring
    have e2 : 1 / 2 * (4 * p.kappa * p.theta / (p.gamma * p.gamma) + 1) = a + 1 / 2 := by rw [ea]; ring
    simp only [e1, e2]
    rw [exp_log_gamma _ _ ha (by linarith)]
  · filter_upwards [hE] with t h
    obtain ⟨-, -, v, hv, -⟩ := h
    rw [hv]
  · refine tendsto_of_tendsto_of_tendsto_of_le_of_le' h1 hI ?_ ?_
    · filter_upwards [hE] with t h
      obtain ⟨-, -, v, hv, h3, -⟩ := h
      rw [hv]; exact h3
    · filter_upwards [hE] with t h
      obtain ⟨-, -, v, hv, -, h4⟩ := h
      rw [hv]; exact h4

example : ∃ b, sampleCir.sqrtMeanInfinity = .ok b
    ∧ Tendsto (fun t => ∫ y, √y ∂sampleCir.law t) atTop (𝓝 b) := by
  obtain ⟨b, h1, h2, -⟩ := C81_infinity (p := sampleCir) (by norm_num [sampleCir])
    (by norm_num [sampleCir]) (by norm_num [sampleCir]) (by norm_num [sampleCir])
  exact ⟨b, h1, h2⟩

/-- C81: the value `√σ₀` returned at time zero is the limit of the mean of the square root at small
times. -/
theorem C81_start (hk : 0 < p.kappa) (hθ : 0 < p.theta) (hg : p.gamma ≠ 0) (hs : 0 < p.sigma0) (tol : ℝ) :
    p.sqrtMeanTol 0 tol = .ok √p.sigma0
      ∧ Tendsto (fun t => ∫ y, √y ∂p.law t) (𝓝[>] 0) (𝓝 √p.sigma0) := by
  refine ⟨by rw [Cir.sqrtMeanTol, if_pos le_rfl, max_eq_left hs.le], ?_⟩
  have hd : Tendsto (fun t : ℝ => Real.exp (-p.kappa * t)) (𝓝[>] 0) (𝓝 1) := by
    have h : Continuous fun t : ℝ => Real.exp (-p.kappa * t) := by fun_prop
    have := (h.tendsto 0).mono_left (nhdsWithin_le_nhds (s := Set.Ioi 0))
    simpa using this
  have hd1 : Tendsto (fun t : ℝ => 1 - Real.exp (-p.kappa * t)) (𝓝[>] 0) (𝓝 0) := by
    simpa using hd.const_sub 1
  have hm : Tendsto p.mean (𝓝[>] 0) (𝓝 p.sigma0) := by
    have h := (hd.const_mul p.sigma0).add (hd1.const_mul p.theta)
    rw [mul_one, mul_zero, add_zero] at h
    refine h.congr' ?_
    filter_upwards [self_mem_nhdsWithin] with t ht
    exact (cir_mean_eq p (le_of_lt ht)).symm
  have hv : Tendsto p.variance (𝓝[>] 0) (𝓝 0) := by
    have h := ((hd.const_mul (p.sigma0 * (p.gamma * p.gamma / p.kappa))).mul hd1).add
      (((hd1.const_mul (p.theta * (p.gamma * p.gamma / p.kappa * (1 / 2))))).mul hd1)
    simp only [mul_zero, add_zero] at h
    refine h.congr' ?_
    filter_upwards [self_mem_nhdsWithin] with t ht
    exact (cir_variance_eq p (le_of_lt ht)).symm
  have hroot : Tendsto (fun t => √(p.mean t)) (𝓝[>] 0) (𝓝 √p.sigma0) :=
    (Real.continuous_sqrt.tendsto _).comp hm
  have hlow : Tendsto (fun t => √(p.mean t) * (1 - p.variance t / (2 * p.mean t ^ 2))) (𝓝[>] 0)
      (𝓝 √p.sigma0) := by
    have := hroot.mul ((hv.div ((hm.pow 2).const_mul 2) (by positivity)).const_sub 1)
    simpa using this
  refine tendsto_of_tendsto_of_tendsto_of_le_of_le' hlow hroot ?_ ?_
  · filter_upwards [self_mem_nhdsWithin] with t ht
    obtain ⟨x, a, r, hx, ha, hr, hl, -, -, -, em, ev⟩ := law_params hk hθ hg hs.le ht
    rw [hl, em, ev]
    refine le_trans (le_of_eq ?_) (mixedGamma_root_bounds hx ha hr).1
    congr 2
    field_simp
  · filter_upwards [self_mem_nhdsWithin] with t ht
    obtain ⟨x, a, r, hx, ha, hr, hl, -, -, -, em, -⟩ := law_params hk hθ hg hs.le ht
    rw [hl, em]
    exact (mixedGamma_root_bounds hx ha hr).2.1

example : Tendsto (fun t => ∫ y, √y ∂sampleCir.law t) (𝓝[>] 0) (𝓝 √sampleCir.sigma0) :=
  (C81_start (by norm_num [sampleCir]) (by norm_num [sampleCir]) (by norm_num [sampleCir])
    (by norm_num [sampleCir]) 0).2

/-- C81: `feller_satisfied` holds exactly when the scale function is unbounded at zero, which by
Feller's test means that zero is not reached. -/
theorem C81_feller (hg : p.gamma ≠ 0) :
    p.feller ↔ ¬ IntegrableOn (cirScaleDensity p) (Set.Ioo 0 1) := by
  have hg2 : 0 < p.gamma ^ 2 := by positivity
  set a := 2 * p.kappa * p.theta / p.gamma ^ 2 with ea
  set c := 2 * p.kappa / p.gamma ^ 2 with ec
  have e : cirScaleDensity p = fun y => y ^ (-a) * Real.exp (c * y) := by
    funext y; rw [cirScaleDensity, ← ea, ec]; congr 2; ring
  have h1 : IntegrableOn (cirScaleDensity p) (Set.Ioo 0 1) ↔ IntegrableOn (fun y : ℝ => y ^ (-a)) (Set.Ioo 0 1) := by
    rw [e]
    have hb : ∀ c : ℝ, ∀ᵐ y ∂volume.restrict (Set.Ioo (0 : ℝ) 1), ‖Real.exp (c * y)‖ ≤ Real.exp |c| := by
      intro c
      filter_upwards [ae_restrict_mem measurableSet_Ioo] with y hy
      rw [Real.norm_eq_abs, abs_of_pos (Real.exp_pos _), Real.exp_le_exp]
      refine (le_abs_self _).trans ?_
      rw [abs_mul]
      refine mul_le_of_le_one_right (abs_nonneg c) ?_
      rw [abs_of_pos hy.1]; exact hy.2.le
    constructor
    · intro h
      have := Integrable.mul_bdd (g := fun y : ℝ => Real.exp (-c * y)) h
        (by fun_prop) (hb (-c))
      refine this.congr (.of_forall fun y => ?_)
      beta_reduce
      rw [mul_assoc, ← Real.exp_add, show c * y + -c * y = 0 by ring, Real.exp_zero, mul_one]
    · intro h
      exact Integrable.mul_bdd h (by fun_prop) (hb c)
  rw [h1, intervalIntegral.integrableOn_Ioo_rpow_iff one_pos, not_lt, Cir.feller, ea, neg_le_neg_iff,
    one_le_div hg2, sq]

/-- The condition holds for the first process and fails for the second. -/
example : (⟨1, 1, 1, 1⟩ : Cir).feller ∧ ¬ edgeCir.feller
    ∧ IntegrableOn (cirScaleDensity edgeCir) (Set.Ioo 0 1) := by
  have h : ¬ edgeCir.feller := by norm_num [Cir.feller, edgeCir]
  refine ⟨by norm_num [Cir.feller], h, ?_⟩
  by_contra h'
  exact h ((C81_feller (by norm_num [edgeCir])).2 h')

end Verif
