import Verif.Spec.CirLaw
import Verif.Props.ShortRate
import Mathlib.MeasureTheory.Integral.Bochner.Set
import Mathlib.Analysis.SpecificLimits.Normed

/-! # The law of a CIR process: moments and the series of the root mean -/

namespace Verif

open MeasureTheory ProbabilityTheory

theorem measurable_gammaPDF' (a r : ℝ) : Measurable (gammaPDF a r) :=
  (measurable_gammaPDFReal a r).ennreal_ofReal

theorem gamma_lintegral_rpow {a r q : ℝ} (ha : 0 < a) (hr : 0 < r) (hq : 0 ≤ q) :
    ∫⁻ v, ENNReal.ofReal (v ^ q) ∂gammaMeasure a r
      = ENNReal.ofReal (Real.Gamma (a + q) / Real.Gamma a * (1 / r) ^ q) := by
  have hG := Real.Gamma_pos_of_pos ha
  rw [gammaMeasure, lintegral_withDensity_eq_lintegral_mul _
    (measurable_gammaPDF' a r) (by fun_prop)]
  have h1 : ∀ v, (gammaPDF a r * fun v => ENNReal.ofReal (v ^ q)) v
      = (Set.Ici (0 : ℝ)).indicator (fun v => ENNReal.ofReal
          (r ^ a / Real.Gamma a * (v ^ (a - 1) * Real.exp (-(r * v)) * v ^ q))) v := by
    intro v
    rw [Pi.mul_apply, gammaPDF_eq]
    by_cases hv : 0 ≤ v
    · rw [Set.indicator_of_mem (by exact hv), if_pos hv, ← ENNReal.ofReal_mul (by positivity)]
      congr 1; ring
    · rw [Set.indicator_of_notMem (by exact hv), if_neg hv]; simp
  simp_rw [h1]
  rw [lintegral_indicator measurableSet_Ici, setLIntegral_congr Ioi_ae_eq_Ici.symm]
  have h2 : ∀ v ∈ Set.Ioi (0 : ℝ), r ^ a / Real.Gamma a * (v ^ (a - 1) * Real.exp (-(r * v)) * v ^ q)
      = r ^ a / Real.Gamma a * (v ^ (a + q - 1) * Real.exp (-(r * v))) := by
    intro v hv
    have : v ^ (a + q - 1) = v ^ (a - 1) * v ^ q := by
      rw [← Real.rpow_add hv]; congr 1; ring
    rw [this]; ring
  rw [setLIntegral_congr_fun measurableSet_Ioi fun v hv => by rw [h2 v hv]]
  have haq : 0 < a + q := by linarith
  have hI := Real.integral_rpow_mul_exp_neg_mul_Ioi haq hr
  have hint : IntegrableOn (fun v : ℝ => v ^ (a + q - 1) * Real.exp (-(r * v))) (Set.Ioi 0) := by
    by_contra h
    rw [integral_undef h] at hI
    have : 0 < (1 / r) ^ (a + q) * Real.Gamma (a + q) := by
      have := Real.Gamma_pos_of_pos haq; positivity
    linarith
  rw [← ofReal_integral_eq_lintegral_ofReal (hint.const_mul _), integral_const_mul, hI]
  · congr 1
    rw [Real.rpow_add (by positivity), one_div, Real.inv_rpow hr.le, Real.inv_rpow hr.le]
    have := Real.rpow_pos_of_pos hr a
    field_simp
  · refine (ae_restrict_iff' measurableSet_Ioi).2 (.of_forall fun v hv => ?_)
    have hv : 0 < v := hv
    positivity

theorem mixedGamma_pos (x a r : ℝ) : ∀ᵐ v ∂mixedGamma x a r, 0 ≤ v := by
  rw [mixedGamma, Measure.ae_sum_iff]
  intro k
  refine Measure.ae_smul_measure ?_ _
  rw [gammaMeasure, ae_withDensity_iff (measurable_gammaPDF' _ r)]
  refine .of_forall fun v hv => ?_
  by_contra h
  exact hv (gammaPDF_of_neg (not_le.1 h))

theorem mixedGamma_moment {x a r q M : ℝ} (hx : 0 ≤ x) (ha : 0 < a) (hr : 0 < r) (hq : 0 ≤ q)
    (hs : HasSum (fun k : ℕ => Real.exp (-x) * x ^ k / k.factorial
      * (Real.Gamma (a + k + q) / Real.Gamma (a + k) * (1 / r) ^ q)) M) :
    Integrable (fun v => v ^ q) (mixedGamma x a r) ∧ ∫ v, v ^ q ∂mixedGamma x a r = M := by
  have hG : ∀ k : ℕ, 0 < Real.Gamma (a + k + q) / Real.Gamma (a + k) * (1 / r) ^ q := fun k => by
    have h1 := Real.Gamma_pos_of_pos (show 0 < a + k by positivity)
    have h2 := Real.Gamma_pos_of_pos (show 0 < a + k + q by positivity)
    positivity
  have hl : ∫⁻ v, ENNReal.ofReal (v ^ q) ∂mixedGamma x a r = ENNReal.ofReal M := by
    rw [mixedGamma, lintegral_sum_measure]
    simp_rw [lintegral_smul_measure, smul_eq_mul]
    rw [← hs.tsum_eq, ENNReal.ofReal_tsum_of_nonneg _ hs.summable]
    · refine tsum_congr fun k => ?_
      rw [gamma_lintegral_rpow (by positivity) hr hq, ← ENNReal.ofReal_mul (by positivity)]
    · intro k
      exact mul_nonneg (by positivity) (hG k).le
  have h0 : 0 ≤ᵐ[mixedGamma x a r] fun v => v ^ q := by
    filter_upwards [mixedGamma_pos x a r] with v hv
    exact Real.rpow_nonneg hv q
  have hM : 0 ≤ M := hs.nonneg fun k => mul_nonneg (by positivity) (hG k).le
  have hm : AEStronglyMeasurable (fun v : ℝ => v ^ q) (mixedGamma x a r) :=
    (by fun_prop : Measurable fun v : ℝ => v ^ q).aestronglyMeasurable
  refine ⟨⟨hm, ?_⟩, ?_⟩
  · rw [hasFiniteIntegral_iff_ofReal h0, hl]; exact ENNReal.ofReal_lt_top
  · rw [integral_eq_lintegral_of_nonneg_ae h0 hm, hl, ENNReal.toReal_ofReal hM]

/-! ## Polynomial moments -/

theorem poisson_descFactorial (x : ℝ) (j : ℕ) :
    HasSum (fun k : ℕ => Real.exp (-x) * x ^ k / k.factorial * (k.descFactorial j : ℝ)) (x ^ j) := by
  have h : HasSum (fun k : ℕ => x ^ k / (k.factorial : ℝ)) (Real.exp x) := by
    have := NormedSpace.expSeries_div_hasSum_exp (𝔸 := ℝ) x
    rwa [← Real.exp_eq_exp_ℝ] at this
  have h2 := h.mul_left (Real.exp (-x) * x ^ j)
  rw [show Real.exp (-x) * x ^ j * Real.exp x = x ^ j by
    rw [mul_right_comm, ← Real.exp_add]; simp] at h2
  refine (hasSum_nat_add_iff' j).1 ?_
  have h0 : ∑ i ∈ Finset.range j, Real.exp (-x) * x ^ i / i.factorial * (i.descFactorial j : ℝ) = 0 := by
    refine Finset.sum_eq_zero fun i hi => ?_
    rw [Nat.descFactorial_of_lt (Finset.mem_range.1 hi)]; simp
  rw [h0, sub_zero]
  refine h2.congr_fun ?_
  intro k
  have e := Nat.factorial_mul_descFactorial (Nat.le_add_left j k)
  rw [Nat.add_sub_cancel] at e
  have e' : ((k.factorial : ℕ) : ℝ) * ((k + j).descFactorial j : ℝ) = ((k + j).factorial : ℝ) := by
    exact_mod_cast e
  have hk : ((k.factorial : ℕ) : ℝ) ≠ 0 := by exact_mod_cast k.factorial_ne_zero
  have hkj : (((k + j).factorial : ℕ) : ℝ) ≠ 0 := by exact_mod_cast (k + j).factorial_ne_zero
  rw [← e'] at hkj ⊢
  have hd := right_ne_zero_of_mul hkj
  field_simp
  ring

theorem gamma_ratio_one {b : ℝ} (hb : 0 < b) : Real.Gamma (b + 1) / Real.Gamma b = b := by
  rw [Real.Gamma_add_one hb.ne', mul_div_assoc, div_self (Real.Gamma_pos_of_pos hb).ne', mul_one]

theorem gamma_ratio_two {b : ℝ} (hb : 0 < b) : Real.Gamma (b + 2) / Real.Gamma b = b * (b + 1) := by
  rw [show b + 2 = b + 1 + 1 by ring, Real.Gamma_add_one (by positivity), mul_div_assoc,
    gamma_ratio_one hb]; ring

theorem gamma_ratio_three {b : ℝ} (hb : 0 < b) :
    Real.Gamma (b + 3) / Real.Gamma b = b * (b + 1) * (b + 2) := by
  rw [show b + 3 = b + 2 + 1 by ring, Real.Gamma_add_one (by positivity), mul_div_assoc,
    gamma_ratio_two hb]; ring

theorem mixedGamma_mass {x a r : ℝ} (hx : 0 ≤ x) (ha : 0 < a) (hr : 0 < r) :
    IsProbabilityMeasure (mixedGamma x a r) := by
  have h := poisson_descFactorial x 0
  simp only [Nat.descFactorial_zero, Nat.cast_one, mul_one, pow_zero] at h
  refine ⟨?_⟩
  rw [mixedGamma, Measure.sum_apply _ MeasurableSet.univ]
  have : ∀ k : ℕ, (ENNReal.ofReal (Real.exp (-x) * x ^ k / k.factorial) • gammaMeasure (a + k) r) Set.univ
      = ENNReal.ofReal (Real.exp (-x) * x ^ k / k.factorial) := by
    intro k
    have := isProbabilityMeasure_gammaMeasure (show 0 < a + k by positivity) hr
    rw [Measure.smul_apply, measure_univ, smul_eq_mul, mul_one]
  simp_rw [this]
  rw [← ENNReal.ofReal_tsum_of_nonneg (fun k => by positivity) h.summable, h.tsum_eq, ENNReal.ofReal_one]

theorem mixedGamma_first {x a r : ℝ} (hx : 0 ≤ x) (ha : 0 < a) (hr : 0 < r) :
    Integrable (fun v => v) (mixedGamma x a r) ∧ ∫ v, v ∂mixedGamma x a r = (a + x) / r := by
  have h0 := poisson_descFactorial x 0
  have h1 := poisson_descFactorial x 1
  have hs := ((h0.mul_left a).add h1).mul_right (1 / r)
  have h := mixedGamma_moment (q := 1) hx ha hr zero_le_one (hs.congr_fun fun k => ?_)
  · simp only [Real.rpow_one] at h
    refine ⟨h.1, h.2.trans ?_⟩
    simp; ring
  · rw [gamma_ratio_one (by positivity), Real.rpow_one]
    simp; ring

theorem mixedGamma_second {x a r : ℝ} (hx : 0 ≤ x) (ha : 0 < a) (hr : 0 < r) :
    Integrable (fun v => v ^ 2) (mixedGamma x a r)
      ∧ ∫ v, v ^ 2 ∂mixedGamma x a r = (x ^ 2 + 2 * (a + 1) * x + a * (a + 1)) / r ^ 2 := by
  have h0 := poisson_descFactorial x 0
  have h1 := poisson_descFactorial x 1
  have h2 := poisson_descFactorial x 2
  have hs := (((h0.mul_left (a * (a + 1))).add (h1.mul_left (2 * (a + 1)))).add h2).mul_right ((1 / r) ^ 2)
  have h := mixedGamma_moment (q := 2) hx ha hr zero_le_two (hs.congr_fun fun k => ?_)
  · have e : ∀ v : ℝ, v ^ (2 : ℝ) = v ^ 2 := fun v => by exact_mod_cast Real.rpow_natCast v 2
    simp only [e] at h
    refine ⟨h.1, h.2.trans ?_⟩
    simp; ring
  · have e : ∀ v : ℝ, v ^ (2 : ℝ) = v ^ 2 := fun v => by exact_mod_cast Real.rpow_natCast v 2
    rw [gamma_ratio_two (by positivity), e]
    have : ((k.descFactorial 2 : ℕ) : ℝ) = k * (k - 1) := by
      rcases k with _ | k
      · simp
      · simp [Nat.descFactorial_succ]; ring
    rw [this]
    simp; ring

theorem mixedGamma_third {x a r : ℝ} (hx : 0 ≤ x) (ha : 0 < a) (hr : 0 < r) :
    Integrable (fun v => v ^ 3) (mixedGamma x a r)
      ∧ ∫ v, v ^ 3 ∂mixedGamma x a r = (x ^ 3 + 3 * (a + 2) * x ^ 2 + 3 * (a + 1) * (a + 2) * x
        + a * (a + 1) * (a + 2)) / r ^ 3 := by
  have h0 := poisson_descFactorial x 0
  have h1 := poisson_descFactorial x 1
  have h2 := poisson_descFactorial x 2
  have h3 := poisson_descFactorial x 3
  have hs := ((((h0.mul_left (a * (a + 1) * (a + 2))).add (h1.mul_left (3 * (a + 1) * (a + 2)))).add
    (h2.mul_left (3 * (a + 2)))).add h3).mul_right ((1 / r) ^ 3)
  have e : ∀ v : ℝ, v ^ (3 : ℝ) = v ^ 3 := fun v => by exact_mod_cast Real.rpow_natCast v 3
  have h := mixedGamma_moment (q := 3) hx ha hr (by norm_num) (hs.congr_fun fun k => ?_)
  · simp only [e] at h
    refine ⟨h.1, h.2.trans ?_⟩
    simp; ring
  · rw [gamma_ratio_three (by positivity), e]
    have : ((k.descFactorial 2 : ℕ) : ℝ) = k * (k - 1) := by
      rcases k with _ | k
      · simp
      · simp [Nat.descFactorial_succ]; ring
    have h3 : ((k.descFactorial 3 : ℕ) : ℝ) = k * (k - 1) * (k - 2) := by
      rcases k with _ | _ | k
      · simp
      · simp
      · simp [Nat.descFactorial_succ]; ring
    rw [this, h3]
    simp; ring

/-! ## The series -/

/-- The factor from one term to the next. -/
noncomputable def sqrtRatio (x a : ℝ) (k : ℕ) : ℝ := x * (a + 1 / 2 + k) / ((k + 1 : ℕ) * (a + k))

theorem sqrtTerm_nonneg {x a : ℝ} (hx : 0 ≤ x) (ha : 0 < a) (k : ℕ) : 0 ≤ sqrtTerm x a (a + 1 / 2) k := by
  have h2 : 0 < Real.Gamma (a + k) := Real.Gamma_pos_of_pos (by positivity)
  have h3 : 0 < Real.Gamma (a + 1 / 2 + k) := Real.Gamma_pos_of_pos (by positivity)
  rw [sqrtTerm]; positivity

theorem sqrtTerm_next (x : ℝ) {a : ℝ} (ha : 0 < a) (k : ℕ) :
    sqrtTerm x a (a + 1 / 2) (k + 1) = sqrtTerm x a (a + 1 / 2) k * sqrtRatio x a k :=
  (sqrtTerm_succ x a (a + 1 / 2) ha (by linarith) k).symm

theorem sqrtRatio_nonneg {x a : ℝ} (hx : 0 ≤ x) (ha : 0 < a) (k : ℕ) : 0 ≤ sqrtRatio x a k := by
  rw [sqrtRatio]; positivity

theorem sqrtRatio_antitone {x a : ℝ} (hx : 0 ≤ x) (ha : 0 < a) : Antitone (sqrtRatio x a) := by
  refine antitone_nat_of_succ_le fun k => ?_
  rw [sqrtRatio, sqrtRatio, mul_div_assoc, mul_div_assoc]
  refine mul_le_mul_of_nonneg_left ?_ hx
  rw [div_le_div_iff₀ (by positivity) (by positivity)]
  push_cast
  have hk : (0 : ℝ) ≤ k := by positivity
  nlinarith [mul_nonneg ha.le hk, mul_nonneg hk hk, mul_nonneg (mul_nonneg ha.le hk) hk, mul_nonneg (mul_nonneg ha.le ha.le) hk]

theorem sqrtRatio_le {x a : ℝ} (hx : 0 ≤ x) (ha : 0 < a) {k : ℕ} (hk : 0 < k) :
    sqrtRatio x a k ≤ x / k := by
  have hk' : (0 : ℝ) < k := by exact_mod_cast hk
  rw [sqrtRatio, mul_div_assoc, div_eq_mul_one_div x]
  refine mul_le_mul_of_nonneg_left ?_ hx
  rw [div_le_div_iff₀ (by positivity) hk']
  push_cast
  nlinarith [mul_nonneg ha.le hk'.le]

/-- Geometric decay from an index at which the ratio is at most `q`. -/
theorem sqrtTerm_decay {x a q : ℝ} (hx : 0 ≤ x) (ha : 0 < a) {n : ℕ} (h : sqrtRatio x a n ≤ q) (j : ℕ) :
    sqrtTerm x a (a + 1 / 2) (n + j) ≤ sqrtTerm x a (a + 1 / 2) n * q ^ j := by
  have hq : 0 ≤ q := (sqrtRatio_nonneg hx ha n).trans h
  induction j with
  | zero => simp
  | succ j ih =>
    rw [← add_assoc, sqrtTerm_next x ha, pow_succ, ← mul_assoc]
    exact mul_le_mul ih ((sqrtRatio_antitone hx ha (Nat.le_add_right n j)).trans h)
      (sqrtRatio_nonneg hx ha _) (mul_nonneg (sqrtTerm_nonneg hx ha n) (pow_nonneg hq j))

theorem sqrtTerm_summable {x a : ℝ} (hx : 0 ≤ x) (ha : 0 < a) :
    Summable (sqrtTerm x a (a + 1 / 2)) := by
  obtain ⟨n, hn⟩ := exists_nat_ge (2 * x)
  have hr : sqrtRatio x a (n + 1) ≤ 1 / 2 := by
    refine (sqrtRatio_le hx ha n.succ_pos).trans ?_
    rw [div_le_div_iff₀ (by positivity) (by norm_num)]
    push_cast; linarith
  rw [← summable_nat_add_iff (n + 1)]
  refine Summable.of_nonneg_of_le (fun j => sqrtTerm_nonneg hx ha _)
    (fun j => ?_) ((summable_geometric_of_lt_one (r := (1 / 2 : ℝ)) (by norm_num) (by norm_num)).mul_left
      (sqrtTerm x a (a + 1 / 2) (n + 1)))
  rw [add_comm j]
  exact sqrtTerm_decay hx ha hr j

theorem sqrtTerm_tail {x a q : ℝ} (hx : 0 ≤ x) (ha : 0 < a) {n : ℕ} (h : sqrtRatio x a n ≤ q) (hq : q < 1) :
    ∑' k, sqrtTerm x a (a + 1 / 2) k ≤ ∑ i ∈ Finset.range (n + 1), sqrtTerm x a (a + 1 / 2) i
      + sqrtTerm x a (a + 1 / 2) n * (q / (1 - q)) := by
  have hq0 : 0 ≤ q := (sqrtRatio_nonneg hx ha n).trans h
  have hs := sqrtTerm_summable hx ha
  rw [← hs.sum_add_tsum_nat_add (n + 1)]
  refine add_le_add le_rfl ?_
  have hg := (hasSum_geometric_of_lt_one hq0 hq).mul_left (sqrtTerm x a (a + 1 / 2) n * q)
  have h1 := ((summable_nat_add_iff (n + 1)).2 hs).tsum_le_tsum (g := fun j => sqrtTerm x a (a + 1 / 2) n * q * q ^ j)
    (fun j => ?_) hg.summable
  · refine h1.trans (le_of_eq ?_)
    rw [hg.tsum_eq]; ring
  · have := sqrtTerm_decay hx ha h (j + 1)
    rw [show j + (n + 1) = n + (j + 1) by ring]
    refine this.trans (le_of_eq ?_)
    rw [pow_succ]; ring

theorem mixedGamma_root {x a r : ℝ} (hx : 0 ≤ x) (ha : 0 < a) (hr : 0 < r) :
    Integrable (fun v => √v) (mixedGamma x a r) ∧ ∫ v, √v ∂mixedGamma x a r
      = √(1 / r) * Real.exp (-x) * ∑' k, sqrtTerm x a (a + 1 / 2) k := by
  have h := mixedGamma_moment (q := 1 / 2) hx ha hr (by norm_num)
    (((sqrtTerm_summable hx ha).hasSum.mul_left (√(1 / r) * Real.exp (-x))).congr_fun fun k => ?_)
  · simpa only [← Real.sqrt_eq_rpow] using h
  · rw [← Real.sqrt_eq_rpow, sqrtTerm, show a + 1 / 2 + (k : ℝ) = a + k + 1 / 2 by ring]
    ring

/-- Where the loop stops. -/
theorem sqrtMeanLoop_stop (tol x a b : ℝ) (ha : 0 < a) (hb : 0 < b) (fuel k : ℕ) (hk : k ≤ 2000)
    (hf : 2000 < k + fuel) :
    ∃ n, k + 1 ≤ n ∧ sqrtMeanLoop tol x a b fuel k (sqrtTerm x a b k)
        (∑ i ∈ Finset.range (k + 1), sqrtTerm x a b i) = ∑ i ∈ Finset.range (n + 1), sqrtTerm x a b i
      ∧ (|sqrtTerm x a b n| ≤ tol * |∑ i ∈ Finset.range (n + 1), sqrtTerm x a b i| ∨ 2000 < n)
      ∧ ∀ j, k + 1 ≤ j → j < n → ¬ |sqrtTerm x a b j| ≤ tol * |∑ i ∈ Finset.range (j + 1), sqrtTerm x a b i|
        ∧ j ≤ 2000 := by
  induction fuel generalizing k with
  | zero => omega
  | succ fuel ih =>
    rw [sqrtMeanLoop]
    simp only [sqrtTerm_succ x a b ha hb k, ← Finset.sum_range_succ]
    by_cases h : |sqrtTerm x a b (k + 1)| ≤
        tol * |∑ i ∈ Finset.range (k + 1 + 1), sqrtTerm x a b i| ∨ 2000 < k + 1
    · rw [if_pos h]
      exact ⟨k + 1, le_rfl, rfl, h, fun j h1 h2 => by omega⟩
    · rw [if_neg h]
      push Not at h
      obtain ⟨n, h1, h2, h3, h4⟩ := ih (k + 1) h.2 (by omega)
      refine ⟨n, by omega, h2, h3, fun j hj1 hj2 => ?_⟩
      rcases Nat.lt_or_ge j (k + 1 + 1) with hj | hj
      · have : j = k + 1 := by omega
        subst this
        exact ⟨not_le.2 h.1, h.2⟩
      · exact h4 j hj hj2

/-- Half an unfold: the number of terms and the size of the last one. -/
theorem sqrtMeanLoop_bound {tol x a : ℝ} (hx : 0 ≤ x) (hx2 : x ≤ 250) (ha : 0 < a)
    (ht : 1 / 10 ^ 14 ≤ tol) :
    ∃ n, 1 ≤ n ∧ n ≤ 647 ∧ sqrtMeanLoop tol x a (a + 1 / 2) 2001 0 (sqrtTerm x a (a + 1 / 2) 0)
        (sqrtTerm x a (a + 1 / 2) 0) = ∑ i ∈ Finset.range (n + 1), sqrtTerm x a (a + 1 / 2) i
      ∧ sqrtTerm x a (a + 1 / 2) n ≤ tol * ∑ i ∈ Finset.range (n + 1), sqrtTerm x a (a + 1 / 2) i
      ∧ ∀ j, 1 ≤ j → j < n → tol * ∑ i ∈ Finset.range (j + 1), sqrtTerm x a (a + 1 / 2) i
          < sqrtTerm x a (a + 1 / 2) j := by
  obtain ⟨n, h1, h2, h3, h4⟩ := sqrtMeanLoop_stop tol x a (a + 1 / 2) ha (by linarith) 2001 0
    (by norm_num) (by norm_num)
  rw [zero_add, Finset.sum_range_one] at h2
  have hT := sqrtTerm_nonneg hx ha
  have hS : ∀ m, 0 ≤ ∑ i ∈ Finset.range m, sqrtTerm x a (a + 1 / 2) i := fun m =>
    Finset.sum_nonneg fun i _ => hT i
  simp only [abs_of_nonneg (hT _), abs_of_nonneg (hS _)] at h3 h4
  have hq : sqrtRatio x a 600 ≤ 1 / 2 := by
    refine (sqrtRatio_le hx ha (by norm_num)).trans ?_
    push_cast; linarith
  have hd := sqrtTerm_decay hx ha hq 47
  have hle : sqrtTerm x a (a + 1 / 2) 600 ≤ ∑ i ∈ Finset.range (647 + 1), sqrtTerm x a (a + 1 / 2) i :=
    Finset.single_le_sum (f := fun i => sqrtTerm x a (a + 1 / 2) i) (fun i _ => hT i)
      (Finset.mem_range.2 (by norm_num))
  have hstop : sqrtTerm x a (a + 1 / 2) 647
      ≤ tol * ∑ i ∈ Finset.range (647 + 1), sqrtTerm x a (a + 1 / 2) i := by
    refine hd.trans ?_
    rw [mul_comm]
    refine mul_le_mul (le_trans (by norm_num) ht) hle (hT _) (le_trans (by norm_num) ht)
  have hn : n ≤ 647 := by
    by_contra h
    exact (h4 647 (by norm_num) (by omega)).1 hstop
  exact ⟨n, h1, hn, h2, h3.resolve_right (by omega), fun j hj1 hj2 => not_le.1 (h4 j hj1 hj2).1⟩

/-- The partial sum at the stop is the whole series up to a hundred times the tolerance. -/
theorem sqrtSum_accuracy {tol x a : ℝ} (hx : 0 ≤ x) (ha : 0 < a) (ht : tol ≤ 1 / 10 ^ 5) {n : ℕ}
    (hn : n ≤ 647)
    (h : sqrtTerm x a (a + 1 / 2) n ≤ tol * ∑ i ∈ Finset.range (n + 1), sqrtTerm x a (a + 1 / 2) i) :
    ∑' k, sqrtTerm x a (a + 1 / 2) k
      ≤ (∑ i ∈ Finset.range (n + 1), sqrtTerm x a (a + 1 / 2) i) * (1 + 100 * tol) := by
  have hT := sqrtTerm_nonneg hx ha
  have hS : 0 ≤ ∑ i ∈ Finset.range (n + 1), sqrtTerm x a (a + 1 / 2) i :=
    Finset.sum_nonneg fun i _ => hT i
  have hr : sqrtRatio x a n ≤ 99 / 100 := by
    by_contra hc
    push Not at hc
    -- all earlier terms are bounded by the last one
    have hback : ∀ j, j ≤ n → sqrtTerm x a (a + 1 / 2) (n - j) ≤ sqrtTerm x a (a + 1 / 2) n * (100 / 99) ^ j := by
      intro j
      induction j with
      | zero => simp
      | succ j ih =>
        intro hj
        have h1 := ih (by omega)
        have e : n - j = n - (j + 1) + 1 := by omega
        rw [e, sqrtTerm_next x ha] at h1
        have h2 : 99 / 100 ≤ sqrtRatio x a (n - (j + 1)) :=
          hc.le.trans (sqrtRatio_antitone hx ha (Nat.sub_le _ _))
        have h3 := mul_le_mul_of_nonneg_left h2 (hT (n - (j + 1)))
        rw [pow_succ]
        linarith
    have hx0 : 0 < x := by
      rcases hx.lt_or_eq with h | h
      · exact h
      · rw [← h, sqrtRatio, zero_mul, zero_div] at hc; norm_num at hc
    have hpos : 0 < sqrtTerm x a (a + 1 / 2) n := by
      have h2 : 0 < Real.Gamma (a + n) := Real.Gamma_pos_of_pos (by positivity)
      have h3 : 0 < Real.Gamma (a + 1 / 2 + n) := Real.Gamma_pos_of_pos (by positivity)
      rw [sqrtTerm]; positivity
    have hsum : ∑ i ∈ Finset.range (n + 1), sqrtTerm x a (a + 1 / 2) i
        ≤ sqrtTerm x a (a + 1 / 2) n * ∑ i ∈ Finset.range (647 + 1), (100 / 99 : ℝ) ^ i := by
      rw [← Finset.sum_range_reflect, Finset.mul_sum]
      refine le_trans (Finset.sum_le_sum (g := fun j => sqrtTerm x a (a + 1 / 2) n * (100 / 99) ^ j)
        fun j hj => ?_) (Finset.sum_le_sum_of_subset_of_nonneg ?_ fun _ _ _ => by positivity)
      · have := Finset.mem_range.1 hj
        have e : n + 1 - 1 - j = n - j := by omega
        rw [e]; exact hback j (by omega)
      · intro j hj
        rw [Finset.mem_range] at hj ⊢; omega
    have hgeo : ∑ i ∈ Finset.range (647 + 1), (100 / 99 : ℝ) ^ i ≤ 70000 := by
      have e : (100 / 99 : ℝ) ^ 648 = ((100 / 99) ^ 72) ^ 9 := by rw [← pow_mul]
      have h1 : (100 / 99 : ℝ) ^ 72 ≤ 2065 / 1000 := by norm_num
      have h2 : (100 / 99 : ℝ) ^ 648 ≤ (2065 / 1000) ^ 9 := by
        rw [e]; exact pow_le_pow_left₀ (by positivity) h1 9
      have h3 : (2065 / 1000 : ℝ) ^ 9 ≤ 700 := by norm_num
      rw [geom_sum_eq (by norm_num), div_le_iff₀ (by norm_num),
        show 647 + 1 = 648 by norm_num]
      have h4 := h2.trans h3
      clear e h1 h2 h3
      generalize (100 / 99 : ℝ) ^ 648 = y at *
      linarith
    have h0 : 0 ≤ ∑ i ∈ Finset.range (n + 1), sqrtTerm x a (a + 1 / 2) i := hS
    have h1 := h.trans (mul_le_mul_of_nonneg_right ht h0)
    have h2 := hsum.trans (mul_le_mul_of_nonneg_left hgeo hpos.le)
    linarith
  have := sqrtTerm_tail hx ha hr (by norm_num)
  refine this.trans ?_
  rw [show (99 / 100 : ℝ) / (1 - 99 / 100) = 99 by norm_num,
    show ∀ S : ℝ, S * (1 + 100 * tol) = S + 100 * (tol * S) from fun S => by ring]
  linarith [hT n]

/-! ## Bounds on the root mean from the moments -/

theorem root_upper {m v : ℝ} (hm : 0 < m) (hv : 0 ≤ v) : √v ≤ √m * (1 + (v - m) / (2 * m)) := by
  obtain ⟨s, hs, rfl⟩ : ∃ s : ℝ, 0 < s ∧ m = s ^ 2 := ⟨√m, Real.sqrt_pos.2 hm, (Real.sq_sqrt hm.le).symm⟩
  obtain ⟨w, hw, rfl⟩ : ∃ w : ℝ, 0 ≤ w ∧ v = w ^ 2 := ⟨√v, Real.sqrt_nonneg v, (Real.sq_sqrt hv).symm⟩
  rw [Real.sqrt_sq hw, Real.sqrt_sq hs.le,
    show s * (1 + (w ^ 2 - s ^ 2) / (2 * s ^ 2)) = w + (w - s) ^ 2 / (2 * s) by field_simp; ring]
  have : 0 ≤ (w - s) ^ 2 / (2 * s) := by positivity
  linarith

theorem root_lower {m v : ℝ} (hm : 0 < m) (hv : 0 ≤ v) :
    √m * (1 + (v - m) / (2 * m) - (v - m) ^ 2 / (2 * m ^ 2)) ≤ √v := by
  obtain ⟨s, hs, rfl⟩ : ∃ s : ℝ, 0 < s ∧ m = s ^ 2 := ⟨√m, Real.sqrt_pos.2 hm, (Real.sq_sqrt hm.le).symm⟩
  obtain ⟨w, hw, rfl⟩ : ∃ w : ℝ, 0 ≤ w ∧ v = w ^ 2 := ⟨√v, Real.sqrt_nonneg v, (Real.sq_sqrt hv).symm⟩
  rw [Real.sqrt_sq hw, Real.sqrt_sq hs.le,
    show s * (1 + (w ^ 2 - s ^ 2) / (2 * s ^ 2) - (w ^ 2 - s ^ 2) ^ 2 / (2 * (s ^ 2) ^ 2))
      = w - (w - s) ^ 2 * (w ^ 2 + 2 * w * s) / (2 * s ^ 3) by field_simp; ring]
  have : 0 ≤ (w - s) ^ 2 * (w ^ 2 + 2 * w * s) / (2 * s ^ 3) := by positivity
  linarith

theorem root_upper_three {m v : ℝ} (hm : 0 < m) (hv : 0 ≤ v) :
    √v ≤ √m * (1 + (v - m) / (2 * m) - (v - m) ^ 2 / (8 * m ^ 2) + (v - m) ^ 3 / (16 * m ^ 3)) := by
  obtain ⟨s, hs, rfl⟩ : ∃ s : ℝ, 0 < s ∧ m = s ^ 2 := ⟨√m, Real.sqrt_pos.2 hm, (Real.sq_sqrt hm.le).symm⟩
  obtain ⟨w, hw, rfl⟩ : ∃ w : ℝ, 0 ≤ w ∧ v = w ^ 2 := ⟨√v, Real.sqrt_nonneg v, (Real.sq_sqrt hv).symm⟩
  rw [Real.sqrt_sq hw, Real.sqrt_sq hs.le,
    show s * (1 + (w ^ 2 - s ^ 2) / (2 * s ^ 2) - (w ^ 2 - s ^ 2) ^ 2 / (8 * (s ^ 2) ^ 2)
        + (w ^ 2 - s ^ 2) ^ 3 / (16 * (s ^ 2) ^ 3))
      = w + (w - s) ^ 4 * (w ^ 2 + 4 * w * s + 5 * s ^ 2) / (16 * s ^ 5) by field_simp; ring]
  have : 0 ≤ (w - s) ^ 4 * (w ^ 2 + 4 * w * s + 5 * s ^ 2) / (16 * s ^ 5) := by positivity
  linarith

/-- The central moments of the mixture. -/
theorem mixedGamma_central {x a r : ℝ} (hx : 0 ≤ x) (ha : 0 < a) (hr : 0 < r) :
    (Integrable (fun v => (v - (a + x) / r) ^ 2) (mixedGamma x a r)
      ∧ ∫ v, (v - (a + x) / r) ^ 2 ∂mixedGamma x a r = (a + 2 * x) / r ^ 2)
    ∧ Integrable (fun v => (v - (a + x) / r) ^ 3) (mixedGamma x a r)
      ∧ ∫ v, (v - (a + x) / r) ^ 3 ∂mixedGamma x a r = (2 * a + 6 * x) / r ^ 3 := by
  have := mixedGamma_mass hx ha hr
  obtain ⟨i1, e1⟩ := mixedGamma_first hx ha hr
  obtain ⟨i2, e2⟩ := mixedGamma_second hx ha hr
  obtain ⟨i3, e3⟩ := mixedGamma_third hx ha hr
  set c := (a + x) / r with hc
  have s2 : (fun v : ℝ => (v - c) ^ 2) = fun v => v ^ 2 - 2 * c * v + c ^ 2 := by funext v; ring
  have s3 : (fun v : ℝ => (v - c) ^ 3) = fun v => v ^ 3 - 3 * c * v ^ 2 + 3 * c ^ 2 * v - c ^ 3 := by
    funext v; ring
  rw [s2, s3]
  have j1 := i1.const_mul (2 * c)
  have j2 := i2.const_mul (3 * c)
  have j3 := i1.const_mul (3 * c ^ 2)
  have l1 : Integrable (fun v : ℝ => v ^ 2 - 2 * c * v) (mixedGamma x a r) := i2.sub j1
  have l2 : Integrable (fun v : ℝ => v ^ 3 - 3 * c * v ^ 2) (mixedGamma x a r) := i3.sub j2
  have l3 : Integrable (fun v : ℝ => v ^ 3 - 3 * c * v ^ 2 + 3 * c ^ 2 * v) (mixedGamma x a r) := l2.add j3
  refine ⟨⟨l1.add (integrable_const _), ?_⟩, l3.sub (integrable_const _), ?_⟩
  · rw [integral_add l1 (integrable_const _), integral_sub i2 j1, integral_const_mul, e1, e2,
      integral_const, probReal_univ, one_smul, hc]
    field_simp; ring
  · rw [integral_sub l3 (integrable_const _), integral_add l2 j3,
      integral_sub i3 j2, integral_const_mul, integral_const_mul, e1, e2, e3,
      integral_const, probReal_univ, one_smul, hc]
    field_simp; ring

/-- The root mean lies between the first and second order expansions, and below the third. -/
theorem mixedGamma_root_bounds {x a r : ℝ} (hx : 0 ≤ x) (ha : 0 < a) (hr : 0 < r) :
    √((a + x) / r) * (1 - (a + 2 * x) / (2 * (a + x) ^ 2)) ≤ ∫ v, √v ∂mixedGamma x a r
    ∧ ∫ v, √v ∂mixedGamma x a r ≤ √((a + x) / r)
    ∧ ∫ v, √v ∂mixedGamma x a r
      ≤ √((a + x) / r) * (1 - (a + 2 * x) / (8 * (a + x) ^ 2) + (2 * a + 6 * x) / (16 * (a + x) ^ 3)) := by
  have := mixedGamma_mass hx ha hr
  obtain ⟨i1, e1⟩ := mixedGamma_first hx ha hr
  obtain ⟨⟨i2, e2⟩, i3, e3⟩ := mixedGamma_central hx ha hr
  have ir := (mixedGamma_root hx ha hr).1
  have hm : 0 < (a + x) / r := by positivity
  have hax : 0 < a + x := by positivity
  have hp := mixedGamma_pos x a r
  set μ := mixedGamma x a r
  set c := (a + x) / r with hc
  have ic : Integrable (fun v => v - c) μ := i1.sub (integrable_const _)
  have ec : ∫ v, (v - c) ∂μ = 0 := by
    rw [integral_sub i1 (integrable_const _), e1, integral_const, probReal_univ, one_smul, sub_self]
  have k1 : Integrable (fun v => 1 + (v - c) / (2 * c)) μ := (integrable_const 1).add (ic.div_const _)
  have f1 : ∫ v, (1 + (v - c) / (2 * c)) ∂μ = 1 := by
    rw [integral_add (integrable_const 1) (ic.div_const _), integral_div, ec, integral_const,
      probReal_univ, one_smul]; simp
  have k2 : Integrable (fun v => 1 + (v - c) / (2 * c) - (v - c) ^ 2 / (2 * c ^ 2)) μ :=
    k1.sub (i2.div_const _)
  have k3 : Integrable (fun v => 1 + (v - c) / (2 * c) - (v - c) ^ 2 / (8 * c ^ 2)) μ :=
    k1.sub (i2.div_const _)
  refine ⟨?_, ?_, ?_⟩
  · have h := integral_mono_ae (k2.const_mul (√c)) ir (by
      filter_upwards [hp] with v hv using root_lower hm hv)
    refine le_trans (le_of_eq ?_) h
    rw [integral_const_mul, integral_sub k1 (i2.div_const _), f1, integral_div, e2]
    congr 2
    rw [hc]; field_simp
  · have h := integral_mono_ae ir (k1.const_mul (√c)) (by
      filter_upwards [hp] with v hv using root_upper hm hv)
    rwa [integral_const_mul, f1, mul_one] at h
  · have h := integral_mono_ae ir ((k3.add (i3.div_const (16 * c ^ 3))).const_mul (√c)) (by
      filter_upwards [hp] with v hv using root_upper_three hm hv)
    refine h.trans (le_of_eq ?_)
    rw [integral_const_mul]
    congr 1
    refine (integral_add k3 (i3.div_const _)).trans ?_
    rw [integral_sub k1 (i2.div_const _), f1, integral_div, e2, integral_div, e3]
    rw [hc]; field_simp

/-- `(2k - 1)!!`, the common denominator of the terms for `x = 250`, `a = 1/2`. -/
def oddProduct : ℕ → ℕ
  | 0 => 1
  | k + 1 => oddProduct k * (2 * k + 1)

/-- Numerator of the partial sums for `x = 250`, `a = 1/2` over `oddProduct`. -/
def seriesNum : ℕ → ℕ
  | 0 => 1
  | k + 1 => seriesNum k * (2 * k + 1) + 500 ^ (k + 1)

theorem oddProduct_pos (k : ℕ) : 0 < oddProduct k := by
  induction k with
  | zero => exact one_pos
  | succ k ih => exact Nat.mul_pos ih (by omega)

theorem sqrtTerm_250 (k : ℕ) : sqrtTerm 250 (1 / 2) (1 / 2 + 1 / 2) k
    = sqrtTerm 250 (1 / 2) (1 / 2 + 1 / 2) 0 * (500 ^ k / oddProduct k) := by
  induction k with
  | zero => simp [oddProduct]
  | succ k ih =>
    have := oddProduct_pos k
    have h : (0 : ℝ) < oddProduct k := by exact_mod_cast this
    rw [sqrtTerm_next 250 (by norm_num), ih, mul_assoc, oddProduct, sqrtRatio]
    congr 1
    push_cast
    field_simp
    ring

theorem sqrtSum_250 (n : ℕ) : ∑ i ∈ Finset.range (n + 1), sqrtTerm 250 (1 / 2) (1 / 2 + 1 / 2) i
    = sqrtTerm 250 (1 / 2) (1 / 2 + 1 / 2) 0 * (seriesNum n / oddProduct n) := by
  induction n with
  | zero => simp [oddProduct, seriesNum]
  | succ n ih =>
    have := oddProduct_pos n
    have h : (0 : ℝ) < oddProduct n := by exact_mod_cast this
    rw [Finset.sum_range_succ, ih, sqrtTerm_250 (n + 1), ← mul_add, oddProduct, seriesNum]
    congr 1
    push_cast
    field_simp

theorem series_stop : 500 ^ 379 * 10 ^ 14 ≤ seriesNum 379 := by decide +kernel

theorem series_gap : seriesNum 379 * 10 ^ 14 * oddProduct 450
    < 99999999999999 * seriesNum 450 * oddProduct 379 := by decide +kernel

/-- Tilting a gamma law by `exp(-λv)` gives a gamma law again. -/
theorem gamma_tilt {a r l : ℝ} (hr : 0 < r) (hl : 0 ≤ l) :
    (gammaMeasure a r).withDensity (fun v => ENNReal.ofReal (Real.exp (-(l * v))))
      = ENNReal.ofReal ((r / (r + l)) ^ a) • gammaMeasure a (r + l) := by
  rw [gammaMeasure, gammaMeasure, ← withDensity_mul _ (measurable_gammaPDF' a r) (by fun_prop),
    ← withDensity_smul _ (measurable_gammaPDF' a (r + l))]
  congr 1
  funext v
  simp only [Pi.mul_apply, Pi.smul_apply, smul_eq_mul]
  rcases lt_or_ge v 0 with hv | hv
  · rw [gammaPDF_of_neg hv, gammaPDF_of_neg hv, zero_mul, mul_zero]
  · rw [gammaPDF_of_nonneg hv, gammaPDF_of_nonneg hv, ← ENNReal.ofReal_mul' (Real.exp_pos _).le,
      ← ENNReal.ofReal_mul (by positivity)]
    congr 1
    rw [Real.div_rpow hr.le (by positivity), show -((r + l) * v) = -(r * v) + -(l * v) by ring, Real.exp_add]
    have : (0 : ℝ) < (r + l) ^ a := Real.rpow_pos_of_pos (by positivity) a
    field_simp

theorem smul_measure_sum (c : ENNReal) (m : ℕ → Measure ℝ) :
    c • Measure.sum m = Measure.sum fun k => c • m k := by
  ext s hs
  rw [Measure.smul_apply, Measure.sum_apply _ hs, Measure.sum_apply _ hs, smul_eq_mul, ← ENNReal.tsum_mul_left]
  rfl

theorem mixedGamma_tilt {x a r l : ℝ} (hx : 0 ≤ x) (hr : 0 < r) (hl : 0 ≤ l) :
    (mixedGamma x a r).withDensity (fun v => ENNReal.ofReal (Real.exp (-(l * v))))
      = ENNReal.ofReal ((r / (r + l)) ^ a * Real.exp (-(x * l / (r + l))))
        • mixedGamma (x * (r / (r + l))) a (r + l) := by
  rw [mixedGamma, mixedGamma, withDensity_sum, smul_measure_sum]
  congr 1
  funext k
  have hρ : 0 < r / (r + l) := by positivity
  rw [withDensity_smul_measure, gamma_tilt hr hl, smul_smul, smul_smul,
    ← ENNReal.ofReal_mul (by positivity), ← ENNReal.ofReal_mul (by positivity)]
  congr 2
  rw [Real.rpow_add hρ, Real.rpow_natCast, mul_pow,
    show -x = -(x * l / (r + l)) + -(x * (r / (r + l))) by field_simp; ring, Real.exp_add]
  ring

theorem mixedGamma_tilt_integral {x a r l : ℝ} (hx : 0 ≤ x) (hr : 0 < r) (hl : 0 ≤ l) (f : ℝ → ℝ) :
    ∫ v, f v * Real.exp (-(l * v)) ∂mixedGamma x a r
      = (r / (r + l)) ^ a * Real.exp (-(x * l / (r + l)))
        * ∫ v, f v ∂mixedGamma (x * (r / (r + l))) a (r + l) := by
  have hρ : 0 < r / (r + l) := by positivity
  have h := congrArg (fun μ : Measure ℝ => ∫ v, f v ∂μ) (mixedGamma_tilt (a := a) hx hr hl)
  simp only [integral_smul_measure] at h
  rw [integral_withDensity_eq_integral_toReal_smul₀ (by fun_prop) (by simp),
    ENNReal.toReal_ofReal (by positivity)] at h
  rw [smul_eq_mul] at h
  rw [← h]
  refine integral_congr_ae (.of_forall fun v => ?_)
  simp only [smul_eq_mul]
  rw [ENNReal.toReal_ofReal (Real.exp_pos _).le, mul_comm]

theorem mixedGamma_laplace {x a r l : ℝ} (hx : 0 ≤ x) (ha : 0 < a) (hr : 0 < r) (hl : 0 ≤ l) :
    ∫ v, Real.exp (-(l * v)) ∂mixedGamma x a r = (r / (r + l)) ^ a * Real.exp (-(x * l / (r + l)))
    ∧ ∫ v, v * Real.exp (-(l * v)) ∂mixedGamma x a r
      = (r / (r + l)) ^ a * Real.exp (-(x * l / (r + l))) * ((a + x * (r / (r + l))) / (r + l)) := by
  have hρ : 0 < r / (r + l) := by positivity
  have hx' : 0 ≤ x * (r / (r + l)) := by positivity
  have hr' : 0 < r + l := by positivity
  have := mixedGamma_mass hx' ha hr'
  constructor
  · have h := mixedGamma_tilt_integral (a := a) hx hr hl (fun _ => 1)
    simpa using h
  · rw [mixedGamma_tilt_integral hx hr hl (fun v => v), (mixedGamma_first hx' ha hr').2]

end Verif
