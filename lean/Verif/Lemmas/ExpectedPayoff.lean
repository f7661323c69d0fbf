import Verif.Spec.ExpectedPayoff
import Verif.Lemmas.Normal
import Verif.Lemmas.GaussVec
import Mathlib.MeasureTheory.Integral.IntegralEqImproper
import Mathlib.Tactic.FieldSimp

/-!
# Expected payoffs: lemmas
-/

namespace Verif

open MeasureTheory ProbabilityTheory Set Filter Topology

theorem gaussianPDFReal_std (z : ℝ) : gaussianPDFReal 0 1 z = normPdf z := by
  rw [gaussianPDFReal, normPdf]
  simp only [NNReal.coe_one, mul_one, sub_zero]
  exact (div_eq_inv_mul _ _).symm

theorem meanOverDraw_eq (g : ℝ → ℝ) : meanOverDraw g = ∫ z, normPdf z * g z := by
  rw [meanOverDraw, integral_gaussianReal_eq_integral_smul one_ne_zero]
  simp only [gaussianPDFReal_std, smul_eq_mul]

theorem integrable_draw_iff (g : ℝ → ℝ) :
    Integrable g (gaussianReal 0 1) ↔ Integrable (fun z => normPdf z * g z) := by
  rw [gaussianReal_of_var_ne_zero 0 one_ne_zero,
    integrable_withDensity_iff_integrable_smul' (measurable_gaussianPDF 0 1)
      (ae_of_all _ fun _ => gaussianPDF_lt_top)]
  simp only [toReal_gaussianPDF, gaussianPDFReal_std, smul_eq_mul]

theorem normPdf_tilt (s z : ℝ) : normPdf z * Real.exp (s * z - s ^ 2 / 2) = normPdf (z - s) := by
  rw [normPdf, normPdf, div_mul_eq_mul_div, ← Real.exp_add]
  congr 2
  ring

theorem tail_shift (s a : ℝ) :
    ∫ z in Ioi a, normPdf z * Real.exp (s * z - s ^ 2 / 2) = normCdf (s - a) := by
  simp only [normPdf_tilt]
  have e : ∀ z, (Ioi a).indicator (fun z => normPdf (z - s)) z
      = (Ioi (a - s)).indicator normPdf (z - s) := by
    intro z
    by_cases h : a < z
    · rw [indicator_of_mem (by exact h), indicator_of_mem (by simp only [mem_Ioi]; linarith)]
    · rw [indicator_of_notMem (by exact h), indicator_of_notMem (by simp only [mem_Ioi]; linarith)]
  rw [← integral_indicator measurableSet_Ioi]
  simp only [e]
  rw [integral_sub_right_eq_self (fun z => (Ioi (a - s)).indicator normPdf z) s,
    integral_indicator measurableSet_Ioi, normCdf_compl, ← normCdf_neg, neg_sub]

theorem tail_mass (a : ℝ) : ∫ z in Ioi a, normPdf z = normCdf (-a) := by
  rw [normCdf_compl, normCdf_neg]

theorem tendsto_normPdf_atTop : Tendsto normPdf atTop (𝓝 0) := by
  have h : Tendsto (fun x : ℝ => -(x ^ 2) / 2) atTop atBot := by
    have : Tendsto (fun x : ℝ => x ^ 2 / 2) atTop atTop :=
      (tendsto_pow_atTop two_ne_zero).atTop_div_const (by norm_num)
    refine (tendsto_neg_atTop_atBot.comp this).congr fun x => ?_
    rw [Function.comp_apply, neg_div]
  have := (Real.tendsto_exp_atBot.comp h).div_const √(2 * Real.pi)
  rw [zero_div] at this
  exact this

theorem integrable_id_normPdf : Integrable (fun z => normPdf z * z) :=
  (integrable_draw_iff _).1 gauss_integrable

theorem tail_first (a : ℝ) : ∫ z in Ioi a, normPdf z * z = normPdf a := by
  have h := integral_Ioi_of_hasDerivAt_of_tendsto' (f := fun z => -normPdf z)
    (f' := fun z => normPdf z * z) (a := a) (m := 0)
    (fun x _ => ((hasDerivAt_normPdf x).neg).congr_deriv (by ring))
    integrable_id_normPdf.integrableOn (by simpa using tendsto_normPdf_atTop.neg)
  rw [h]; ring

/-- A call on a level that grows with the draw: the payoff is the level less the strike beyond the
draw `a` at which it reaches the strike. -/
theorem mean_call (X : ℝ → ℝ) (K a : ℝ) (hlo : ∀ z, z ≤ a → X z ≤ K) (hhi : ∀ z, a < z → K ≤ X z)
    (hX : Integrable X (gaussianReal 0 1)) :
    meanOverDraw (fun z => vanillaPayoff true K (X z))
      = (∫ z in Ioi a, normPdf z * X z) - K * normCdf (-a) := by
  have e : ∀ z, normPdf z * vanillaPayoff true K (X z)
      = (Ioi a).indicator (fun z => normPdf z * X z - K * normPdf z) z := by
    intro z
    rw [vanillaPayoff, if_pos rfl]
    by_cases h : a < z
    · rw [indicator_of_mem (by exact h), max_eq_left (by linarith [hhi z h])]; ring
    · rw [indicator_of_notMem (by exact h), max_eq_right (by linarith [hlo z (not_lt.1 h)]), mul_zero]
  rw [meanOverDraw_eq]
  simp only [e]
  rw [integral_indicator measurableSet_Ioi, integral_sub ((integrable_draw_iff _).1 hX).integrableOn
    (integrable_normPdf.const_mul K).integrableOn, integral_const_mul, tail_mass]

theorem payoff_parity (K x : ℝ) : vanillaPayoff false K x = vanillaPayoff true K x - x + K := by
  rw [vanillaPayoff, vanillaPayoff, if_pos rfl, if_neg (by decide)]
  rcases le_total x K with h | h
  · rw [max_eq_left (by linarith), max_eq_right (by linarith)]; ring
  · rw [max_eq_right (by linarith), max_eq_left (by linarith)]; ring

theorem payoff_integrable (isCall : Bool) (K : ℝ) {X : ℝ → ℝ} (hX : Integrable X (gaussianReal 0 1)) :
    Integrable (fun z => vanillaPayoff isCall K (X z)) (gaussianReal 0 1) := by
  have h : Integrable (fun z => vanillaPayoff true K (X z)) (gaussianReal 0 1) := by
    simp only [vanillaPayoff, if_true]
    exact (hX.sub (integrable_const K)).pos_part
  cases isCall with
  | true => exact h
  | false =>
    simp only [payoff_parity]
    exact (h.sub hX).add (integrable_const K)

theorem mean_put (X : ℝ → ℝ) (K : ℝ) (hX : Integrable X (gaussianReal 0 1)) :
    meanOverDraw (fun z => vanillaPayoff false K (X z))
      = meanOverDraw (fun z => vanillaPayoff true K (X z)) - meanOverDraw X + K := by
  have h := payoff_integrable true K hX
  rw [meanOverDraw, meanOverDraw, meanOverDraw]
  simp only [payoff_parity]
  have e1 : ∫ z, (vanillaPayoff true K (X z) - X z + K) ∂gaussianReal 0 1
      = (∫ z, (vanillaPayoff true K (X z) - X z) ∂gaussianReal 0 1) + ∫ _, K ∂gaussianReal 0 1 :=
    integral_add (h.sub hX) (integrable_const K)
  rw [e1, integral_sub h hX]
  simp

theorem lognormal_integrable (F v : ℝ) : Integrable (lognormalLevel F v) (gaussianReal 0 1) := by
  have e : lognormalLevel F v = fun z => F * Real.exp (-(v / 2)) * Real.exp (√v * z) := by
    funext z; rw [lognormalLevel, sub_eq_neg_add, Real.exp_add]; ring
  rw [e]
  exact (gauss_exp_integrable _).const_mul _

theorem lognormal_mean (F : ℝ) {v : ℝ} (hv : 0 ≤ v) : meanOverDraw (lognormalLevel F v) = F := by
  have e : lognormalLevel F v = fun z => F * Real.exp (-(v / 2)) * Real.exp (√v * z) := by
    funext z; rw [lognormalLevel, sub_eq_neg_add, Real.exp_add]; ring
  rw [e, meanOverDraw, integral_const_mul, gauss_exp, Real.sq_sqrt hv, mul_assoc, ← Real.exp_add]
  simp

theorem normal_integrable (F v : ℝ) : Integrable (normalLevel F v) (gaussianReal 0 1) :=
  (integrable_const F).add (gauss_integrable.const_mul _)

theorem normal_mean (F v : ℝ) : meanOverDraw (normalLevel F v) = F := by
  rw [meanOverDraw]
  simp only [normalLevel]
  rw [integral_add (integrable_const F) (gauss_integrable.const_mul _), integral_const_mul, gauss_mean]
  simp

theorem lognormal_call {F K v : ℝ} (hF : 0 < F) (hK : 0 < K) (hv : 0 < v) :
    meanOverDraw (fun z => vanillaPayoff true K (lognormalLevel F v z))
      = F * normCdf ((Real.log (F / K) + 1 / 2 * v) / √v)
        - K * normCdf ((Real.log (F / K) + 1 / 2 * v) / √v - √v) := by
  have hs : 0 < √v := Real.sqrt_pos.2 hv
  have hq : √v ^ 2 = v := Real.sq_sqrt hv.le
  set d1 := (Real.log (F / K) + 1 / 2 * v) / √v with hd
  have hd1 : √v * d1 = Real.log F - Real.log K + v / 2 := by
    rw [hd, mul_div_cancel₀ _ hs.ne', Real.log_div hF.ne' hK.ne']; ring
  have lv : ∀ z, lognormalLevel F v z = K * Real.exp (√v * (z - (√v - d1))) := by
    intro z
    have : √v * z - v / 2 = (Real.log K - Real.log F) + √v * (z - (√v - d1)) := by
      have : √v * (z - (√v - d1)) = √v * z - √v ^ 2 + √v * d1 := by ring
      rw [this, hd1, hq]; ring
    rw [lognormalLevel, this, Real.exp_add, Real.exp_sub, Real.exp_log hK, Real.exp_log hF]
    field_simp
  rw [mean_call (lognormalLevel F v) K (√v - d1) ?_ ?_ (lognormal_integrable F v)]
  · have e : ∀ z, normPdf z * lognormalLevel F v z = F * (normPdf z * Real.exp (√v * z - √v ^ 2 / 2)) := by
      intro z; rw [lognormalLevel, hq]; ring
    simp only [e]
    rw [integral_const_mul, tail_shift, sub_sub_cancel, neg_sub]
  · intro z hz
    rw [lv]
    have : Real.exp (√v * (z - (√v - d1))) ≤ 1 :=
      Real.exp_le_one_iff.2 (mul_nonpos_of_nonneg_of_nonpos hs.le (by linarith))
    nlinarith
  · intro z hz
    rw [lv]
    have : 1 ≤ Real.exp (√v * (z - (√v - d1))) := Real.one_le_exp (mul_nonneg hs.le (by linarith))
    nlinarith

theorem normal_call (F K : ℝ) {v : ℝ} (hv : 0 < v) :
    meanOverDraw (fun z => vanillaPayoff true K (normalLevel F v z))
      = √v * normPdf ((F - K) / √v) + (F - K) * normCdf ((F - K) / √v) := by
  have hs : 0 < √v := Real.sqrt_pos.2 hv
  set d := (F - K) / √v with hd
  have hd1 : √v * d = F - K := by rw [hd, mul_div_cancel₀ _ hs.ne']
  rw [mean_call (normalLevel F v) K (-d) ?_ ?_ (normal_integrable F v)]
  · have e : ∀ z, normPdf z * normalLevel F v z = F * normPdf z + √v * (normPdf z * z) := by
      intro z; rw [normalLevel]; ring
    simp only [e]
    rw [integral_add (integrable_normPdf.const_mul F).integrableOn
      (integrable_id_normPdf.const_mul _).integrableOn, integral_const_mul, integral_const_mul, tail_first,
      tail_mass, normPdf_neg, neg_neg]
    ring
  · intro z hz
    rw [normalLevel]
    have := mul_le_mul_of_nonneg_left hz hs.le
    linarith
  · intro z hz
    rw [normalLevel]
    have := mul_le_mul_of_nonneg_left hz.le hs.le
    linarith

theorem normalLevel_law (a : ℝ) {v : ℝ} (hv : 0 ≤ v) :
    (gaussianReal 0 1).map (normalLevel a v) = gaussianReal a v.toNNReal := by
  have h1 : (gaussianReal 0 1).map (fun z => √v * z) = gaussianReal 0 v.toNNReal := by
    have e : (NNReal.mk (√v ^ 2) (sq_nonneg _) * 1 : NNReal) = v.toNNReal := by
      rw [mul_one]; exact NNReal.eq ((Real.sq_sqrt hv).trans (Real.coe_toNNReal v hv).symm)
    have h := gaussianReal_map_const_mul (μ := 0) (v := 1) √v
    rw [e, mul_zero] at h
    exact h
  have h2 := gaussianReal_map_const_add (μ := 0) (v := v.toNNReal) a
  rw [← h1, Measure.map_map (by fun_prop) (by fun_prop), zero_add] at h2
  exact h2

end Verif
