import Verif.Model.Normal
import Mathlib.MeasureTheory.Integral.IntervalIntegral.FundThmCalculus
import Mathlib.MeasureTheory.Integral.IntervalIntegral.IntegrationByParts
import Mathlib.Analysis.Calculus.Deriv.MeanValue
import Mathlib.Tactic.Linarith
import Mathlib.Tactic.Positivity
import Mathlib.Tactic.FieldSimp

/-!
# Facts about the standard normal distribution
-/

namespace Verif

open MeasureTheory Set Filter Topology

theorem normPdf_pos (x : ℝ) : 0 < normPdf x := by
  unfold normPdf; positivity

theorem normPdf_neg (x : ℝ) : normPdf (-x) = normPdf x := by
  unfold normPdf; rw [neg_sq]

theorem normPdf_eq (x : ℝ) : normPdf x = Real.exp (-(1 / 2) * x ^ 2) / √(2 * Real.pi) := by
  unfold normPdf; congr 2; ring

theorem continuous_normPdf : Continuous normPdf := by
  unfold normPdf; fun_prop

theorem integrable_normPdf : Integrable normPdf := by
  have := (integrable_exp_neg_mul_sq (b := 1 / 2) (by norm_num)).div_const (√(2 * Real.pi))
  exact this.congr (Filter.Eventually.of_forall fun x => (normPdf_eq x).symm)

theorem integral_normPdf : ∫ x, normPdf x = 1 := by
  simp_rw [normPdf_eq]
  rw [integral_div, integral_gaussian]
  have : Real.pi / (1 / 2) = 2 * Real.pi := by ring
  rw [this, div_self]
  positivity

theorem hasDerivAt_normPdf (x : ℝ) : HasDerivAt normPdf (-x * normPdf x) x := by
  have h1 : HasDerivAt (fun x : ℝ => -(x ^ 2) / 2) (-(2 * x) / 2) x := by
    have := ((hasDerivAt_pow 2 x).neg).div_const 2
    simpa using this
  have h2 : HasDerivAt normPdf
      (Real.exp (-(x ^ 2) / 2) * (-(2 * x) / 2) / √(2 * Real.pi)) x :=
    h1.exp.div_const (√(2 * Real.pi))
  have e : Real.exp (-(x ^ 2) / 2) * (-(2 * x) / 2) / √(2 * Real.pi) = -x * normPdf x := by
    unfold normPdf; ring
  rwa [e] at h2

theorem normCdf_sub (a b : ℝ) : normCdf b - normCdf a = ∫ t in a..b, normPdf t := by
  unfold normCdf
  exact intervalIntegral.integral_Iic_sub_Iic integrable_normPdf.integrableOn
    integrable_normPdf.integrableOn

theorem hasDerivAt_normCdf (x : ℝ) : HasDerivAt normCdf (normPdf x) x := by
  have h : HasDerivAt (fun u => ∫ t in (0 : ℝ)..u, normPdf t) (normPdf x) x :=
    intervalIntegral.integral_hasDerivAt_right (continuous_normPdf.intervalIntegrable _ _)
      (continuous_normPdf.stronglyMeasurableAtFilter _ _) continuous_normPdf.continuousAt
  have h2 := h.const_add (normCdf 0)
  refine h2.congr_of_eventuallyEq (Filter.Eventually.of_forall fun u => ?_)
  show normCdf u = normCdf 0 + ∫ t in (0 : ℝ)..u, normPdf t
  rw [← normCdf_sub]; ring

theorem continuous_normCdf : Continuous normCdf :=
  continuous_iff_continuousAt.2 fun x => (hasDerivAt_normCdf x).continuousAt

theorem strictMono_normCdf : StrictMono normCdf :=
  strictMono_of_deriv_pos fun x => by rw [(hasDerivAt_normCdf x).deriv]; exact normPdf_pos x

theorem normCdf_compl (x : ℝ) : ∫ t in Ioi x, normPdf t = 1 - normCdf x := by
  have := integral_add_compl (measurableSet_Iic (a := x)) integrable_normPdf
  rw [integral_normPdf, compl_Iic] at this
  unfold normCdf; linarith

theorem normCdf_neg (x : ℝ) : normCdf (-x) = 1 - normCdf x := by
  rw [← normCdf_compl]
  unfold normCdf
  rw [← integral_comp_neg_Ioi]
  simp_rw [normPdf_neg]

theorem normCdf_nonneg (x : ℝ) : 0 ≤ normCdf x :=
  setIntegral_nonneg measurableSet_Iic fun t _ => (normPdf_pos t).le

theorem normCdf_pos (x : ℝ) : 0 < normCdf x :=
  lt_of_le_of_lt (normCdf_nonneg (x - 1)) (strictMono_normCdf (by linarith))

theorem normCdf_lt_one (x : ℝ) : normCdf x < 1 := by
  have := normCdf_pos (-x)
  rw [normCdf_neg] at this; linarith

theorem normCdf_zero : normCdf 0 = 1 / 2 := by
  have := normCdf_neg 0
  rw [neg_zero] at this; linarith

theorem tendsto_normCdf_atTop : Tendsto normCdf atTop (𝓝 1) := by
  have := intervalIntegral_tendsto_integral_Iic (f := normPdf) (μ := volume) 0
    (a := fun x : ℝ => -x) (l := atTop) integrable_normPdf.integrableOn tendsto_neg_atTop_atBot
  have h2 : Tendsto (fun x => 1 - (normCdf 0 - ∫ t in (-x)..0, normPdf t)) atTop (𝓝 1) := by
    have h3 := (tendsto_const_nhds (x := normCdf 0)).sub this
    have h4 := (tendsto_const_nhds (x := (1 : ℝ))).sub h3
    have e : (1 : ℝ) - (normCdf 0 - ∫ t in Iic 0, normPdf t) = 1 := by
      unfold normCdf; ring
    rwa [e] at h4
  refine h2.congr fun x => ?_
  rw [← normCdf_sub, normCdf_neg]; ring

theorem tendsto_normCdf_atBot : Tendsto normCdf atBot (𝓝 0) := by
  have := (tendsto_const_nhds (x := (1 : ℝ))).sub
    (tendsto_normCdf_atTop.comp tendsto_neg_atBot_atTop)
  rw [sub_self] at this
  refine this.congr fun x => ?_
  simp only [Function.comp_apply, normCdf_neg]; ring

/-- Every probability strictly between zero and one is attained. -/
theorem exists_quantile {p : ℝ} (h0 : 0 < p) (h1 : p < 1) : ∃ x, normCdf x = p := by
  obtain ⟨a, ha⟩ := (tendsto_normCdf_atBot.eventually (gt_mem_nhds h0)).exists
  obtain ⟨b, hb⟩ := (tendsto_normCdf_atTop.eventually (lt_mem_nhds h1)).exists
  have hab : a ≤ b := by
    by_contra h
    have := strictMono_normCdf (lt_of_not_ge h); linarith
  obtain ⟨x, -, hx⟩ := intermediate_value_Icc hab continuous_normCdf.continuousOn ⟨ha.le, hb.le⟩
  exact ⟨x, hx⟩

theorem normInv_iff {p x : ℝ} : normInv p = .ok x ↔ 0 < p ∧ p < 1 ∧ normCdf x = p := by
  unfold normInv
  by_cases h : 0 < p ∧ p < 1
  · rw [if_pos h]
    have he := Classical.epsilon_spec (exists_quantile h.1 h.2)
    constructor
    · intro hx; cases hx; exact ⟨h.1, h.2, he⟩
    · rintro ⟨-, -, hx⟩
      rw [strictMono_normCdf.injective (he.trans hx.symm)]
  · rw [if_neg h]
    constructor
    · intro hx; cases hx
    · rintro ⟨h1, h2, -⟩; exact absurd ⟨h1, h2⟩ h

end Verif
