import Verif.Lemmas.Heston
import Mathlib.Analysis.SpecialFunctions.Complex.LogDeriv
import Mathlib.MeasureTheory.Integral.IntervalIntegral.FundThmCalculus

/-!
# The integral of the Heston Riccati solution

The closed form of `∫ C` takes the principal logarithm of `(1 - g e^{-dτ}) / (1 - g)`.  The ratio
stays off the negative real axis, so the principal branch is the continuous one.
-/

namespace Verif

open MeasureTheory

theorem principal_sqrt_mul_self (z : ℂ) : z ^ (1 / 2 : ℂ) * z ^ (1 / 2 : ℂ) = z := by
  by_cases hz : z = 0
  · subst hz; simp
  · rw [← Complex.cpow_add _ _ hz]; norm_num

theorem principal_sqrt_re_nonneg (z : ℂ) : 0 ≤ (z ^ (1 / 2 : ℂ)).re := by
  by_cases hz : z = 0
  · subst hz; simp
  rw [Complex.cpow_def_of_ne_zero hz, Complex.exp_re]
  have him : (Complex.log z * (1 / 2 : ℂ)).im = z.arg / 2 := by
    have e2 : (1 / 2 : ℂ) = ((1 / 2 : ℝ) : ℂ) := by norm_num
    rw [e2, Complex.mul_im, Complex.ofReal_re, Complex.ofReal_im, Complex.log_im]; ring
  rw [him]
  refine mul_nonneg (Real.exp_pos _).le (Real.cos_nonneg_of_mem_Icc ⟨?_, ?_⟩)
  · linarith [Complex.neg_pi_lt_arg z]
  · linarith [Complex.arg_le_pi z]

/-- The argument of the logarithm. -/
noncomputable def hestonRatio (x d : ℂ) (t : ℝ) : ℂ := hestonDen x d t / (2 * d)

theorem hestonRatio_zero {x d : ℂ} (hd : d ≠ 0) : hestonRatio x d 0 = 1 := by
  have : hestonDen x d 0 = 2 * d := by simp [hestonDen]; ring
  rw [hestonRatio, this, div_self (mul_ne_zero two_ne_zero hd)]

theorem hestonRatio_slit {x d : ℂ} (hx : 0 < x.re) (hd : d ≠ 0) (hdr : 0 ≤ d.re)
    (h : 0 ≤ (d * d).re) {t : ℝ} (ht : 0 ≤ t) : hestonRatio x d t ∈ Complex.slitPlane := by
  by_contra hns
  rw [Complex.mem_slitPlane_iff, not_or, not_lt, not_not] at hns
  obtain ⟨hre, him⟩ := hns
  set w := hestonRatio x d t with hw
  have hwr : w = ((w.re : ℝ) : ℂ) := Complex.ext (by simp) (by simp [him])
  have hD := hestonDen_ne_zero hx hd h ht
  have h2d : (2 * d : ℂ) ≠ 0 := mul_ne_zero two_ne_zero hd
  have hden : hestonDen x d t = 2 * d * (w.re : ℂ) := by
    rw [← hwr, hw, hestonRatio, mul_div_cancel₀ _ h2d]
  have hr : w.re ≠ 0 := by
    intro h0; rw [h0] at hden; exact hD (by rw [hden]; simp)
  have hneg : w.re < 0 := lt_of_le_of_ne hre hr
  have hE := hestonEnergy_mono (x := x) (d := d) (m := 0) (by rw [zero_pow two_ne_zero]; linarith) ht
  rw [hestonEnergy_zero] at hE
  have hpos : 0 < d.re ^ 2 + d.im ^ 2 := by
    have := Complex.normSq_pos.2 hd
    rw [Complex.normSq_apply] at this
    nlinarith
  have hE0 : 0 < hestonEnergy x d 0 t := by
    refine lt_of_lt_of_le ?_ hE
    have : 0 < 2 * (x.re - 2 * 0) := by linarith
    positivity
  -- `2 r v' = (x + d - r d) v` with `r < 0`
  have key : 2 * (w.re : ℂ) * hestonV' x d t = (x + d - (w.re : ℂ) * d) * hestonV x d t := by
    have e1 : Complex.exp (-(d / 2) * t) = Complex.exp (d / 2 * t) * Complex.exp (-d * t) := by
      rw [← Complex.exp_add]; congr 1; ring
    have hv := hestonV_eq x d t
    rw [hden] at hv
    have e2 : (x - d) * Complex.exp (-d * t) = x + d - 2 * d * (w.re : ℂ) := by
      rw [← hden, hestonDen]; ring
    rw [hv, hestonV', e1]
    linear_combination (w.re : ℂ) * d * Complex.exp (d / 2 * t) * e2
  have kre := congrArg Complex.re key
  have kim := congrArg Complex.im key
  have e2 : ((2 : ℂ)) = ((2 : ℝ) : ℂ) := by norm_num
  simp only [e2, Complex.mul_re, Complex.mul_im, Complex.sub_re, Complex.sub_im, Complex.add_re,
    Complex.add_im, Complex.ofReal_re, Complex.ofReal_im, zero_mul, mul_zero, sub_zero,
    add_zero] at kre kim
  set v := hestonV x d t with hv
  set v' := hestonV' x d t with hv'
  set r := w.re
  have hEe : 2 * r * hestonEnergy x d 0 t
      = (x.re + d.re - r * d.re) * (v.re ^ 2 + v.im ^ 2) := by
    simp only [hestonEnergy, ← hv, ← hv']
    linear_combination v.re * kre + v.im * kim
  have h1 : 0 ≤ (x.re + d.re - r * d.re) * (v.re ^ 2 + v.im ^ 2) := by
    apply mul_nonneg _ (by positivity)
    nlinarith
  have h2 : 2 * r * hestonEnergy x d 0 t < 0 := by
    apply mul_neg_of_neg_of_pos _ hE0
    linarith
  linarith

/-- `(x - d) t - 2 log w(t)`. -/
noncomputable def hestonLog (x d : ℂ) (t : ℝ) : ℂ :=
  (x - d) * t - 2 * Complex.log (hestonRatio x d t)

theorem hestonLog_zero {x d : ℂ} (hd : d ≠ 0) : hestonLog x d 0 = 0 := by
  simp [hestonLog, hestonRatio_zero hd]

theorem hasDerivAt_hestonLog {q x d g : ℂ} (hdd : d * d = x * x - g * q) (hx : 0 < x.re) (hd : d ≠ 0)
    (hdr : 0 ≤ d.re) (h : 0 ≤ (d * d).re) {t : ℝ} (ht : 0 ≤ t) :
    HasDerivAt (hestonLog x d) (g * hestonC q x d t) t := by
  have hD := hestonDen_ne_zero hx hd h ht
  have hs := hestonRatio_slit hx hd hdr h ht
  have h1 : HasDerivAt (hestonRatio x d) ((x - d) * d * Complex.exp (-d * t) / (2 * d)) t :=
    (hasDerivAt_hestonDen x d t).div_const _
  have h2 := h1.clog_real hs
  have h3 : HasDerivAt (fun t : ℝ => (x - d) * (t : ℂ)) (x - d) t := by
    simpa using (Complex.ofRealCLM.hasDerivAt (x := t)).const_mul (x - d)
  refine (h3.sub (h2.const_mul 2)).congr_deriv ?_
  rw [hestonRatio, hestonC]
  set e := Complex.exp (-d * t)
  have hDe : hestonDen x d t = x + d - (x - d) * e := rfl
  have hg : g * q = (x - d) * (x + d) := by linear_combination hdd
  have e1 : g * (q * (1 - e) / hestonDen x d t) = (x - d) * (x + d) * (1 - e) / hestonDen x d t := by
    rw [← hg]; ring
  rw [e1, eq_div_iff hD]
  field_simp
  rw [hDe]; ring

theorem continuousOn_hestonC {q x d : ℂ} (hx : 0 < x.re) (hd : d ≠ 0) (h : 0 ≤ (d * d).re) :
    ContinuousOn (hestonC q x d) (Set.Ici 0) := by
  intro t ht
  have hD := hestonDen_ne_zero hx hd h ht
  have h1 := ((hasDerivAt_expNeg d t).const_sub 1).const_mul q
  exact (h1.div (hasDerivAt_hestonDen x d t) hD).continuousAt.continuousWithinAt

/-- The closed form is the integral. -/
theorem integral_hestonC {q x d g : ℂ} (hdd : d * d = x * x - g * q) (hx : 0 < x.re) (hd : d ≠ 0)
    (hdr : 0 ≤ d.re) (h : 0 ≤ (d * d).re) {a b : ℝ} (ha : 0 ≤ a) (hab : a ≤ b) :
    g * (∫ t in a..b, hestonC q x d t) = hestonLog x d b - hestonLog x d a := by
  rw [← intervalIntegral.integral_const_mul]
  apply intervalIntegral.integral_eq_sub_of_hasDerivAt
  · intro t ht
    rw [Set.uIcc_of_le hab] at ht
    exact hasDerivAt_hestonLog hdd hx hd hdr h (ha.trans ht.1)
  · apply ContinuousOn.intervalIntegrable
    rw [Set.uIcc_of_le hab]
    exact ((continuousOn_hestonC hx hd h).mono fun t ht => ha.trans ht.1).const_smul g

/-- The ratio as the code writes it. -/
theorem ratio_eq {x d : ℂ} (hxd : x + d ≠ 0) (e : ℂ) :
    (1 - (x - d) / (x + d) * e) / (1 - (x - d) / (x + d)) = (x + d - (x - d) * e) / (2 * d) := by
  have h1 : 1 - (x - d) / (x + d) = 2 * d / (x + d) := by field_simp; ring
  have h2 : 1 - (x - d) / (x + d) * e = (x + d - (x - d) * e) / (x + d) := by field_simp
  rw [h1, h2, div_div_div_cancel_right₀ hxd]

end Verif
