import Mathlib.Analysis.Fourier.AddCircle
import Mathlib.Analysis.SpecialFunctions.Integrals.Basic
import Mathlib.Analysis.SpecialFunctions.Trigonometric.Chebyshev.Basic
import Mathlib.MeasureTheory.Integral.IntervalIntegral.FundThmCalculus
import Verif.Spec.Cos

/-! # Cosine series of a continuous function on an interval -/

namespace Verif

open MeasureTheory intervalIntegral

/-- A continuous function on `[0, w]` whose cosine coefficients are summable is the sum of its
cosine series. -/
theorem hasSum_cosine {w : ℝ} (hw : 0 < w) {g : ℝ → ℝ} (hg : Continuous g)
    (hs : Summable fun k : ℕ => ∫ x in (0 : ℝ)..w, g x * Real.cos (k * Real.pi / w * x))
    {x : ℝ} (h0 : 0 ≤ x) (hx : x ≤ w) :
    HasSum (fun k : ℕ => 2 / w * (∫ x in (0 : ℝ)..w, g x * Real.cos (k * Real.pi / w * x))
        * Real.cos (k * Real.pi / w * x))
      (g x + 1 / w * ∫ x in (0 : ℝ)..w, g x) := by
  classical
  haveI : Fact (0 < 2 * w) := ⟨by linarith⟩
  set c : ℕ → ℝ := fun k => ∫ x in (0 : ℝ)..w, g x * Real.cos (k * Real.pi / w * x) with hc
  set h : ℝ → ℂ := fun y => (g |y| : ℂ) with hh
  have hhc : Continuous h := by fun_prop
  set f : C(AddCircle (2 * w), ℂ) :=
    ⟨AddCircle.liftIco (2 * w) (-w) h, AddCircle.liftIco_continuous
      (by simp only [hh]; rw [abs_neg, show -w + 2 * w = w by ring]) hhc.continuousOn⟩ with hf
  have hfx : ∀ y : ℝ, 0 ≤ y → y ≤ w → f (y : AddCircle (2 * w)) = (g y : ℂ) := by
    intro y hy0 hy
    simp only [hf, ContinuousMap.coe_mk]
    rcases hy.eq_or_lt with rfl | hlt
    · have e : ((y : ℝ) : AddCircle (2 * y)) = ((-y : ℝ) : AddCircle (2 * y)) := by
        have := AddCircle.coe_add_period (2 * y) (-y)
        rw [← this]; congr 1; ring
      rw [e, AddCircle.liftIco_coe_apply ⟨le_refl _, by linarith⟩]
      simp only [hh, abs_neg, abs_of_nonneg hy0]
    · rw [AddCircle.liftIco_coe_apply ⟨by linarith, by linarith⟩]
      simp only [hh, abs_of_nonneg hy0]
  have hpi := Real.pi_pos
  -- the Fourier coefficients
  have hcoeff : ∀ n : ℤ, fourierCoeff f n = ((1 / w * c n.natAbs : ℝ) : ℂ) := by
    intro n
    have e1 : fourierCoeff f n = (1 / (2 * w)) •
        ∫ y in (-w)..(-w + 2 * w), fourier (T := 2 * w) (-n) (y : AddCircle (2 * w)) • f y :=
      fourierCoeff_eq_intervalIntegral f n (-w)
    have e2 : (∫ y in (-w)..(-w + 2 * w), fourier (T := 2 * w) (-n) (y : AddCircle (2 * w)) • f y)
        = ∫ y in (-w)..w, Complex.exp (-(n * Real.pi / w * y : ℝ) * Complex.I) * (g |y| : ℂ) := by
      rw [show -w + 2 * w = w by ring]
      apply integral_congr_Ioo_of_le (by linarith)
      intro y hy
      simp only
      rw [fourier_coe_apply, smul_eq_mul]
      have hy' : f (y : AddCircle (2 * w)) = (g |y| : ℂ) := by
        simp only [hf, ContinuousMap.coe_mk]
        rw [AddCircle.liftIco_coe_apply ⟨hy.1.le, by linarith [hy.2]⟩]
      rw [hy']
      congr 2
      have : (w : ℂ) ≠ 0 := by exact_mod_cast hw.ne'
      push_cast
      field_simp
    have hi : ∀ u v : ℝ, IntervalIntegrable
        (fun y : ℝ => Complex.exp (-(n * Real.pi / w * y : ℝ) * Complex.I) * (g |y| : ℂ))
        volume u v := by
      intro u v
      apply Continuous.intervalIntegrable
      fun_prop
    have e3 : (∫ y in (-w)..w, Complex.exp (-(n * Real.pi / w * y : ℝ) * Complex.I) * (g |y| : ℂ))
        = ∫ y in (0 : ℝ)..w, ((2 * (g y * Real.cos (n.natAbs * Real.pi / w * y)) : ℝ) : ℂ) := by
      rw [← integral_add_adjacent_intervals (hi (-w) 0) (hi 0 w)]
      have : (∫ y in (-w)..0, Complex.exp (-(n * Real.pi / w * y : ℝ) * Complex.I) * (g |y| : ℂ))
          = ∫ y in (0 : ℝ)..w, Complex.exp ((n * Real.pi / w * y : ℝ) * Complex.I) * (g |y| : ℂ) := by
        have := integral_comp_neg (a := 0) (b := w)
          (fun y : ℝ => Complex.exp (-(n * Real.pi / w * y : ℝ) * Complex.I) * (g |y| : ℂ))
        rw [neg_zero] at this
        rw [← this]
        apply integral_congr
        intro y _
        simp only [abs_neg]
        congr 2
        push_cast; ring
      rw [this, ← integral_add (by apply Continuous.intervalIntegrable; fun_prop) (hi 0 w)]
      apply integral_congr
      intro y hy
      rw [Set.uIcc_of_le hw.le] at hy
      simp only [abs_of_nonneg hy.1]
      have hcos : Real.cos (n.natAbs * Real.pi / w * y) = Real.cos (n * Real.pi / w * y) := by
        have ha : ((n.natAbs : ℕ) : ℝ) = |(n : ℝ)| := by
          rw [← Int.cast_abs, ← Int.natCast_natAbs]; rfl
        rw [ha, ← Real.cos_abs (n * Real.pi / w * y)]
        congr 1
        rw [abs_mul, abs_div, abs_mul, abs_of_pos hpi, abs_of_pos hw, abs_of_nonneg hy.1]
      rw [hcos, ← add_mul]
      have e := Complex.two_cos (n * Real.pi / w * y : ℝ)
      rw [neg_mul] at e
      rw [neg_mul, ← e]
      push_cast; ring
    rw [e1, e2, e3, intervalIntegral.integral_ofReal, intervalIntegral.integral_const_mul]
    rw [← Complex.coe_smul, smul_eq_mul, ← Complex.ofReal_mul]
    congr 1
    simp only [hc]
    field_simp
  have hsum : Summable (fourierCoeff f) := by
    have e : (fourierCoeff f) = fun n : ℤ => ((1 / w * c n.natAbs : ℝ) : ℂ) := funext hcoeff
    rw [e]
    apply Summable.of_nat_of_neg
    · simp only [Int.natAbs_natCast]
      exact Complex.summable_ofReal.2 (hs.mul_left (1 / w))
    · simp only [Int.natAbs_neg, Int.natAbs_natCast]
      exact Complex.summable_ofReal.2 (hs.mul_left (1 / w))
  have key := (has_pointwise_sum_fourier_series_of_summable hsum (x : AddCircle (2 * w))).nat_add_neg
  rw [hfx x h0 hx] at key
  have k0 : fourierCoeff (f : AddCircle (2 * w) → ℂ) 0 • fourier 0 (x : AddCircle (2 * w))
      = ((1 / w * ∫ x in (0 : ℝ)..w, g x : ℝ) : ℂ) := by
    rw [hcoeff 0, fourier_zero, smul_eq_mul, mul_one]
    simp [hc]
  rw [k0, ← Complex.ofReal_add] at key
  have kt : ∀ k : ℕ, fourierCoeff (f : AddCircle (2 * w) → ℂ) (k : ℤ) • fourier (k : ℤ) (x : AddCircle (2 * w))
      + fourierCoeff (f : AddCircle (2 * w) → ℂ) (-(k : ℤ)) • fourier (-(k : ℤ)) (x : AddCircle (2 * w))
      = ((2 / w * c k * Real.cos (k * Real.pi / w * x) : ℝ) : ℂ) := by
    intro k
    rw [hcoeff, hcoeff, fourier_coe_apply, fourier_coe_apply]
    simp only [Int.natAbs_neg, Int.natAbs_natCast, smul_eq_mul]
    have hw' : (w : ℂ) ≠ 0 := by exact_mod_cast hw.ne'
    have e := Complex.two_cos (k * Real.pi / w * x : ℝ)
    have a1 : (2 * (Real.pi : ℂ) * Complex.I * ((k : ℤ) : ℂ) * x / ((2 * w : ℝ) : ℂ))
        = (k * Real.pi / w * x : ℝ) * Complex.I := by
      push_cast; field_simp
    have a2 : (2 * (Real.pi : ℂ) * Complex.I * ((-(k : ℤ) : ℤ) : ℂ) * x / ((2 * w : ℝ) : ℂ))
        = -(k * Real.pi / w * x : ℝ) * Complex.I := by
      push_cast; field_simp
    rw [a1, a2, ← mul_add, ← e]
    push_cast; ring
  simp only [kt] at key
  exact_mod_cast key

end Verif
