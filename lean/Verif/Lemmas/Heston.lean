import Mathlib.Analysis.SpecialFunctions.ExpDeriv
import Mathlib.Analysis.SpecialFunctions.Pow.Complex
import Mathlib.Analysis.Calculus.Deriv.MeanValue
import Mathlib.Analysis.Calculus.Deriv.Inv
import Mathlib.Analysis.Calculus.Deriv.Pow
import Mathlib.Analysis.Complex.RealDeriv

/-!
# The Heston Riccati equation

Facts about the closed form `C(τ) = q (1 - e^{-dτ}) / (x + d - (x - d) e^{-dτ})` with
`d² = x² - γ² q`.
-/

namespace Verif

/-- The denominator of the closed form. -/
noncomputable def hestonDen (x d : ℂ) (t : ℝ) : ℂ := x + d - (x - d) * Complex.exp (-d * t)

/-- The closed form. -/
noncomputable def hestonC (q x d : ℂ) (t : ℝ) : ℂ :=
  q * (1 - Complex.exp (-d * t)) / hestonDen x d t

theorem hasDerivAt_expNeg (d : ℂ) (t : ℝ) :
    HasDerivAt (fun t : ℝ => Complex.exp (-d * t)) (-d * Complex.exp (-d * t)) t := by
  have h : HasDerivAt (fun t : ℝ => -d * (t : ℂ)) (-d) t := by
    simpa using (Complex.ofRealCLM.hasDerivAt (x := t)).const_mul (-d)
  simpa [mul_comm] using h.cexp

theorem hasDerivAt_hestonDen (x d : ℂ) (t : ℝ) :
    HasDerivAt (hestonDen x d) ((x - d) * d * Complex.exp (-d * t)) t := by
  have := ((hasDerivAt_expNeg d t).const_mul (x - d)).const_sub (x + d)
  refine this.congr_deriv ?_
  ring

/-- The closed form solves the Riccati equation. -/
theorem hasDerivAt_hestonC {q x d g : ℂ} (hd : d * d = x * x - g * q) {t : ℝ}
    (hD : hestonDen x d t ≠ 0) :
    HasDerivAt (hestonC q x d)
      (q / 2 - x * hestonC q x d t + g / 2 * (hestonC q x d t * hestonC q x d t)) t := by
  have h1 := ((hasDerivAt_expNeg d t).const_sub 1).const_mul q
  have h2 := h1.div (hasDerivAt_hestonDen x d t) hD
  refine h2.congr_deriv ?_
  unfold hestonC
  set e := Complex.exp (-d * t)
  have hDe : hestonDen x d t = x * (1 - e) + d * (1 + e) := by
    simp only [hestonDen]; ring
  rw [div_eq_iff (pow_ne_zero 2 hD)]
  set D := hestonDen x d t
  have e1 : (q / 2 - x * (q * (1 - e) / D) + g / 2 * (q * (1 - e) / D * (q * (1 - e) / D))) * D ^ 2
      = q / 2 * D ^ 2 - x * q * (1 - e) * D + g / 2 * q ^ 2 * (1 - e) ^ 2 := by
    field_simp
  rw [e1]
  have hg : g * q = x * x - d * d := by rw [hd]; ring
  have e2 : g / 2 * q ^ 2 * (1 - e) ^ 2 = (g * q) / 2 * q * (1 - e) ^ 2 := by ring
  rw [e2, hg, hDe]
  ring

theorem hestonC_zero (q x d : ℂ) : hestonC q x d 0 = 0 := by simp [hestonC]

/-! ## The denominator has no zero -/

/-- `e^{dt/2}` times the denominator. -/
noncomputable def hestonV (x d : ℂ) (t : ℝ) : ℂ :=
  (x + d) * Complex.exp (d / 2 * t) - (x - d) * Complex.exp (-(d / 2) * t)

/-- Its derivative. -/
noncomputable def hestonV' (x d : ℂ) (t : ℝ) : ℂ :=
  d / 2 * ((x + d) * Complex.exp (d / 2 * t) + (x - d) * Complex.exp (-(d / 2) * t))

theorem hasDerivAt_expPos (d : ℂ) (t : ℝ) :
    HasDerivAt (fun t : ℝ => Complex.exp (d * t)) (d * Complex.exp (d * t)) t := by
  have := hasDerivAt_expNeg (-d) t
  simpa using this

theorem hasDerivAt_hestonV (x d : ℂ) (t : ℝ) : HasDerivAt (hestonV x d) (hestonV' x d t) t := by
  have := ((hasDerivAt_expPos (d / 2) t).const_mul (x + d)).sub
    ((hasDerivAt_expPos (-(d / 2)) t).const_mul (x - d))
  refine this.congr_deriv ?_
  unfold hestonV'; ring

theorem hasDerivAt_hestonV' (x d : ℂ) (t : ℝ) :
    HasDerivAt (hestonV' x d) (d * d / 4 * hestonV x d t) t := by
  have := (((hasDerivAt_expPos (d / 2) t).const_mul (x + d)).add
    ((hasDerivAt_expPos (-(d / 2)) t).const_mul (x - d))).const_mul (d / 2)
  refine this.congr_deriv ?_
  unfold hestonV; ring

theorem hestonV_eq (x d : ℂ) (t : ℝ) :
    hestonV x d t = Complex.exp (d / 2 * t) * hestonDen x d t := by
  unfold hestonV hestonDen
  have : Complex.exp (-(d / 2) * t) = Complex.exp (d / 2 * t) * Complex.exp (-d * t) := by
    rw [← Complex.exp_add]; congr 1; ring
  rw [this]; ring

theorem hasDerivAt_re {f : ℝ → ℂ} {f' : ℂ} {t : ℝ} (h : HasDerivAt f f' t) :
    HasDerivAt (fun s => (f s).re) f'.re t :=
  Complex.reCLM.hasFDerivAt.comp_hasDerivAt t h

theorem hasDerivAt_im {f : ℝ → ℂ} {f' : ℂ} {t : ℝ} (h : HasDerivAt f f' t) :
    HasDerivAt (fun s => (f s).im) f'.im t :=
  Complex.imCLM.hasFDerivAt.comp_hasDerivAt t h

/-- The quantity `Re (v̄ v') - m |v|²`. -/
noncomputable def hestonEnergy (x d : ℂ) (m t : ℝ) : ℝ :=
  (hestonV x d t).re * (hestonV' x d t).re + (hestonV x d t).im * (hestonV' x d t).im
    - m * ((hestonV x d t).re ^ 2 + (hestonV x d t).im ^ 2)

theorem hasDerivAt_hestonEnergy (x d : ℂ) (m t : ℝ) :
    HasDerivAt (hestonEnergy x d m)
      (((hestonV' x d t).re - m * (hestonV x d t).re) ^ 2
        + ((hestonV' x d t).im - m * (hestonV x d t).im) ^ 2
        + ((d * d).re / 4 - m ^ 2) * ((hestonV x d t).re ^ 2 + (hestonV x d t).im ^ 2)) t := by
  have hv := hasDerivAt_hestonV x d t
  have hv' := hasDerivAt_hestonV' x d t
  have := ((hasDerivAt_re hv).mul (hasDerivAt_re hv')).add
    ((hasDerivAt_im hv).mul (hasDerivAt_im hv'))
  have h2 := (((hasDerivAt_re hv).pow 2).add ((hasDerivAt_im hv).pow 2)).const_mul m
  refine (this.sub h2).congr_deriv ?_
  have e4 : ((4 : ℂ)) = ((4 : ℝ) : ℂ) := by norm_num
  simp only [Complex.mul_re, Complex.mul_im, Complex.div_re, Complex.div_im, e4, Complex.ofReal_re,
    Complex.ofReal_im, Complex.normSq_ofReal]
  simp
  ring

theorem hestonEnergy_zero (x d : ℂ) (m : ℝ) :
    hestonEnergy x d m 0 = 2 * (x.re - 2 * m) * (d.re ^ 2 + d.im ^ 2) := by
  have h1 : hestonV x d 0 = 2 * d := by simp [hestonV]; ring
  have h2 : hestonV' x d 0 = d * x := by simp [hestonV']; ring
  simp only [hestonEnergy, h1, h2, Complex.mul_re, Complex.mul_im]
  simp
  ring

theorem hestonEnergy_mono {x d : ℂ} {m : ℝ} (h : m ^ 2 ≤ (d * d).re / 4) {t : ℝ} (ht : 0 ≤ t) :
    hestonEnergy x d m 0 ≤ hestonEnergy x d m t := by
  have hm : Monotone (hestonEnergy x d m) := by
    apply monotone_of_deriv_nonneg
    · exact fun s => (hasDerivAt_hestonEnergy x d m s).differentiableAt
    · intro s
      rw [(hasDerivAt_hestonEnergy x d m s).deriv]
      have : 0 ≤ (d * d).re / 4 - m ^ 2 := by linarith
      positivity
  exact hm ht

/-- With `Re x > 0`, `d ≠ 0` and `Re d² ≥ 0` the denominator never vanishes. -/
theorem hestonDen_ne_zero {x d : ℂ} (hx : 0 < x.re) (hd : d ≠ 0) (h : 0 ≤ (d * d).re) {t : ℝ}
    (ht : 0 ≤ t) : hestonDen x d t ≠ 0 := by
  intro h0
  have hv : hestonV x d t = 0 := by rw [hestonV_eq, h0, mul_zero]
  have h1 := hestonEnergy_mono (x := x) (d := d) (m := 0) (by rw [zero_pow two_ne_zero]; linarith) ht
  rw [hestonEnergy_zero] at h1
  have h2 : hestonEnergy x d 0 t = 0 := by simp [hestonEnergy, hv]
  rw [h2] at h1
  have hpos : 0 < d.re ^ 2 + d.im ^ 2 := by
    have := Complex.normSq_pos.2 hd
    rw [Complex.normSq_apply] at this
    nlinarith
  nlinarith

/-- With `d² = x² - γ² q`, real part of `C` is never positive. -/
theorem hestonC_re_nonpos {q x d : ℂ} {g : ℝ} (hg : 0 < g) (hdd : d * d = x * x - g * q)
    (hx : 0 < x.re) (hd : d ≠ 0) (h : x.re ^ 2 ≤ (d * d).re) {t : ℝ} (ht : 0 ≤ t) :
    (hestonC q x d t).re ≤ 0 := by
  have hD := hestonDen_ne_zero hx hd ((sq_nonneg _).trans h) ht
  have hE := hestonEnergy_mono (x := x) (d := d) (m := x.re / 2) (by
    rw [div_pow]; linarith) ht
  rw [hestonEnergy_zero] at hE
  have hE0 : 0 ≤ hestonEnergy x d (x.re / 2) t := by
    refine le_trans (le_of_eq ?_) hE; ring
  have hexp : Complex.exp (d / 2 * t) ≠ 0 := Complex.exp_ne_zero _
  have hv : hestonV x d t ≠ 0 := by rw [hestonV_eq]; exact mul_ne_zero hexp hD
  have key : (g : ℂ) / 2 * hestonC q x d t * hestonV x d t
      = x / 2 * hestonV x d t - hestonV' x d t := by
    have e1 : hestonC q x d t * hestonV x d t
        = q * (Complex.exp (d / 2 * t) - Complex.exp (-(d / 2) * t)) := by
      rw [hestonV_eq, hestonC]
      have : Complex.exp (-(d / 2) * t) = Complex.exp (d / 2 * t) * Complex.exp (-d * t) := by
        rw [← Complex.exp_add]; congr 1; ring
      rw [this]
      field_simp
    rw [mul_assoc, e1]
    have hgq : (g : ℂ) * q = x * x - d * d := by rw [hdd]; ring
    have : (g : ℂ) / 2 * (q * (Complex.exp (d / 2 * t) - Complex.exp (-(d / 2) * t)))
        = (g * q) / 2 * (Complex.exp (d / 2 * t) - Complex.exp (-(d / 2) * t)) := by ring
    rw [this, hgq]
    unfold hestonV hestonV'
    ring
  -- multiply by the conjugate of `v`
  set v := hestonV x d t with hvdef
  set v' := hestonV' x d t with hv'def
  set c := hestonC q x d t
  have hn : 0 < v.re ^ 2 + v.im ^ 2 := by
    have := Complex.normSq_pos.2 hv
    rw [Complex.normSq_apply] at this
    nlinarith
  have kre := congrArg Complex.re key
  have kim := congrArg Complex.im key
  have e2 : ((2 : ℂ)) = ((2 : ℝ) : ℂ) := by norm_num
  simp only [e2, Complex.mul_re, Complex.mul_im, Complex.sub_re, Complex.sub_im, Complex.div_ofReal_re,
    Complex.div_ofReal_im, Complex.ofReal_re, Complex.ofReal_im, zero_div, zero_mul, sub_zero,
    add_zero] at kre kim
  have hsum : g / 2 * c.re * (v.re ^ 2 + v.im ^ 2)
      = - hestonEnergy x d (x.re / 2) t := by
    simp only [hestonEnergy, ← hvdef, ← hv'def]
    linear_combination v.re * kre + v.im * kim
  by_contra hc
  have hc : 0 < c.re := not_le.1 hc
  have : 0 < g / 2 * c.re * (v.re ^ 2 + v.im ^ 2) := by positivity
  linarith

end Verif
