import Verif.Model.Hlmm
import Verif.Lemmas.HhwChf
import Verif.Lemmas.HestonLog
import Mathlib.Analysis.Calculus.Deriv.MeanValue

/-! # The Riccati equations of the FX-HLMM1 characteristic function -/

namespace Verif

open Outcome Classical MeasureTheory

/-! ## The variance of the FX rate -/

/-- `κ - γ ρ i u`. -/
noncomputable def hX (kappa gamma rho : ℝ) (u : ℂ) : ℂ := kappa - gamma * rho * (Complex.I * u)

/-- The square root. -/
noncomputable def hD (kappa gamma rho : ℝ) (u : ℂ) : ℂ :=
  (hX kappa gamma rho u * hX kappa gamma rho u
    - gamma * gamma * (Complex.I * u) * (Complex.I * u - 1)) ^ (1 / 2 : ℂ)

theorem hD_sq (kappa gamma rho : ℝ) (u : ℂ) :
    hD kappa gamma rho u * hD kappa gamma rho u
      = hX kappa gamma rho u * hX kappa gamma rho u - ((gamma * gamma : ℝ) : ℂ) * chfQ u := by
  rw [hD, principal_sqrt_mul_self, chfQ]; push_cast; ring

theorem hestonCFn_eq (kappa gamma rho : ℝ) (u : ℂ) {t : ℝ} (ht : 0 ≤ t) :
    hestonCFn u kappa gamma rho t
      = hestonC (chfQ u) (hX kappa gamma rho u) (hD kappa gamma rho u) t := by
  rcases ht.eq_or_lt with rfl | h
  · rw [hestonCFn, if_pos (le_refl _), hestonC_zero]
  · rw [hestonCFn, if_neg (not_le.2 h)]
    rfl

theorem h_regular {kappa gamma rho : ℝ} (hk : 0 < kappa) (hr : |rho| ≤ 1) (u : ℝ) :
    0 < (hX kappa gamma rho u).re ∧ hD kappa gamma rho u ≠ 0
      ∧ (hX kappa gamma rho u).re ^ 2 ≤ (hD kappa gamma rho u * hD kappa gamma rho u).re := by
  have h1 : rho ^ 2 ≤ 1 := by
    rw [← sq_abs]; nlinarith [abs_nonneg rho]
  have hxr : (hX kappa gamma rho u).re = kappa := by simp [hX]
  have hdr : (hD kappa gamma rho u * hD kappa gamma rho u).re
      = kappa ^ 2 + gamma ^ 2 * u ^ 2 * (1 - rho ^ 2) := by
    rw [hD_sq]; simp [hX, chfQ]; ring
  have h2 : kappa ^ 2 ≤ (hD kappa gamma rho u * hD kappa gamma rho u).re := by
    rw [hdr]
    have : 0 ≤ gamma ^ 2 * u ^ 2 * (1 - rho ^ 2) := by
      have : 0 ≤ 1 - rho ^ 2 := by linarith
      positivity
    linarith
  refine ⟨by rw [hxr]; exact hk, ?_, by rw [hxr]; exact h2⟩
  intro h0
  rw [h0] at h2
  simp at h2
  exact hk.ne' h2

theorem hestonAClosed_eq {kappa theta gamma rho : ℝ} {u : ℂ} {t : ℝ} (ht : 0 ≤ t)
    (hd : hD kappa gamma rho u ≠ 0) (hxd : hX kappa gamma rho u + hD kappa gamma rho u ≠ 0) :
    hestonAClosed u kappa theta gamma rho t
      = ((kappa * theta : ℝ) : ℂ) / (gamma * gamma)
        * hestonLog (hX kappa gamma rho u) (hD kappa gamma rho u) t := by
  rcases ht.eq_or_lt with rfl | h
  · rw [hestonAClosed, if_pos (le_refl _), hestonLog_zero hd, mul_zero]
  · rw [hestonAClosed, if_neg (not_le.2 h)]
    dsimp only
    rw [← hX, ← hD, ratio_eq hxd]
    rfl

theorem h_sum_ne {kappa gamma rho : ℝ} (hk : 0 < kappa) (u : ℝ) :
    hX kappa gamma rho u + hD kappa gamma rho u ≠ 0 := by
  intro h0
  have h1 := congrArg Complex.re h0
  have h2 : 0 ≤ (hD kappa gamma rho u).re := principal_sqrt_re_nonneg _
  have h3 : (hX kappa gamma rho u).re = kappa := by simp [hX]
  rw [Complex.add_re, h3, Complex.zero_re] at h1
  linarith

/-- The closed form of `A` is the integral of `C`. -/
theorem hestonAIncrement_eq {kappa theta gamma rho : ℝ} (hk : 0 < kappa) (hg : gamma ≠ 0)
    (hr : |rho| ≤ 1) (u : ℝ) {a b : ℝ} (ha : 0 ≤ a) (hab : a ≤ b) :
    hestonAIncrement u kappa theta gamma rho a b
      = ((kappa * theta : ℝ) : ℂ) * ∫ t in a..b, hestonCFn u kappa gamma rho t := by
  obtain ⟨hx, hd, hs⟩ := h_regular (gamma := gamma) hk hr u
  have hI := integral_hestonC (hD_sq kappa gamma rho u) hx hd (principal_sqrt_re_nonneg _)
    ((sq_nonneg _).trans hs) ha hab
  have hC : (∫ t in a..b, hestonCFn u kappa gamma rho t)
      = ∫ t in a..b, hestonC (chfQ u) (hX kappa gamma rho u) (hD kappa gamma rho u) t := by
    apply intervalIntegral.integral_congr
    intro t ht
    rw [Set.uIcc_of_le hab] at ht
    exact hestonCFn_eq _ _ _ _ (ha.trans ht.1)
  rw [hestonAIncrement, hestonAClosed_eq (ha.trans hab) hd (h_sum_ne hk u),
    hestonAClosed_eq ha hd (h_sum_ne hk u), hC, ← mul_sub, ← hI]
  have : (gamma : ℂ) ≠ 0 := by exact_mod_cast hg
  push_cast
  field_simp

/-! ## The variances of the Libors -/

/-- `λ - η² D₀`. -/
noncomputable def advX (lambda eta : ℝ) (dp : ℂ) : ℂ := lambda - ((eta * eta : ℝ) : ℂ) * dp

/-- Constant term of the shifted equation, doubled. -/
noncomputable def advQ (lambda eta aj : ℝ) (u dp : ℂ) : ℂ :=
  aj * chfQ u - 2 * lambda * dp + ((eta * eta : ℝ) : ℂ) * (dp * dp)

/-- The square root. -/
noncomputable def advDelta (lambda eta aj : ℝ) (u : ℂ) : ℂ :=
  (((lambda * lambda : ℝ) : ℂ) + ((eta * eta * aj : ℝ) : ℂ) * (u * u + Complex.I * u)) ^ (1 / 2 : ℂ)

theorem chfQ_eq (u : ℂ) : chfQ u = -(u * u + Complex.I * u) := by
  unfold chfQ
  linear_combination u * u * Complex.I_mul_I

theorem advDelta_sq (lambda eta aj : ℝ) (u dp : ℂ) :
    advDelta lambda eta aj u * advDelta lambda eta aj u
      = advX lambda eta dp * advX lambda eta dp
        - ((eta * eta : ℝ) : ℂ) * advQ lambda eta aj u dp := by
  rw [advDelta, principal_sqrt_mul_self, advX, advQ, chfQ_eq]; push_cast; ring

theorem adv_regular {lambda eta aj : ℝ} (hl : 0 < lambda) (ha : 0 ≤ aj) (u : ℝ) {dp : ℂ}
    (hdp : dp.re ≤ 0) :
    0 < (advX lambda eta dp).re ∧ advDelta lambda eta aj u ≠ 0
      ∧ 0 ≤ (advDelta lambda eta aj u * advDelta lambda eta aj u).re
      ∧ advX lambda eta dp + advDelta lambda eta aj u ≠ 0 := by
  have hxr : (advX lambda eta dp).re = lambda - eta * eta * dp.re := by
    simp only [advX, Complex.sub_re, Complex.ofReal_re, Complex.mul_re, Complex.ofReal_im]; ring
  have hxp : 0 < (advX lambda eta dp).re := by
    rw [hxr]; nlinarith [mul_self_nonneg eta]
  have hdd : (advDelta lambda eta aj u * advDelta lambda eta aj u).re
      = lambda * lambda + eta * eta * aj * (u * u) := by
    rw [advDelta, principal_sqrt_mul_self]; simp
  have hpos : 0 < (advDelta lambda eta aj u * advDelta lambda eta aj u).re := by
    rw [hdd]
    have : 0 ≤ eta * eta * aj * (u * u) :=
      mul_nonneg (mul_nonneg (mul_self_nonneg _) ha) (mul_self_nonneg _)
    nlinarith
  refine ⟨hxp, ?_, hpos.le, ?_⟩
  · intro h0; rw [h0] at hpos; simp at hpos
  · intro h0
    have h1 := congrArg Complex.re h0
    have h2 : 0 ≤ (advDelta lambda eta aj u).re := principal_sqrt_re_nonneg _
    rw [Complex.add_re, Complex.zero_re] at h1
    linarith

/-- The path of `D` over a segment. -/
noncomputable def advPath (lambda eta aj : ℝ) (u dp : ℂ) (s : ℝ) : ℂ :=
  dp + hestonC (advQ lambda eta aj u dp) (advX lambda eta dp) (advDelta lambda eta aj u) s

/-- An antiderivative of `η² D`. -/
noncomputable def advAnti (lambda eta aj : ℝ) (u dp : ℂ) (s : ℝ) : ℂ :=
  ((eta * eta : ℝ) : ℂ) * dp * s + hestonLog (advX lambda eta dp) (advDelta lambda eta aj u) s

theorem advPath_zero (lambda eta aj : ℝ) (u dp : ℂ) : advPath lambda eta aj u dp 0 = dp := by
  rw [advPath, hestonC_zero, add_zero]

theorem advanceD_eq {lambda eta aj v0 : ℝ} (he : eta ≠ 0) {u dp : ℂ}
    (hd : advDelta lambda eta aj u ≠ 0) (hxd : advX lambda eta dp + advDelta lambda eta aj u ≠ 0)
    {s : ℝ} (hs : 0 ≤ s) :
    advanceD u lambda eta aj v0 dp s = (advPath lambda eta aj u dp s,
      ((v0 * lambda / (eta * eta) : ℝ) : ℂ) * advAnti lambda eta aj u dp s) := by
  rcases hs.eq_or_lt with rfl | h
  · rw [advanceD, if_pos (le_refl _), advPath_zero, advAnti, hestonLog_zero hd]
    simp
  rw [advanceD, if_neg (not_le.2 h)]
  dsimp only
  rw [← advDelta]
  set δ := advDelta lambda eta aj u with hδ
  set x := advX lambda eta dp with hx
  have e1 : (lambda : ℂ) + δ - ((eta * eta : ℝ) : ℂ) * dp = x + δ := by rw [hx, advX]; ring
  have e2 : (lambda : ℂ) - δ - ((eta * eta : ℝ) : ℂ) * dp = x - δ := by rw [hx, advX]; ring
  rw [e1, e2, ratio_eq hxd]
  have hee : ((eta * eta : ℝ) : ℂ) ≠ 0 := by
    exact_mod_cast mul_ne_zero he he
  refine Prod.ext ?_ ?_
  · dsimp only
    rw [advPath, ← hδ, ← hx, hestonC, hestonDen]
    congr 1
    set e := Complex.exp (-δ * s)
    have e3 : 1 - (x - δ) / (x + δ) * e = (x + δ - (x - δ) * e) / (x + δ) := by field_simp
    have hq : ((eta * eta : ℝ) : ℂ) * advQ lambda eta aj u dp = (x - δ) * (x + δ) := by
      have := advDelta_sq lambda eta aj u dp
      rw [← hδ, ← hx] at this
      linear_combination this
    have hq' : advQ lambda eta aj u dp = (x - δ) * (x + δ) / ((eta * eta : ℝ) : ℂ) := by
      rw [eq_div_iff hee]; linear_combination hq
    rw [e3, hq']
    set D := x + δ - (x - δ) * e
    by_cases hD : D = 0
    · rw [hD]; simp
    · field_simp
  · dsimp only
    rw [advAnti, ← hδ, ← hx, hestonLog, hestonRatio, hestonDen]
    congr 1
    rw [hx, advX]
    ring

theorem hasDerivAt_advPath {lambda eta aj : ℝ} (hl : 0 < lambda) (ha : 0 ≤ aj) (u : ℝ) {dp : ℂ}
    (hdp : dp.re ≤ 0) {s : ℝ} (hs : 0 ≤ s) :
    HasDerivAt (advPath lambda eta aj u dp)
      (aj * chfQ u / 2 - lambda * advPath lambda eta aj u dp s
        + ((eta * eta : ℝ) : ℂ) / 2 * (advPath lambda eta aj u dp s) ^ 2) s := by
  obtain ⟨h1, h2, h3, -⟩ := adv_regular (eta := eta) hl ha u hdp
  have := (hasDerivAt_hestonC (advDelta_sq lambda eta aj u dp)
    (hestonDen_ne_zero h1 h2 h3 hs)).const_add dp
  refine this.congr_deriv ?_
  rw [advPath]
  set c := hestonC (advQ lambda eta aj u dp) (advX lambda eta dp) (advDelta lambda eta aj u) s
  rw [advQ, advX]
  ring

theorem hasDerivAt_advAnti {lambda eta aj : ℝ} (hl : 0 < lambda) (ha : 0 ≤ aj) (u : ℝ) {dp : ℂ}
    (hdp : dp.re ≤ 0) {s : ℝ} (hs : 0 ≤ s) :
    HasDerivAt (advAnti lambda eta aj u dp)
      (((eta * eta : ℝ) : ℂ) * advPath lambda eta aj u dp s) s := by
  obtain ⟨h1, h2, h3, -⟩ := adv_regular (eta := eta) hl ha u hdp
  have hL := hasDerivAt_hestonLog (advDelta_sq lambda eta aj u dp) h1 h2
    (principal_sqrt_re_nonneg _) h3 hs
  have h0 : HasDerivAt (fun t : ℝ => ((eta * eta : ℝ) : ℂ) * dp * (t : ℂ))
      (((eta * eta : ℝ) : ℂ) * dp) s := by
    simpa using (Complex.ofRealCLM.hasDerivAt (x := s)).const_mul (((eta * eta : ℝ) : ℂ) * dp)
  refine (h0.add hL).congr_deriv ?_
  rw [advPath]; ring

/-- The real part of `D` stays non-positive. -/
theorem advPath_re_nonpos {lambda eta aj : ℝ} (hl : 0 < lambda) (ha : 0 ≤ aj) (u : ℝ) {dp : ℂ}
    (hdp : dp.re ≤ 0) {s : ℝ} (hs : 0 ≤ s) : (advPath lambda eta aj u dp s).re ≤ 0 := by
  set D := advPath lambda eta aj u dp with hDdef
  set L := advAnti lambda eta aj u dp with hLdef
  -- integrating factor
  set φ : ℝ → ℝ := fun t => (D t).re * Real.exp (lambda * t - (L t).re / 2) with hφ
  have hder : ∀ t, 0 ≤ t → HasDerivAt φ
      ((aj * chfQ u / 2 - lambda * D t + ((eta * eta : ℝ) : ℂ) / 2 * (D t) ^ 2).re
          * Real.exp (lambda * t - (L t).re / 2)
        + (D t).re * (Real.exp (lambda * t - (L t).re / 2)
          * (lambda - (((eta * eta : ℝ) : ℂ) * D t).re / 2))) t := by
    intro t ht
    have h1 := hasDerivAt_re (hasDerivAt_advPath (eta := eta) hl ha u hdp ht)
    have h2 := hasDerivAt_re (hasDerivAt_advAnti (eta := eta) hl ha u hdp ht)
    have h3 : HasDerivAt (fun t : ℝ => lambda * t - (L t).re / 2)
        (lambda - (((eta * eta : ℝ) : ℂ) * D t).re / 2) t := by
      exact (((hasDerivAt_id t).const_mul lambda).sub (h2.div_const 2)).congr_deriv (by
        rw [mul_one])
    exact h1.mul h3.exp
  have hanti : AntitoneOn φ (Set.Ici 0) := by
    apply antitoneOn_of_deriv_nonpos (convex_Ici 0)
    · exact fun t ht => (hder t ht).continuousAt.continuousWithinAt
    · intro t ht
      rw [interior_Ici] at ht
      exact (hder t (le_of_lt ht)).differentiableAt.differentiableWithinAt
    · intro t ht
      rw [interior_Ici] at ht
      rw [(hder t (le_of_lt ht)).deriv]
      set E := Real.exp (lambda * t - (L t).re / 2) with hE
      have hEp : 0 < E := Real.exp_pos _
      have hq : (chfQ (u : ℂ)).re = -(u * u) := by
        rw [chfQ_eq]; simp
      have e2 : ((2 : ℂ)) = ((2 : ℝ) : ℂ) := by norm_num
      have hr1 : (aj * chfQ u / 2 - lambda * D t + ((eta * eta : ℝ) : ℂ) / 2 * (D t) ^ 2).re
          = -(aj * (u * u)) / 2 - lambda * (D t).re
            + eta * eta / 2 * ((D t).re ^ 2 - (D t).im ^ 2) := by
        have e3 : (((eta * eta : ℝ) : ℂ) / ((2 : ℝ) : ℂ)) = ((eta * eta / 2 : ℝ) : ℂ) := by push_cast; ring
        rw [e2, e3, Complex.add_re, Complex.sub_re, Complex.div_ofReal_re, Complex.re_ofReal_mul,
          Complex.re_ofReal_mul, Complex.re_ofReal_mul, hq, sq, Complex.mul_re]
        ring
      rw [hr1, Complex.re_ofReal_mul]
      have : (-(aj * (u * u)) / 2 - lambda * (D t).re + eta * eta / 2 * ((D t).re ^ 2 - (D t).im ^ 2)) * E
          + (D t).re * (E * (lambda - eta * eta * (D t).re / 2))
          = -((aj * (u * u) / 2 + eta * eta / 2 * (D t).im ^ 2) * E) := by ring
      rw [this, neg_nonpos]
      refine mul_nonneg (add_nonneg ?_ ?_) hEp.le
      · exact div_nonneg (mul_nonneg ha (mul_self_nonneg _)) two_pos.le
      · exact mul_nonneg (div_nonneg (mul_self_nonneg _) two_pos.le) (sq_nonneg _)
  have h0 : φ 0 ≤ 0 := by
    have : D 0 = dp := advPath_zero _ _ _ _ _
    rw [hφ]
    dsimp only
    rw [this]
    exact mul_nonpos_of_nonpos_of_nonneg hdp (Real.exp_pos _).le
  have h1 : φ s ≤ 0 := (hanti (Set.mem_Ici.2 (le_refl 0)) (Set.mem_Ici.2 hs) hs).trans h0
  by_contra hc
  have : 0 < φ s := mul_pos (not_le.1 hc) (Real.exp_pos _)
  linarith

theorem continuousOn_advPath {lambda eta aj : ℝ} (hl : 0 < lambda) (ha : 0 ≤ aj) (u : ℝ) {dp : ℂ}
    (hdp : dp.re ≤ 0) : ContinuousOn (advPath lambda eta aj u dp) (Set.Ici 0) :=
  fun _ ht => (hasDerivAt_advPath (eta := eta) hl ha u hdp ht).continuousAt.continuousWithinAt

/-- The second result is `λ v₀ ∫ D`. -/
theorem advAnti_integral {lambda eta aj v0 : ℝ} (hl : 0 < lambda) (he : eta ≠ 0) (ha : 0 ≤ aj) (u : ℝ)
    {dp : ℂ} (hdp : dp.re ≤ 0) {s : ℝ} (hs : 0 ≤ s) :
    ((v0 * lambda / (eta * eta) : ℝ) : ℂ) * advAnti lambda eta aj u dp s
      = ((lambda * v0 : ℝ) : ℂ) * ∫ t in (0 : ℝ)..s, advPath lambda eta aj u dp t := by
  obtain ⟨-, h2, -, -⟩ := adv_regular (eta := eta) hl ha u hdp
  have hint : (((eta * eta : ℝ) : ℂ)) * (∫ t in (0 : ℝ)..s, advPath lambda eta aj u dp t)
      = advAnti lambda eta aj u dp s - advAnti lambda eta aj u dp 0 := by
    rw [← intervalIntegral.integral_const_mul]
    apply intervalIntegral.integral_eq_sub_of_hasDerivAt
    · intro t ht
      rw [Set.uIcc_of_le hs] at ht
      exact hasDerivAt_advAnti hl ha u hdp ht.1
    · apply ContinuousOn.intervalIntegrable
      rw [Set.uIcc_of_le hs]
      exact ((continuousOn_advPath hl ha u hdp).mono fun t ht => ht.1).const_smul
        ((eta * eta : ℝ) : ℂ)
  have h0 : advAnti lambda eta aj u dp 0 = 0 := by
    rw [advAnti, hestonLog_zero h2]; simp
  rw [h0, sub_zero] at hint
  rw [← hint]
  have : (eta : ℂ) ≠ 0 := by exact_mod_cast he
  push_cast
  field_simp

end Verif
