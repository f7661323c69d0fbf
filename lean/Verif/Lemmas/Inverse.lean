import Verif.Spec.Inverse
import Verif.Lemmas.ImpliedVol
import Verif.Lemmas.Units
import Verif.Props.HhwChf
import Verif.Props.HhwSim
import Verif.Props.CosBlack

/-!
# Lemmas for the direction of the pair
-/

namespace Verif
open Outcome Classical

theorem inv_max {F K : ℝ} (hF : 0 < F) (hK : 0 < K) :
    max (F - K) 0 = F * K * max (1 / K - 1 / F) 0 := by
  rw [mul_max_of_nonneg _ _ (mul_pos hF hK).le, mul_zero]
  congr 1
  field_simp

theorem inv_log {F K : ℝ} : Real.log (1 / F / (1 / K)) = -Real.log (F / K) := by
  rw [← Real.log_inv]
  congr 1
  rw [inv_div, div_div_eq_mul_div, one_div, mul_comm, div_one, ← div_eq_mul_inv]

theorem blackScholes_inverse {F K : ℝ} (hF : 0 < F) (hK : 0 < K) (V D : ℝ) :
    blackScholes F K V D .call = F * K * blackScholes (1 / F) (1 / K) V D .put := by
  unfold blackScholes
  by_cases h : V ≤ 0
  · rw [if_pos h, if_pos h]
    dsimp only
    rw [inv_max hF hK]; ring
  · rw [if_neg h, if_neg h]
    dsimp only [OptionType.omega]
    have hs : 0 < √V := Real.sqrt_pos.2 (not_le.1 h)
    have hV : √V * √V = V := Real.mul_self_sqrt (not_le.1 h).le
    rw [inv_log]
    have e1 : -1 * ((-Real.log (F / K) + 1 / 2 * V) / √V) =
        1 * ((Real.log (F / K) + 1 / 2 * V) / √V - √V) := by
      field_simp; rw [pow_two, hV]; ring
    have e2 : -1 * ((-Real.log (F / K) + 1 / 2 * V) / √V - √V) =
        1 * ((Real.log (F / K) + 1 / 2 * V) / √V) := by
      field_simp; rw [pow_two, hV]; ring
    rw [e1, e2]
    field_simp
    ring

theorem blackScholes_inverse_put {F K : ℝ} (hF : 0 < F) (hK : 0 < K) (V D : ℝ) :
    blackScholes F K V D .put = F * K * blackScholes (1 / F) (1 / K) V D .call := by
  rw [blackScholes_inverse (one_div_pos.2 hF) (one_div_pos.2 hK), one_div_one_div, one_div_one_div]
  field_simp

theorem bsCall_inverse {F K : ℝ} (hF : 0 < F) (hK : 0 < K) (sg t D : ℝ) :
    bsCallForward F K sg t D = F * K * bsPutForward (1 / F) (1 / K) sg t D := by
  unfold bsCallForward bsPutForward
  by_cases h : sg ≤ 0 ∨ t ≤ 0
  · rw [if_pos h, if_pos h, inv_max hF hK]; ring
  · rw [if_neg h, if_neg h]
    dsimp only
    rw [not_or, not_le, not_le] at h
    obtain ⟨hs, ht⟩ := h
    have hq : 0 < √t := Real.sqrt_pos.2 ht
    have hV : √t * √t = t := Real.mul_self_sqrt ht.le
    rw [inv_log]
    set w := √t with hw
    have e1 : -((-Real.log (F / K) + 1 / 2 * sg * sg * t) / (sg * w)) =
        (Real.log (F / K) + 1 / 2 * sg * sg * t) / (sg * w) - sg * w := by
      rw [← hV]; field_simp; ring
    have e2 : -((-Real.log (F / K) + 1 / 2 * sg * sg * t) / (sg * w) - sg * w) =
        (Real.log (F / K) + 1 / 2 * sg * sg * t) / (sg * w) := by
      rw [← hV]; field_simp; ring
    rw [e1, e2]
    field_simp

theorem bsPut_inverse {F K : ℝ} (hF : 0 < F) (hK : 0 < K) (sg t D : ℝ) :
    bsPutForward F K sg t D = F * K * bsCallForward (1 / F) (1 / K) sg t D := by
  rw [bsCall_inverse (one_div_pos.2 hF) (one_div_pos.2 hK), one_div_one_div, one_div_one_div]
  field_simp

theorem blackPrice_inverse {F K : ℝ} (hF : 0 < F) (hK : 0 < K) (isCall : Bool) (sg t D : ℝ) :
    blackPrice isCall F K sg t D = F * K * blackPrice (!isCall) (1 / F) (1 / K) sg t D := by
  cases isCall
  · exact bsPut_inverse hF hK sg t D
  · exact bsCall_inverse hF hK sg t D

theorem impliedVol_inverse {F K : ℝ} (hF : 0 < F) (hK : 0 < K) (target t D : ℝ) (isCall : Bool)
    (tol : ℝ) :
    bsImpliedVolTol (F * K * target) F K t D isCall (F * K * tol) =
      bsImpliedVolTol target (1 / F) (1 / K) t D (!isCall) tol := by
  have hc : 0 < F * K := mul_pos hF hK
  rw [impliedVol_eq, impliedVol_eq]
  have e : (fun s => blackPrice isCall F K s t D) =
      fun s => F * K * blackPrice (!isCall) (1 / F) (1 / K) s t D :=
    funext fun s => blackPrice_inverse hF hK _ _ _ _
  rw [e, bisectVol_unit hc]
  refine if_congr ?_ rfl rfl
  rw [blackPrice_inverse hF hK, blackPrice_inverse hF hK isCall 5, ← mul_sub, ← mul_add, gt_iff_lt,
    gt_iff_lt, mul_lt_mul_iff_right₀ hc, mul_lt_mul_iff_right₀ hc]

/-! ## FX-HHW -/

theorem inv_iu (u : ℂ) : Complex.I * (-u - Complex.I) = 1 - Complex.I * u := by
  rw [mul_sub, Complex.I_mul_I]; ring

theorem cOfTau_inverse (p : HhwParams) (u : ℂ) (s : ℝ) :
    p.cOfTau (-u - Complex.I) s = p.inverse.cOfTau u s := by
  unfold HhwParams.cOfTau
  by_cases h : s ≤ 0
  · rw [if_pos h, if_pos h]
  · rw [if_neg h, if_neg h]
    dsimp only [HhwParams.inverse, HhwParams.inverseKappa, Correlation4.inverse]
    rw [inv_iu]
    push_cast
    have e1 : (1 - Complex.I * u) * (1 - Complex.I * u) - (1 - Complex.I * u) =
        Complex.I * u * (Complex.I * u) - Complex.I * u := by ring
    have e2 : (p.heston.kappa : ℂ) - p.heston.gamma * p.correlations.xiSigma * (1 - Complex.I * u) =
        (p.heston.kappa - p.heston.gamma * p.correlations.xiSigma)
          - p.heston.gamma * -p.correlations.xiSigma * (Complex.I * u) := by ring
    have e3 : ∀ g : ℂ, g * g * (1 - Complex.I * u) * (1 - Complex.I * u - 1) =
        g * g * (Complex.I * u) * (Complex.I * u - 1) := fun g => by ring
    rw [e1, e2, e3]

theorem integrandVal_inverse (p : HhwParams) (hk : p.inverseKappa ≠ 0)
    (h : (p.domestic.sigma = 0 ∧ p.foreign.sigma = 0) ∨
      p.heston.gamma * p.correlations.xiSigma = 0) (u : ℂ) (s T : ℝ) :
    integrandVal p (-u - Complex.I) s T = integrandVal p.inverse u s T := by
  unfold integrandVal
  rw [cOfTau_inverse]
  have hkt : p.inverse.heston.kappa * p.inverse.heston.theta = p.heston.kappa * p.heston.theta := by
    show p.inverseKappa * (p.heston.kappa * p.heston.theta / p.inverseKappa) = _
    field_simp
  have hd : p.inverse.domestic = p.foreign := rfl
  have hf : p.inverse.foreign = p.domestic := rfl
  have hg : p.inverse.heston.gamma = p.heston.gamma := rfl
  have hc : p.inverse.correlations = p.correlations.inverse := rfl
  unfold driftRate fwdCovXV fwdVarX
  rw [hkt, hd, hf, hg, hc, inv_iu]
  dsimp only [Correlation4.inverse]
  rcases h with ⟨h1, h2⟩ | h
  · rw [h1, h2]
    push_cast
    ring
  · have hphi : phiOf p.inverse.heston s = phiOf p.heston s := by
      have : p.inverse.heston = p.heston := by
        have e : p.inverseKappa = p.heston.kappa := by rw [HhwParams.inverseKappa, h, sub_zero]
        have hk' : p.heston.kappa ≠ 0 := by rw [← e]; exact hk
        show Cir.mk _ _ _ _ = _
        rw [e, mul_div_cancel_left₀ _ hk']
      rw [this]
    rw [hphi]
    push_cast
    ring

theorem logForward_inverse (p : HhwParams) (T : ℝ) :
    p.inverse.logForward T = -p.logForward T := by
  unfold HhwParams.logForward
  rw [← Real.log_inv]
  congr 1
  show 1 / p.fx0 * Real.exp (-p.rd0 * T) / Real.exp (-p.rf0 * T) = _
  rw [inv_div, one_div]
  field_simp

theorem blackScholes_discount (F K V c D : ℝ) (ot : OptionType) :
    blackScholes F K V (c * D) ot = c * blackScholes F K V D ot := by
  unfold blackScholes
  by_cases h : V ≤ 0
  · rw [if_pos h, if_pos h]; dsimp only; ring
  · rw [if_neg h, if_neg h]; dsimp only; ring

theorem inverse_heston (p : HhwParams) (hk : 0 < p.heston.kappa) (hg : p.heston.gamma = 0) :
    p.inverse.heston = p.heston := by
  have e : p.inverseKappa = p.heston.kappa := by rw [HhwParams.inverseKappa, hg, zero_mul, sub_zero]
  show Cir.mk _ _ _ _ = _
  rw [e, mul_div_cancel_left₀ _ hk.ne']

theorem varianceRate_inverse (p : HhwParams) (hk : 0 < p.heston.kappa) (hg : p.heston.gamma = 0)
    (T t : ℝ) : p.inverse.varianceRate T t = p.varianceRate T t := by
  unfold HhwParams.varianceRate
  rw [inverse_heston p hk hg]
  have hd : p.inverse.domestic = p.foreign := rfl
  have hf : p.inverse.foreign = p.domestic := rfl
  have hc : p.inverse.correlations = p.correlations.inverse := rfl
  unfold fwdVarX
  rw [hd, hf, hc]
  dsimp only [Correlation4.inverse]
  ring

theorem forwardVariance_inverse (p : HhwParams) (hk : 0 < p.heston.kappa) (hg : p.heston.gamma = 0)
    (T : ℝ) : p.inverse.forwardVariance T = p.forwardVariance T := by
  unfold HhwParams.forwardVariance
  simp only [varianceRate_inverse p hk hg]

/-- The vector whose form with the inverse correlations is the form of `x` with the original ones. -/
def inverseVector (x : ℕ → ℝ) : ℕ → ℝ
  | 0 => -x 0
  | 1 => x 1
  | 2 => x 3
  | 3 => x 2
  | _ => 0

theorem quadForm_inverse (c : Correlation4) (x : ℕ → ℝ) :
    quadForm 4 c.inverse.matrix (inverseVector x) = quadForm 4 c.matrix x := by
  simp only [quadForm, Finset.sum_range_succ, Finset.sum_range_zero, Correlation4.matrix,
    Correlation4.inverse, inverseVector]
  ring

theorem inverse_inverse_correlation (c : Correlation4) : c.inverse.inverse = c := by
  simp [Correlation4.inverse]

theorem positiveDefinite_inverse_of (c : Correlation4) (h : PositiveDefiniteN 4 c.inverse.matrix) :
    PositiveDefiniteN 4 c.matrix := by
  rintro x ⟨a, ha, hx⟩
  rw [← quadForm_inverse]
  refine h _ ?_
  interval_cases a
  · exact ⟨0, by norm_num, neg_ne_zero.2 hx⟩
  · exact ⟨1, by norm_num, hx⟩
  · exact ⟨3, by norm_num, hx⟩
  · exact ⟨2, by norm_num, hx⟩

theorem positiveDefinite_inverse (c : Correlation4) :
    PositiveDefiniteN 4 c.inverse.matrix ↔ PositiveDefiniteN 4 c.matrix :=
  ⟨positiveDefinite_inverse_of c, fun h => positiveDefinite_inverse_of c.inverse (by
    rwa [inverse_inverse_correlation])⟩

/-! ## SABR -/

theorem zOverX_inverse {rho : ℝ} (h1 : -1 < rho) (h2 : rho < 1) (z : ℝ) :
    zOverX (-rho) (-z) = zOverX rho z := by
  unfold zOverX
  rw [abs_neg]
  by_cases h : |z| < 1 / 10 ^ 8
  · rw [if_pos h, if_pos h]; ring
  · rw [if_neg h, if_neg h]
    dsimp only
    have e : 1 - 2 * -rho * -z + -z * -z = 1 - 2 * rho * z + z * z := by ring
    rw [e]
    have hp : 0 < 1 - 2 * rho * z + z * z := by nlinarith [sq_nonneg (z - rho)]
    have hs : √(1 - 2 * rho * z + z * z) * √(1 - 2 * rho * z + z * z) = 1 - 2 * rho * z + z * z :=
      Real.mul_self_sqrt hp.le
    set w := √(1 - 2 * rho * z + z * z) with hw
    have hprod : (w + z - rho) * (w + -z - -rho) = (1 - rho) * (1 - -rho) := by
      have : (w + z - rho) * (w + -z - -rho) = w * w - (z - rho) * (z - rho) := by ring
      rw [this, hs]; ring
    have ha : (1 - rho : ℝ) ≠ 0 := by linarith
    have hb : (1 - -rho : ℝ) ≠ 0 := by linarith
    have hne : (w + z - rho) ≠ 0 := fun h0 => by
      rw [h0, zero_mul] at hprod
      exact mul_ne_zero ha hb hprod.symm
    have : (w + -z - -rho) / (1 - -rho) = ((w + z - rho) / (1 - rho))⁻¹ := by
      rw [inv_div, div_eq_div_iff hb hne]
      linarith
    rw [this, Real.log_inv, neg_div_neg_eq]

end Verif
