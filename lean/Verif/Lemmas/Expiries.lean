import Verif.Spec.Expiries
import Verif.Lemmas.Arbitrage
import Verif.Props.FxVol
import Mathlib.Probability.Martingale.Basic

/-!
# Lemmas on prices at different expiries
-/

namespace Verif

open Outcome MeasureTheory

theorem black_le_iff {F K V V' : ℝ} (hF : 0 < F) (hK : 0 < K) (hV : 0 ≤ V) (hV' : 0 ≤ V') (ot : OptionType) :
    blackScholes F K V 1 ot ≤ blackScholes F K V' 1 ot ↔ V ≤ V' := by
  refine ⟨fun h => ?_, fun h => C32_monotone hF hK zero_le_one h ot⟩
  by_contra hc
  rw [not_le] at hc
  refine absurd h (not_le.2 ?_)
  rcases hV'.eq_or_lt with rfl | h0
  · exact (C32_monotone hF hK zero_le_one (by linarith : (0 : ℝ) ≤ V / 2) ot).trans_lt
      (C32_strict hF hK one_pos (by linarith) (by linarith) ot)
  · exact C32_strict hF hK one_pos h0 hc ot

theorem bsCall_black {F K sigma t : ℝ} (hF : 0 < F) (hK : 0 < K) (hs : 0 ≤ sigma) (ht : 0 ≤ t) :
    bsCallForward F K sigma t 1 = blackScholes F K (sigma ^ 2 * t) 1 .call := by
  rw [(C85_black_forward hF hK hs ht 1).1, C85_black hF hK (by positivity) 1 .call]
  rfl

theorem timeCorrection_slope (p : Sabr) {f k : ℝ} (hf : 0 < f) (hk : 0 < k) (t : ℝ) :
    p.timeCorrection f k t = 1 + haganSlope p f k * t := by
  have hp : 0 < f * k := mul_pos hf hk
  have e1 : p.fkHalf f k = (f * k) ^ ((1 - p.beta) / 2) := by
    unfold Sabr.fkHalf
    congr 1
    ring
  have e2 : p.fkHalf f k * p.fkHalf f k = (f * k) ^ (1 - p.beta) := by
    rw [e1, ← Real.rpow_add hp]
    congr 1
    ring
  unfold Sabr.timeCorrection haganSlope
  rw [e2, e1]
  ring

/-- The cubic `(1 + B t)² t` does not decrease while `1 + 3 B t` is not negative. -/
theorem cubic_mono {B s t : ℝ} (hst : s ≤ t) (h1 : 0 ≤ 1 + 3 * (B * s)) (h2 : 0 ≤ 1 + 3 * (B * t)) :
    (1 + B * s) ^ 2 * s ≤ (1 + B * t) ^ 2 * t := by
  have e : (1 + B * t) ^ 2 * t - (1 + B * s) ^ 2 * s =
      (t - s) * (1 + 2 * (B * t + B * s) + (B * t) ^ 2 + (B * t) * (B * s) + (B * s) ^ 2) := by ring
  have : 0 ≤ 1 + 2 * (B * t + B * s) + (B * t) ^ 2 + (B * t) * (B * s) + (B * s) ^ 2 := by
    generalize B * t = x at *
    generalize B * s = y at *
    nlinarith [mul_nonneg h1 h2, sq_nonneg (1 + 3 * x), sq_nonneg (1 + 3 * y)]
  have := mul_nonneg (sub_nonneg.2 hst) this
  linarith

/-- Just behind the point where `1 + 3 B t` vanishes it is lower. -/
theorem cubic_drop {B T : ℝ} (hT : 0 < T) (h : 1 + 3 * (B * T) < 0) : ∃ s t, 0 < s ∧ s < t ∧ t ≤ T ∧
    0 < 1 + B * s ∧ 0 < 1 + B * t ∧ (1 + B * t) ^ 2 * t < (1 + B * s) ^ 2 * s := by
  have hB : B < 0 := by
    by_contra hc
    have := mul_nonneg (not_lt.1 hc) hT.le
    linarith
  obtain ⟨b, rfl⟩ : ∃ b, B = -b := ⟨-B, by ring⟩
  have hb : 0 < b := by linarith
  have hs : 0 < 1 / (3 * b) := by positivity
  have hsT : 1 / (3 * b) < T := by rw [div_lt_iff₀ (by positivity)]; linarith
  have hbs : b * (1 / (3 * b)) = 1 / 3 := by field_simp
  set s := 1 / (3 * b)
  have h1 : s < min T (2 * s) := lt_min hsT (by linarith)
  have h2 : min T (2 * s) ≤ 2 * s := min_le_right _ _
  refine ⟨s, min T (2 * s), hs, h1, min_le_left _ _, ?_, ?_, ?_⟩
  · linarith
  · have := mul_le_mul_of_nonneg_left h2 hb.le
    linarith
  · generalize min T (2 * s) = t at *
    have hx0 : 0 < b * (t - s) := mul_pos hb (by linarith)
    have hx1 : b * (t - s) ≤ 1 / 3 := by
      have := mul_le_mul_of_nonneg_left h2 hb.le
      linarith
    have e1 : 1 + -b * t = 2 / 3 - b * (t - s) := by linear_combination -hbs
    have e2 : 1 + -b * s = 2 / 3 := by linear_combination -hbs
    have e3 : t = s * (1 + 3 * (b * (t - s))) := by linear_combination (-3 * (t - s)) * hbs
    rw [e1, e2]
    generalize b * (t - s) = x at *
    have e4 : (2 / 3 - x) ^ 2 * t = s * (4 / 9 - 3 * x ^ 2 * (1 - x)) := by rw [e3]; ring
    rw [e4]
    have : 0 < s * (3 * x ^ 2 * (1 - x)) := by
      have : 0 < 1 - x := by linarith
      positivity
    linarith

theorem hagan_value {p : Sabr} (hp : p.Admissible) {f k : ℝ} (hf : 0 < f) (hk : 0 < k) : ∃ A, 0 < A ∧
    ∀ t > 0, haganVol p f k t = .ok (A * (1 + haganSlope p f k * t)) := by
  refine ⟨p.alpha / (p.fkHalf f k * p.expansionDenom f k) * zOverX p.rho (p.z f k), ?_, fun t ht => ?_⟩
  · exact mul_pos (div_pos hp.alpha (mul_pos (fkHalf_pos p hf hk) (expansionDenom_pos p f k)))
      (zOverX_pos _ _ hp.rho0 hp.rho1)
  · rw [haganVol, if_pos ⟨hf, hk, ht⟩, timeCorrection_slope p hf hk]

end Verif
