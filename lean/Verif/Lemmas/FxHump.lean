import Verif.Lemmas.Arbitrage
import Verif.Props.FxVol

/-!
# A quoted smile with a hump at the money
-/

namespace Verif

open Outcome Classical Filter Topology

theorem normCdf_near_half (y : ℝ) : |normCdf y - 1 / 2| ≤ 1 / 2 * |y| := by
  have h := Convex.norm_image_sub_le_of_norm_hasDerivWithin_le (f := normCdf) (f' := normPdf) (C := 1 / 2)
    (s := Set.univ) (x := 0) (y := y) (fun x _ => (hasDerivAt_normCdf x).hasDerivWithinAt)
    (fun x _ => ?_) convex_univ (Set.mem_univ _) (Set.mem_univ _)
  · rw [normCdf_zero, sub_zero] at h
    exact h
  · rw [Real.norm_eq_abs, abs_of_pos (normPdf_pos x), normPdf, div_le_iff₀ (by positivity)]
    have h2 : (2 : ℝ) ≤ √(2 * Real.pi) := by
      refine Real.le_sqrt_of_sq_le ?_
      have := Real.pi_gt_d2; linarith
    have : Real.exp (-x ^ 2 / 2) ≤ 1 := Real.exp_le_one_iff.2 (by nlinarith [sq_nonneg x])
    linarith

theorem fitQuadratic_neg {x0 x1 x2 s : ℝ} (h01 : x1 < x0) (h12 : x2 < x1) (h2 : 0 < x2) (hs : 0 < s)
    (h : x1 < 10 * x2) : (fitQuadratic (x0, s) (x1, 10 * s) (x2, s)).2.2 < 0 := by
  have d01 : 0 < x0 - x1 := by linarith
  have d12 : 0 < x1 - x2 := by linarith
  have d02 : 0 < x0 - x2 := by linarith
  have e : (fitQuadratic (x0, s) (x1, 10 * s) (x2, s)).2.2 =
      s * (x1 * x2 * (x1 - x2) - 10 * x0 * x2 * (x0 - x2) + x0 * x1 * (x0 - x1)) /
        ((x0 - x1) * (x0 - x2) * (x1 - x2)) := by
    unfold fitQuadratic
    dsimp only
    field_simp
    ring
  rw [e]
  refine div_neg_of_neg_of_pos (mul_neg_of_pos_of_neg hs ?_) (by positivity)
  have h3 : x1 * x2 * (x1 - x2) ≤ x0 * x1 * (x1 - x2) := by
    have : x1 * x2 ≤ x0 * x1 := by nlinarith
    exact mul_le_mul_of_nonneg_right this d12.le
  have h4 : x0 * x1 * (x0 - x2) < 10 * x0 * x2 * (x0 - x2) := by
    have : x0 * x1 < 10 * x0 * x2 := by nlinarith
    exact mul_lt_mul_of_pos_right this d02
  nlinarith

/-- ATM 20%, 25-delta call and put 2%. -/
noncomputable def humpPillar : VolPillar :=
  ⟨100, 1, [.atm (1 / 5), .call (1 / 4) (1 / 50), .put (1 / 4) (1 / 50)]⟩

theorem humpPillar_normalised : normaliseQuotes humpPillar.quotes =
    .ok (1 / 5, [⟨1 / 4, 1 / 50, 1 / 50⟩]) := by
  have hval : validateDelta (1 / 4) = .ok () := validateDelta_ok.2 (by norm_num)
  unfold normaliseQuotes humpPillar
  dsimp only
  rw [collectQuotes, if_neg (by simp), collectQuotes, hval, ok_bind, collectQuotes, hval, ok_bind,
    collectQuotes, ok_bind]
  rw [bucketUpdate, bucketUpdate, if_pos (by norm_num)]
  dsimp only
  rw [resolveAll, resolveAll]
  simp [resolvePartial, sortPairs]

theorem hump_smile : ∃ s, Smile.fromPillar humpPillar (1 / 100) = .ok s ∧ s.forward = 1 ∧
    0 < s.sigmaRef ∧ s.yearFraction = 1 / 100 ∧ s.c < 0 := by
  obtain ⟨b, hb⟩ := exists_quantile (p := 1 / 4) (by norm_num) (by norm_num)
  have ha : normCdf (-b) = 1 - 1 / 4 := by rw [normCdf_neg, hb]
  have b1 : b < -1 / 10 := by
    by_contra hle
    have h1 := strictMono_normCdf.monotone (not_lt.1 hle)
    have h2 := abs_le.1 (normCdf_near_half (-1 / 10))
    rw [hb] at h1
    rw [show |(-1 / 10 : ℝ)| = 1 / 10 by rw [abs_of_neg (by norm_num)]; norm_num] at h2
    linarith [h2.1]
  have b2 : -1 ≤ b := by
    by_contra hlt
    have h1 := strictMono_normCdf (not_le.1 hlt)
    have h2 := mills (y := 1) le_rfl
    have h3 : normPdf 1 ≤ 1 / 4 := by
      rw [normPdf, div_le_iff₀ (by positivity)]
      have h4 : (5 / 2 : ℝ) ≤ √(2 * Real.pi) := by
        refine Real.le_sqrt_of_sq_le ?_
        have := Real.pi_gt_d2; norm_num at this ⊢; linarith
      have h5 : Real.exp (-1 ^ 2 / 2) ≤ 5 / 8 := by
        have h6 : Real.exp (1 / 2 : ℝ) ≥ 1 + 1 / 2 + (1 / 2) ^ 2 / 2 :=
          Real.quadratic_le_exp_of_nonneg (by norm_num)
        have : Real.exp (-1 ^ 2 / 2 : ℝ) = (Real.exp (1 / 2))⁻¹ := by rw [← Real.exp_neg]; norm_num
        rw [this]
        refine inv_le_of_inv_le₀ (by norm_num) ?_
        norm_num at h6 ⊢
        linarith
      linarith
    rw [hb] at h1
    linarith
  have hT : √(1 / 100 : ℝ) = 1 / 10 := by
    rw [show (1 / 100 : ℝ) = (1 / 10) ^ 2 by norm_num, Real.sqrt_sq (by norm_num)]
  set kp := Real.exp (1 / 2 * (1 / 50) * (1 / 50) * (1 / 10) * (1 / 10) - -b * (1 / 50) * (1 / 10)) with hkp
  set kc := Real.exp (1 / 2 * (1 / 50) * (1 / 50) * (1 / 10) * (1 / 10) - b * (1 / 50) * (1 / 10)) with hkc
  set ka := Real.exp (1 / 2 * (1 / 5) * (1 / 5) * (1 / 100)) with hka
  have k1 : strikeFromPutDelta (1 / 4) (1 / 50) 1 (1 / 10) = .ok kp := by
    unfold strikeFromPutDelta
    rw [normInv_iff.2 ⟨by norm_num, by norm_num, ha⟩, ok_bind, one_mul]
  have k2 : strikeFromCallDelta (1 / 4) (1 / 50) 1 (1 / 10) = .ok kc := by
    unfold strikeFromCallDelta
    rw [normInv_iff.2 ⟨by norm_num, by norm_num, hb⟩, ok_bind, one_mul]
  have k3 : atmDnsStrike (1 / 5) 1 (1 / 100) = ka := by rw [atmDnsStrike, one_mul]
  have hsort : sortPairs [⟨1 / 4, 1 / 50, 1 / 50⟩] = [⟨1 / 4, 1 / 50, 1 / 50⟩] := by
    unfold sortPairs; simp
  have l1 : kp < ka := Real.exp_lt_exp.2 (by linarith)
  have l2 : ka < kc := Real.exp_lt_exp.2 (by linarith)
  have hinc : strikesIncrease ([(kp, 1 / 50)] ++ (ka, 1 / 5) :: [(kc, 1 / 50)]) = true := by
    simp only [List.cons_append, List.nil_append]
    rw [strikesIncrease, if_neg (not_le.2 l1), strikesIncrease, if_neg (not_le.2 l2), strikesIncrease]
    simp
  have hf : humpPillar.forward = 1 := rfl
  refine ⟨_, by
    unfold Smile.fromPillar
    rw [if_neg (by norm_num), hf, if_neg (by norm_num), humpPillar_normalised, ok_bind]
    dsimp only
    rw [hT, hsort, putStrikes, k1, ok_bind, putStrikes, ok_bind, List.reverse_singleton, callStrikes, k2,
      ok_bind, callStrikes, ok_bind, ok_bind, ok_bind, k3, hinc]
    rfl, rfl, ?_, rfl, ?_⟩
  · show (0 : ℝ) < 3 / 2 * (1 / 5); norm_num
  · show (fitQuadratic (normCdf (Real.log (1 / kp) / (3 / 2 * (1 / 5) * (1 / 10))), 1 / 50)
      (normCdf (Real.log (1 / ka) / (3 / 2 * (1 / 5) * (1 / 10))), 1 / 5)
      (normCdf (Real.log (1 / kc) / (3 / 2 * (1 / 5) * (1 / 10))), 1 / 50)).2.2 < 0
    have lg : ∀ x : ℝ, Real.log (1 / Real.exp x) = -x := fun x => by
      rw [one_div, Real.log_inv, Real.log_exp]
    rw [hkp, hka, hkc, lg, lg, lg, show (1 / 5 : ℝ) = 10 * (1 / 50) by norm_num]
    refine fitQuadratic_neg (strictMono_normCdf ?_) (strictMono_normCdf ?_) (normCdf_pos _) (by norm_num) ?_
    · rw [div_lt_div_iff_of_pos_right (by norm_num)]; linarith
    · rw [div_lt_div_iff_of_pos_right (by norm_num)]; linarith
    · refine (normCdf_lt_one _).trans_le ?_
      set y := -(1 / 2 * (1 / 50) * (1 / 50) * (1 / 10) * (1 / 10) - b * (1 / 50) * (1 / 10)) /
        (3 / 2 * (10 * (1 / 50)) * (1 / 10)) with hy
      have hy1 : -1 / 10 ≤ y := by
        rw [hy, le_div_iff₀ (by norm_num)]; linarith
      have h1 := strictMono_normCdf.monotone hy1
      have h2 := abs_le.1 (normCdf_near_half (-1 / 10))
      rw [show |(-1 / 10 : ℝ)| = 1 / 10 by rw [abs_of_neg (by norm_num)]; norm_num] at h2
      linarith [h2.1]

end Verif
