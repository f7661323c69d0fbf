import Verif.Lemmas.ExpectedPayoff
import Verif.Props.FxTrade
import Verif.Props.CapRisk

/-!
# C85: the option formulas are discounted expected payoffs
-/

namespace Verif

open Outcome MeasureTheory ProbabilityTheory

/-- **C85**: the levels the expectations are taken over have the forward as mean; the logarithm of
the first is normal with variance `v`, and so is the second itself. -/
theorem C85_levels {F v : ℝ} (hF : 0 < F) (hv : 0 ≤ v) :
    meanOverDraw (lognormalLevel F v) = F ∧ meanOverDraw (normalLevel F v) = F ∧
      (gaussianReal 0 1).map (fun z => Real.log (lognormalLevel F v z))
        = gaussianReal (Real.log F - v / 2) v.toNNReal ∧
      (gaussianReal 0 1).map (normalLevel F v) = gaussianReal F v.toNNReal := by
  refine ⟨lognormal_mean F hv, normal_mean F v, ?_, normalLevel_law F hv⟩
  rw [← normalLevel_law _ hv]
  congr 1
  funext z
  rw [lognormalLevel, Real.log_mul hF.ne' (Real.exp_ne_zero _), Real.log_exp, normalLevel]
  ring

/-- **C85**: the Black value of a call or put is the discount factor times the mean payoff over a
lognormal level with the forward as mean and the given variance of its logarithm. -/
theorem C85_black {F K v : ℝ} (hF : 0 < F) (hK : 0 < K) (hv : 0 ≤ v) (disc : ℝ) (ot : OptionType) :
    blackScholes F K v disc ot
      = disc * meanOverDraw fun z => vanillaPayoff (ot == .call) K (lognormalLevel F v z) := by
  rcases hv.eq_or_lt with rfl | hv'
  · have e : ∀ z, lognormalLevel F 0 z = F := by intro z; simp [lognormalLevel]
    rw [blackScholes.eq_def, if_pos le_rfl]
    simp only [e]
    cases ot <;> simp [meanOverDraw, vanillaPayoff]
  · have hc := lognormal_call hF hK hv'
    have hp := mean_put (lognormalLevel F v) K (lognormal_integrable F v)
    rw [lognormal_mean F hv, hc] at hp
    rw [blackScholes.eq_def, if_neg (not_le.2 hv')]
    cases ot with
    | call =>
      have e : (OptionType.call == OptionType.call) = true := rfl
      rw [e, hc]
      simp only [OptionType.omega, one_mul]
    | put =>
      have e : (OptionType.put == OptionType.call) = false := rfl
      rw [e, hp]
      simp only [OptionType.omega, neg_mul, one_mul, normCdf_neg]
      ring

/-- **C85**: so are the forward-based formulas used by the model calibrations, at variance `σ² t`. -/
theorem C85_black_forward {F K sigma t : ℝ} (hF : 0 < F) (hK : 0 < K) (hs : 0 ≤ sigma) (ht : 0 ≤ t)
    (disc : ℝ) :
    bsCallForward F K sigma t disc
        = disc * meanOverDraw (fun z => vanillaPayoff true K (lognormalLevel F (sigma ^ 2 * t) z)) ∧
      bsPutForward F K sigma t disc
        = disc * meanOverDraw (fun z => vanillaPayoff false K (lognormalLevel F (sigma ^ 2 * t) z)) := by
  have hc := C85_black hF hK (mul_nonneg (sq_nonneg sigma) ht) disc .call
  have hp := C85_black hF hK (mul_nonneg (sq_nonneg sigma) ht) disc .put
  have e1 : (OptionType.call == OptionType.call) = true := rfl
  have e2 : (OptionType.put == OptionType.call) = false := rfl
  rw [e1] at hc
  rw [e2] at hp
  rw [← hc, ← hp, blackScholes, blackScholes, bsCallForward, bsPutForward]
  by_cases h : sigma ≤ 0 ∨ t ≤ 0
  · have h0 : sigma ^ 2 * t = 0 := by
      rcases h with h | h
      · rw [le_antisymm h hs]; ring
      · rw [le_antisymm h ht]; ring
    rw [if_pos h, if_pos h, h0, if_pos le_rfl, if_pos le_rfl]
    exact ⟨rfl, rfl⟩
  · push Not at h
    have h0 : 0 < sigma ^ 2 * t := mul_pos (pow_pos h.1 2) h.2
    have hr : √(sigma ^ 2 * t) = sigma * √t := by rw [Real.sqrt_mul (sq_nonneg _), Real.sqrt_sq hs]
    have hn : ¬(sigma ≤ 0 ∨ t ≤ 0) := by push Not; exact h
    rw [if_neg hn, if_neg hn, if_neg (not_le.2 h0), if_neg (not_le.2 h0)]
    simp only [OptionType.omega, hr, one_mul, neg_mul]
    have : 1 / 2 * sigma * sigma * t = 1 / 2 * (sigma ^ 2 * t) := by ring
    rw [this]
    exact ⟨rfl, by ring⟩

/-- **C85**: the Bachelier value of a call or put is the mean payoff over a normal level with the
forward as mean and the given variance. -/
theorem C85_bachelier (F K : ℝ) {v : ℝ} (hv : 0 ≤ v) :
    bachelierCall F K v = meanOverDraw (fun z => vanillaPayoff true K (normalLevel F v z)) ∧
      bachelierPut F K v = meanOverDraw (fun z => vanillaPayoff false K (normalLevel F v z)) := by
  rcases hv.eq_or_lt with rfl | hv'
  · have e : ∀ z, normalLevel F 0 z = F := by intro z; simp [normalLevel]
    rw [bachelierCall, bachelierPut, if_pos le_rfl, if_pos le_rfl]
    simp only [e]
    simp [meanOverDraw, vanillaPayoff]
  · have hc := normal_call F K hv'
    have hp := mean_put (normalLevel F v) K (normal_integrable F v)
    rw [normal_mean F v, hc] at hp
    rw [bachelierCall, bachelierPut, if_neg (not_le.2 hv'), if_neg (not_le.2 hv'), hc, hp]
    refine ⟨rfl, ?_⟩
    simp only [normCdf_neg]
    ring

/-- **C85**: the reported value of an FX option is minus the direction times the notional times the
discounted mean payoff over a lognormal rate with the outright forward as mean, converted at spot
for a foreign notional and divided by the strike for a domestic one. -/
theorem C85_fx {ops : SliceOps} {m : FxMarket} {x : FxOption} {F D : ℝ}
    (hf : outright ops x.asset m x.expiry = .ok F) (hd : m.domestic.discount x.expiry = .ok D)
    (hm : m.valuation ≤ x.expiry) (hF : 0 < F) (hK : 0 < x.strike) :
    x.mtm ops m = .ok ⟨x.notionalCcy, -(x.direction.sign * x.notional *
      (D * meanOverDraw fun z => vanillaPayoff (x.optionType == .call) x.strike
        (lognormalLevel F (x.volatility ^ 2 * (((x.expiry - m.valuation : Int) : ℝ) / 365)) z)) /
          (if x.asset.frn = .ok x.notionalCcy then m.spot else x.strike))⟩ := by
  rw [C33_value hf hd hm, C85_black hF hK]
  refine mul_nonneg (sq_nonneg _) (div_nonneg ?_ (by norm_num))
  have : (0 : Int) ≤ x.expiry - m.valuation := by omega
  exact_mod_cast this

/-- **C85**: the value of a cap or floor is the sum over its periods of direction, notional, accrual
and payment discount factor times the mean payoff over a normal rate with the projected forward as
mean and the caplet's total variance. -/
theorem C85_cap {c : CapFloor} {cv : Curve} {vs : List CapletPillar} {x : ℝ}
    {tau : SchedPeriod → ℝ} {D : Int → ℝ} {s : SchedPeriod → ℝ} (hx : c.pv cv vs 0 0 = .ok x)
    (hy : ∀ p ∈ c.schedule, c.yearFraction p.start p.fin = .ok (tau p))
    (hD : ∀ p ∈ c.schedule, cv.discount p.start = .ok (D p.start) ∧
      cv.discount p.fin = .ok (D p.fin) ∧ cv.discount p.pay = .ok (D p.pay))
    (hs : ∀ p ∈ c.schedule, capletVolatility vs p.start c.strike = .ok (s p)) :
    x = (c.schedule.map fun p => c.direction.sign * c.notional * tau p * D p.pay *
      meanOverDraw fun z => vanillaPayoff (c.kind == .cap) c.strike
        (normalLevel ((D p.start / D p.fin - 1) / tau p)
          (capletTotalVariance c.style (s p) (yf365 c.valuation p.start) (yf365 c.valuation p.fin)) z)).sum := by
  obtain ⟨ms, h1, rfl⟩ := pv_ok.1 hx
  have key : ∀ (ps : List SchedPeriod) (ms : List CapletMarket),
      List.Forall₂ (fun p m => c.market p cv vs 0 0 = .ok m) ps ms → (∀ p ∈ ps, p ∈ c.schedule) →
      (ms.map fun m => c.direction.sign * c.notional * m.tau * m.dfPay * optionValue c.kind c.strike m)
        = ps.map fun p => c.direction.sign * c.notional * tau p * D p.pay *
          meanOverDraw fun z => vanillaPayoff (c.kind == .cap) c.strike
            (normalLevel ((D p.start / D p.fin - 1) / tau p) (capletTotalVariance c.style (s p)
              (yf365 c.valuation p.start) (yf365 c.valuation p.fin)) z) := by
    intro ps ms h
    induction h with
    | nil => intro _; rfl
    | @cons p m ps ms hm _ ih =>
      intro hmem
      have hp := hmem p List.mem_cons_self
      rw [List.map_cons, List.map_cons, ih fun q hq => hmem q (List.mem_cons_of_mem _ hq)]
      congr 1
      obtain ⟨t, ds, de, dp, sg, g1, g2, g3, g4, g5, rfl⟩ := market_ok.1 hm
      obtain ⟨d1, d2, d3⟩ := hD p hp
      rw [C38_zero_shift] at g2 g3 g4
      rw [hy p hp] at g1
      rw [d1] at g2
      rw [d2] at g3
      rw [d3] at g4
      rw [hs p hp] at g5
      obtain rfl := ok.inj g1
      obtain rfl := ok.inj g2
      obtain rfl := ok.inj g3
      obtain rfl := ok.inj g4
      obtain rfl := ok.inj g5
      simp only [zero_mul, add_zero]
      congr 1
      have hb := C85_bachelier ((D p.start / D p.fin - 1) / tau p) c.strike (C44_nonneg c.style (s p)
        (yf365 c.valuation p.start) (yf365 c.valuation p.fin))
      rw [optionValue.eq_def]
      cases c.kind with
      | cap => exact hb.1
      | floor => exact hb.2
  rw [key _ _ h1 fun _ h => h]

/-! ### Examples -/

/-- An at-the-money Black call on a forward of one, with total variance 4% and discount factor 9/10. -/
example : blackScholes 1 1 (4 / 100) (9 / 10) .call
    = 9 / 10 * meanOverDraw fun z => max (Real.exp (2 / 10 * z - 2 / 100) - 1) 0 := by
  rw [C85_black one_pos one_pos (by norm_num)]
  have e : √(4 / 100 : ℝ) = 2 / 10 := by
    rw [show (4 / 100 : ℝ) = (2 / 10) ^ 2 by norm_num, Real.sqrt_sq (by norm_num)]
  congr 2
  funext z
  have e1 : (OptionType.call == OptionType.call) = true := rfl
  rw [e1, vanillaPayoff, if_pos rfl, lognormalLevel, e, one_mul]
  norm_num

/-- A Bachelier put on a negative forward. -/
example : bachelierPut (-(1 / 100)) 0 (1 / 10000)
    = meanOverDraw fun z => max (0 - (-(1 / 100) + 1 / 100 * z)) 0 := by
  rw [(C85_bachelier (-(1 / 100)) 0 (by norm_num)).2]
  have e : √(1 / 10000 : ℝ) = 1 / 100 := by
    rw [show (1 / 10000 : ℝ) = (1 / 100) ^ 2 by norm_num, Real.sqrt_sq (by norm_num)]
  congr 1
  funext z
  rw [vanillaPayoff, if_neg (by decide), normalLevel, e]

/-- The sample FX option. -/
example : ∃ D, sampleOption.mtm SliceOps.std sampleMarket = .ok ⟨.eur, -(1 * 100 *
    (D * meanOverDraw fun z => vanillaPayoff true (105 / 100)
      (lognormalLevel (10614 / 10000) ((1 / 10) ^ 2 * (9 / 365)) z)) / sampleMarket.spot)⟩ := by
  obtain ⟨D, hD⟩ := sampleMarket_discount
  refine ⟨D, ?_⟩
  rw [C85_fx (x := sampleOption) sampleMarket_outright hD (show ymd 2023 10 16 ≤ ymd 2023 10 25 by decide)
    (by norm_num) (by simp only [sampleOption]; norm_num)]
  have e : (sampleOption.expiry - sampleMarket.valuation : Int) = 9 := by decide
  have e2 : ((9 : Int) : ℝ) = 9 := by norm_num
  have e3 : sampleOption.asset.frn = .ok sampleOption.notionalCcy := rfl
  rw [e, e2, if_pos e3]
  rfl

/-- The sample cap. -/
example : ∃ (D : Int → ℝ) (x : ℝ), sampleCap.pv sampleCurve (flatSurface (1 / 100)) 0 0 = .ok x ∧
    x = (twoPeriods.map fun p => 1 * 1000 * yf365 p.start p.fin * D p.pay *
      meanOverDraw fun z => vanillaPayoff true (2 / 100)
        (normalLevel ((D p.start / D p.fin - 1) / yf365 p.start p.fin)
          (capletTotalVariance .backwardCompounded (1 / 100) (yf365 0 p.start) (yf365 0 p.fin)) z)).sum := by
  obtain ⟨x, hx⟩ := sampleCap_pv .cap 0 0
  obtain ⟨D, hD⟩ := sampleCurve_discounts
  refine ⟨D, x, hx, ?_⟩
  refine C85_cap (c := sampleCap) (tau := fun p => yf365 p.start p.fin) (s := fun _ => 1 / 100) hx
    (fun _ _ => rfl) (fun q hq => ?_) (fun p _ => flatSurface_vol _ _ _)
  simp only [sampleCap, twoPeriods, List.mem_cons, List.not_mem_nil, or_false] at hq
  rcases hq with rfl | rfl <;>
    exact ⟨(hD _ (by decide)).1, (hD _ (by decide)).1, (hD _ (by decide)).1⟩

end Verif
