import Verif.Props.FxTrade
import Verif.Props.Options

/-!
# C84: the same FX contract written in either currency, and synthetic forwards
-/

namespace Verif

open Outcome Set

variable {ops : SliceOps} {m : FxMarket} {F D v w : ℝ} {c c' : Ccy}

/-- The two currencies of a pair differ. -/
theorem Pair.ccys_ne (p : Pair) : p.ccys.1 ≠ p.ccys.2 := by cases p <;> decide

/-- The value of the contract written in domestic currency is its value written in foreign
currency converted at spot. -/
theorem C84_value {x : FxOption} (hfrn : x.asset.frn = .ok x.notionalCcy)
    (hdom : x.asset.dom = .ok c) (hK : x.strike ≠ 0) (hS : m.spot ≠ 0)
    (hm : m.valuation ≤ x.expiry) (h : x.mtm ops m = .ok ⟨c', v⟩) :
    (x.inDomestic c).mtm ops m = .ok ⟨c, m.spot * v⟩ := by
  have h0 := h
  unfold FxOption.mtm at h0
  rw [bind_eq_ok] at h0
  obtain ⟨ctx, hc, -⟩ := h0
  obtain ⟨F, D, hF, hD⟩ := opt_context_ok hc
  rw [Pair.frn_eq] at hfrn
  rw [Pair.dom_eq] at hdom
  injection hfrn with hfrn
  injection hdom with hdom
  subst hdom
  rw [opt_mtm hF hD hm, if_pos hfrn.symm] at h
  rw [opt_mtm (x := x.inDomestic _) hF hD hm, if_neg (show (x.inDomestic x.asset.ccys.1).notionalCcy ≠
        (x.inDomestic x.asset.ccys.1).asset.ccys.2 from Pair.ccys_ne _)]
  cases h
  simp only [FxOption.inDomestic, Outcome.ok.injEq, CurrencyValue.mk.injEq, true_and]
  field_simp

/-- So is its vega. -/
theorem C84_vega {x : FxOption} (hfrn : x.asset.frn = .ok x.notionalCcy)
    (hdom : x.asset.dom = .ok c) (hK : x.strike ≠ 0) (hS : m.spot ≠ 0)
    (h : x.vega ops m = .ok v) : (x.inDomestic c).vega ops m = .ok (m.spot * v) := by
  unfold FxOption.vega at h ⊢
  rw [bind_eq_ok] at h
  obtain ⟨ctx, hc, h⟩ := h
  have hc' : (x.inDomestic c).context ops m = .ok ctx := hc
  obtain ⟨F, D, hF, hD⟩ := opt_context_ok hc
  rw [hc', ok_bind]
  rw [opt_context hF hD] at hc
  rw [Pair.frn_eq] at hfrn
  rw [Pair.dom_eq] at hdom
  injection hfrn with hfrn
  injection hdom with hdom
  subst hdom
  have e1 : ctx.spot = m.spot := by cases hc; rfl
  have e2 : ctx.strike = x.strike := by cases hc; rfl
  by_cases h0 : ctx.yearFraction ≤ 0
  · rw [if_pos h0] at h ⊢
    cases h; simp
  · rw [if_neg h0] at h ⊢
    rw [Pair.frn_eq, ok_bind, if_pos hfrn.symm] at h
    rw [Pair.frn_eq, ok_bind, if_neg (show (x.inDomestic x.asset.ccys.1).notionalCcy ≠
        (x.inDomestic x.asset.ccys.1).asset.ccys.2 from Pair.ccys_ne _)]
    cases h
    rw [e1, e2]
    simp only [FxOption.inDomestic, Outcome.ok.injEq]
    field_simp

/-- The delta, reported in foreign currency either way, is multiplied by the strike. -/
theorem C84_delta_strike {x : FxOption} (h : x.delta ops m = .ok ⟨c', v⟩) :
    (x.inDomestic c).delta ops m = .ok ⟨c', x.strike * v⟩ := by
  unfold FxOption.delta at h ⊢
  rw [bind_eq_ok] at h
  obtain ⟨ctx, hc, h⟩ := h
  rw [show (x.inDomestic c).context ops m = .ok ctx from hc, ok_bind]
  rw [Pair.frn_eq, ok_bind] at h ⊢
  cases h
  simp only [FxOption.inDomestic, Outcome.ok.injEq, CurrencyValue.mk.injEq, true_and]
  ring

/-- So is the gamma. -/
theorem C84_gamma_strike {x : FxOption} (h : x.gamma ops m = .ok v) :
    (x.inDomestic c).gamma ops m = .ok (x.strike * v) := by
  unfold FxOption.gamma at h ⊢
  rw [bind_eq_ok] at h
  obtain ⟨ctx, hc, h⟩ := h
  rw [show (x.inDomestic c).context ops m = .ok ctx from hc, ok_bind]
  by_cases h0 : ctx.sqrtV ≤ 0
  · rw [if_pos h0] at h ⊢
    cases h; simp
  · rw [if_neg h0] at h ⊢
    cases h
    simp only [FxOption.inDomestic, Outcome.ok.injEq]
    ring

/-- The one-week EUR call struck at 1.05 on 100 EUR has a positive delta. -/
theorem sampleOption_delta :
    ∃ v, sampleOption.delta SliceOps.std sampleMarket = .ok ⟨.eur, v⟩ ∧ 0 < v := by
  obtain ⟨D, hD⟩ := sampleMarket_discount
  have hf : outright SliceOps.std sampleOption.asset sampleMarket sampleOption.expiry =
    .ok (10614 / 10000) := sampleMarket_outright
  unfold FxOption.delta
  rw [opt_context hf hD, ok_bind, Pair.frn_eq, ok_bind]
  refine ⟨_, rfl, ?_⟩
  refine mul_pos (mul_pos ?_ ?_) (mul_pos ?_ (normCdf_pos _))
  · show (0 : ℝ) < 100; norm_num
  · show (0 : ℝ) < 1; norm_num
  · show (0 : ℝ) < 1; norm_num

/-- **False**: the delta of a contract does not depend on the currency its notional is
written in.  The right to buy 100 EUR for 105 USD has another delta, in EUR, when it is
entered as 105 USD: the delta is not divided by the strike (`option.rs` 188). -/
theorem C84_delta_false :
    ¬ ∀ (x : FxOption) (m : FxMarket) (dom : Ccy) (v w : CurrencyValue),
      x.asset.frn = .ok x.notionalCcy → x.asset.dom = .ok dom →
      x.delta SliceOps.std m = .ok v → (x.inDomestic dom).delta SliceOps.std m = .ok w → v = w := by
  intro hall
  obtain ⟨v, hv, hp⟩ := sampleOption_delta
  have := hall sampleOption sampleMarket .usd _ _ (by decide) (by decide) hv (C84_delta_strike hv)
  injection this with _ this
  have e : sampleOption.strike = 105 / 100 := rfl
  rw [e] at this
  linarith

/-- Bought call plus sold put of a foreign notional, converted at spot: **minus** the value
of the bought forward (options are reported from the premium's side), with the forward's
delta. -/
theorem C84_synthetic_foreign {x : FxOption} {put : FxOption} {fwd : FxForward}
    {v1 v2 v3 d1 d2 d3 : CurrencyValue}
    (hx : x.optionType = .call) (hb : x.direction = .buy)
    (hput : put = { x with optionType := .put, direction := .sell })
    (hfwd : fwd = ⟨x.expiry, .buy, x.asset, x.notionalCcy, x.notional, x.strike⟩)
    (hfrn : x.asset.frn = .ok x.notionalCcy)
    (hf : outright ops x.asset m x.expiry = .ok F) (hF : 0 < F) (hK : 0 < x.strike)
    (hS : m.spot ≠ 0) (hm : m.valuation ≤ x.expiry)
    (h1 : x.mtm ops m = .ok v1) (h2 : put.mtm ops m = .ok v2) (h3 : fwd.mtm ops m = .ok v3)
    (h4 : x.delta ops m = .ok d1) (h5 : put.delta ops m = .ok d2) (h6 : fwd.delta = .ok d3) :
    m.spot * (v1.value + v2.value) = -v3.value ∧ d1.value + d2.value = d3.value := by
  subst hput hfwd
  obtain ⟨F', D, hF', hD⟩ := fwd_mtm_ok h3
  have hF' : outright ops x.asset m x.expiry = .ok F' := hF'
  have hD : m.domestic.discount x.expiry = .ok D := hD
  rw [hf] at hF'; cases hF'
  rw [Pair.frn_eq] at hfrn
  injection hfrn with hfrn
  rw [opt_mtm hf hD hm, if_pos hfrn.symm] at h1
  rw [opt_mtm (x := { x with optionType := .put, direction := .sell }) hf hD hm,
    if_pos hfrn.symm] at h2
  rw [fwd_mtm (x := ⟨x.expiry, .buy, x.asset, x.notionalCcy, x.notional, x.strike⟩) hf hD,
    if_pos hfrn.symm] at h3
  rw [fwd_delta, if_pos hfrn.symm] at h6
  unfold FxOption.delta at h4 h5
  rw [opt_context hf hD, ok_bind, Pair.frn_eq, ok_bind] at h4
  rw [opt_context (x := { x with optionType := .put, direction := .sell }) hf hD, ok_bind,
    Pair.frn_eq, ok_bind] at h5
  cases h1; cases h2; cases h3; cases h4; cases h5; cases h6
  have hp := C32_parity (D := D) (V := x.volatility * x.volatility * yf365 m.valuation x.expiry)
    hF hK
  simp only [hx, hb, Direction.sign, OptionType.omega, neg_mul, one_mul, normCdf_neg]
  constructor
  · rw [← add_div, mul_div_cancel₀ _ hS]
    linear_combination (-x.notional) * hp
  · ring

/-- With a domestic notional the two values agree, but the deltas do not: that of the options
is minus the strike times that of the forward. -/
theorem C84_synthetic_domestic {x : FxOption} {put : FxOption} {fwd : FxForward}
    {v1 v2 v3 d1 d2 d3 : CurrencyValue}
    (hx : x.optionType = .call) (hb : x.direction = .buy)
    (hput : put = { x with optionType := .put, direction := .sell })
    (hfwd : fwd = ⟨x.expiry, .buy, x.asset, x.notionalCcy, x.notional, x.strike⟩)
    (hfrn : x.asset.frn ≠ .ok x.notionalCcy)
    (hf : outright ops x.asset m x.expiry = .ok F) (hF : 0 < F) (hK : 0 < x.strike)
    (hm : m.valuation ≤ x.expiry)
    (h1 : x.mtm ops m = .ok v1) (h2 : put.mtm ops m = .ok v2) (h3 : fwd.mtm ops m = .ok v3)
    (h4 : x.delta ops m = .ok d1) (h5 : put.delta ops m = .ok d2) (h6 : fwd.delta = .ok d3) :
    v1.value + v2.value = v3.value ∧ d1.value + d2.value = -(x.strike * d3.value) := by
  subst hput hfwd
  obtain ⟨F', D, hF', hD⟩ := fwd_mtm_ok h3
  have hF' : outright ops x.asset m x.expiry = .ok F' := hF'
  have hD : m.domestic.discount x.expiry = .ok D := hD
  rw [hf] at hF'; cases hF'
  rw [Pair.frn_eq] at hfrn
  have hne : x.notionalCcy ≠ x.asset.ccys.2 := fun h => hfrn (by rw [h])
  rw [opt_mtm hf hD hm, if_neg hne] at h1
  rw [opt_mtm (x := { x with optionType := .put, direction := .sell }) hf hD hm,
    if_neg hne] at h2
  rw [fwd_mtm (x := ⟨x.expiry, .buy, x.asset, x.notionalCcy, x.notional, x.strike⟩) hf hD,
    if_neg hne] at h3
  rw [fwd_delta, if_neg hne] at h6
  unfold FxOption.delta at h4 h5
  rw [opt_context hf hD, ok_bind, Pair.frn_eq, ok_bind] at h4
  rw [opt_context (x := { x with optionType := .put, direction := .sell }) hf hD, ok_bind,
    Pair.frn_eq, ok_bind] at h5
  cases h1; cases h2; cases h3; cases h4; cases h5; cases h6
  have hp := C32_parity (D := D) (V := x.volatility * x.volatility * yf365 m.valuation x.expiry)
    hF hK
  simp only [hx, hb, Direction.sign, OptionType.omega, neg_mul, one_mul, normCdf_neg]
  have hK' := hK.ne'
  constructor
  · rw [← add_div, div_eq_iff hK']
    have e : -x.notional / x.strike * x.strike = -x.notional := div_mul_cancel₀ _ hK'
    linear_combination (-x.notional) * hp - (F - x.strike) * D * e
  · field_simp
    ring

/-- The one-week EUR call with its put and forward meet the hypotheses: every value and delta
exists, the forward is 1.0614 and the spot 1.06. -/
example : ∃ v1 v2 v3 d1 d2 d3 : CurrencyValue,
    sampleOption.mtm SliceOps.std sampleMarket = .ok v1 ∧
    FxOption.mtm SliceOps.std { sampleOption with optionType := .put, direction := .sell }
      sampleMarket = .ok v2 ∧
    FxForward.mtm SliceOps.std ⟨ymd 2023 10 25, .buy, .eurusd, .eur, 100, 105 / 100⟩ sampleMarket =
      .ok v3 ∧
    sampleOption.delta SliceOps.std sampleMarket = .ok d1 ∧
    FxOption.delta SliceOps.std { sampleOption with optionType := .put, direction := .sell }
      sampleMarket = .ok d2 ∧
    FxForward.delta ⟨ymd 2023 10 25, .buy, .eurusd, .eur, 100, 105 / 100⟩ = .ok d3 ∧
    0 < v3.value ∧ sampleMarket.spot * (v1.value + v2.value) = -v3.value ∧
    d1.value + d2.value = 100 := by
  obtain ⟨D, hD⟩ := sampleMarket_discount
  have hf : outright SliceOps.std sampleOption.asset sampleMarket sampleOption.expiry =
    .ok (10614 / 10000) := sampleMarket_outright
  have hm : sampleMarket.valuation ≤ sampleOption.expiry := by decide
  have h1 := opt_mtm (x := sampleOption) hf hD hm
  have h2 := opt_mtm (x := { sampleOption with optionType := .put, direction := .sell }) hf hD hm
  have h3 := fwd_mtm (x := ⟨ymd 2023 10 25, .buy, .eurusd, .eur, 100, 105 / 100⟩)
    (F := 10614 / 10000) sampleMarket_outright hD
  have h4 : ∃ d, sampleOption.delta SliceOps.std sampleMarket = .ok d := by
    unfold FxOption.delta
    rw [opt_context hf hD, ok_bind, Pair.frn_eq, ok_bind]
    exact ⟨_, rfl⟩
  have h5 : ∃ d, FxOption.delta SliceOps.std
      { sampleOption with optionType := .put, direction := .sell } sampleMarket = .ok d := by
    unfold FxOption.delta
    rw [opt_context (x := { sampleOption with optionType := .put, direction := .sell }) hf hD,
      ok_bind, Pair.frn_eq, ok_bind]
    exact ⟨_, rfl⟩
  obtain ⟨d1, h4⟩ := h4
  obtain ⟨d2, h5⟩ := h5
  have h6 := fwd_delta ⟨ymd 2023 10 25, .buy, .eurusd, .eur, 100, 105 / 100⟩
  have key := C84_synthetic_foreign (x := sampleOption) rfl rfl rfl rfl (by decide) hf
    (by norm_num) (show (0 : ℝ) < 105 / 100 by norm_num)
    (show (106 / 100 : ℝ) ≠ 0 by norm_num) hm h1 h2 h3 h4 h5 h6
  refine ⟨_, _, _, _, _, _, h1, h2, h3, h4, h5, h6, ?_, key.1, ?_⟩
  · have := C36_discount_pos hD
    simp only [Pair.ccys, Direction.sign, if_true]
    norm_num
    exact this
  · rw [key.2]
    simp [Pair.ccys, Direction.sign]

end Verif
