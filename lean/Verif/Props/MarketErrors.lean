import Verif.Lemmas.MarketErrors

/-!
# C102: values of FX trades react in proportion to errors in the market data
-/

namespace Verif

open Classical Outcome

/-- **C102.** The outright forward is off by at most the error of the spot plus the scaled error of the
forward points. -/
theorem C102_outright {ops : SliceOps} {σ π ε F : ℝ} {p : Pair} {m m' : FxMarket} {e : Int}
    (hm : MarketNear σ π ε p m m') (h : outright ops p m e = .ok F) :
    ∃ F', outright ops p m' e = .ok F' ∧ |F' - F| ≤ σ + π / ((p.converter : Int) : ℝ) := by
  obtain ⟨l, l', hd, hd', hn, hl⟩ := hm.points
  have hc := converter_pos p
  unfold outright at h ⊢
  rcases C98_forward_points (ops := ops) (t := e) hd hd' hm.quoted hn hl with ⟨h1, h2⟩ | ⟨x, y, h1, h2, hb⟩
  · rw [h1, ok_bind] at h
    simp at h
  · rw [h1, ok_bind] at h
    rw [h2, ok_bind]
    obtain rfl := ok.inj h
    refine ⟨_, rfl, ?_⟩
    rw [show m'.spot + y / ((p.converter : Int) : ℝ) - (m.spot + x / ((p.converter : Int) : ℝ)) =
      (m'.spot - m.spot) + (y - x) / ((p.converter : Int) : ℝ) by ring]
    refine (abs_add_le _ _).trans (add_le_add hm.spot ?_)
    rw [abs_div, abs_of_pos hc]
    exact div_le_div_of_nonneg_right hb hc.le

/-- **C102.** A forward contract: the error of the outright forward counts at the discount factor, the error
of the curve at the present value of the difference between forward and strike. -/
theorem C102_forward {ops : SliceOps} {σ π ε F D v : ℝ} {x : FxForward} {m m' : FxMarket} {c : Ccy}
    (hm : MarketNear σ π ε x.asset m m') (hF : outright ops x.asset m x.expiry = .ok F)
    (hD : m.domestic.discount x.expiry = .ok D) (h : x.mtm ops m = .ok ⟨c, v⟩) :
    ∃ v', x.mtm ops m' = .ok ⟨c, v'⟩ ∧ |v' - v| ≤
      |x.notional| / (if x.asset.frn = .ok x.notionalCcy then 1 else |x.strike|) * D *
        (Real.exp (ε * |yf365 m.domestic.valuation x.expiry|) * (σ + π / ((x.asset.converter : Int) : ℝ)) +
          (Real.exp (ε * |yf365 m.domestic.valuation x.expiry|) - 1) * |F - x.strike|) := by
  obtain ⟨F', hF', bF⟩ := C102_outright hm hF
  obtain ⟨D', hD', p, p', bD, bD2⟩ := marketDiscount_near hm hD
  rw [fwd_mtm hF hD] at h
  obtain ⟨rfl, rfl⟩ := CurrencyValue.mk.inj (ok.inj h)
  rw [fwd_mtm hF' hD', Pair.frn_eq]
  refine ⟨_, rfl, ?_⟩
  set E := Real.exp (ε * |yf365 m.domestic.valuation x.expiry|)
  set w := σ + π / ((x.asset.converter : Int) : ℝ)
  have core : |(F' - x.strike) * D' - (F - x.strike) * D| ≤ D * (E * w + (E - 1) * |F - x.strike|) := by
    rw [show (F' - x.strike) * D' - (F - x.strike) * D = (F' - F) * D' + (F - x.strike) * (D' - D) by ring]
    refine (abs_add_le _ _).trans ?_
    rw [abs_mul, abs_mul, abs_of_pos p']
    have k1 : |F' - F| * D' ≤ w * (D * E) := mul_le_mul bF bD p'.le ((abs_nonneg _).trans bF)
    have k2 := mul_le_mul_of_nonneg_left bD2 (abs_nonneg (F - x.strike))
    linarith
  by_cases hc : x.notionalCcy = x.asset.ccys.2
  · rw [if_pos hc, if_pos hc, if_pos (by rw [hc]), div_one,
      show x.notional * x.direction.sign * (F' - x.strike) * D' - x.notional * x.direction.sign * (F - x.strike) * D =
        x.notional * x.direction.sign * ((F' - x.strike) * D' - (F - x.strike) * D) by ring,
      abs_mul, abs_mul, sign_abs, mul_one, mul_assoc]
    exact mul_le_mul_of_nonneg_left core (abs_nonneg _)
  · rw [if_neg hc, if_neg hc, if_neg (by intro e; exact hc (ok.inj e).symm),
      show -x.notional / x.strike * x.direction.sign * (F' - x.strike) * D' -
        -x.notional / x.strike * x.direction.sign * (F - x.strike) * D =
        -x.notional / x.strike * x.direction.sign * ((F' - x.strike) * D' - (F - x.strike) * D) by ring,
      abs_mul, abs_mul, sign_abs, mul_one, abs_div, abs_neg, mul_assoc]
    exact mul_le_mul_of_nonneg_left core (by positivity)

/-- **C102.** An option on a domestic notional: errors of the outright forward, of the volatility (`ν`) and of
the curve. -/
theorem C102_option_domestic {ops : SliceOps} {σ π ε ν F D v s' : ℝ} {x : FxOption} {m m' : FxMarket} {c : Ccy}
    (hm : MarketNear σ π ε x.asset m m') (hF : outright ops x.asset m x.expiry = .ok F)
    (hD : m.domestic.discount x.expiry = .ok D) (he : m.valuation ≤ x.expiry) (hK : 0 < x.strike)
    (hw : σ + π / ((x.asset.converter : Int) : ℝ) < F) (hs : |s' - x.volatility| ≤ ν)
    (hn : x.asset.frn ≠ .ok x.notionalCcy) (h : x.mtm ops m = .ok ⟨c, v⟩) :
    ∃ v', ({ x with volatility := s' } : FxOption).mtm ops m' = .ok ⟨c, v'⟩ ∧ |v' - v| ≤
      |x.notional| / x.strike * (D * Real.exp (ε * |yf365 m.domestic.valuation x.expiry|) *
        (σ + π / ((x.asset.converter : Int) : ℝ) +
          min F x.strike * (ν * √(yf365 m.valuation x.expiry) / √(2 * Real.pi)))) +
      (Real.exp (ε * |yf365 m.domestic.valuation x.expiry|) - 1) * |v| := by
  obtain ⟨F', hF', bF⟩ := C102_outright hm hF
  obtain ⟨D', hD', p, p', bD, bD2⟩ := marketDiscount_near hm hD
  have w0 := (abs_nonneg _).trans bF
  have pF' : 0 < F' := by linarith [(abs_le.1 bF).1]
  have hc : ¬ x.notionalCcy = x.asset.ccys.2 := by
    intro e
    rw [Pair.frn_eq, e] at hn
    exact hn rfl
  rw [opt_mtm hF hD he, if_neg hc] at h
  obtain ⟨rfl, rfl⟩ := CurrencyValue.mk.inj (ok.inj h)
  have he' : m'.valuation ≤ x.expiry := by rw [hm.valuation]; exact he
  have k := opt_mtm (x := { x with volatility := s' }) hF' hD' he'
  rw [if_neg hc, hm.valuation] at k
  refine ⟨_, k, ?_⟩
  have b := blackUnit_near (T := yf365 m.valuation x.expiry) (w0.trans_lt hw) pF' hK p p' bF bD bD2 hs x.optionType
  dsimp only
  generalize blackScholes F' x.strike (s' * s' * yf365 m.valuation x.expiry) D' x.optionType = u' at *
  generalize blackScholes F x.strike (x.volatility * x.volatility * yf365 m.valuation x.expiry) D x.optionType = u at *
  rw [show -x.direction.sign * x.notional * u' / x.strike - -x.direction.sign * x.notional * u / x.strike =
    x.direction.sign * (x.notional / x.strike) * (u - u') by ring, abs_mul, abs_mul, sign_abs, one_mul, abs_div,
    abs_of_pos hK, abs_sub_comm,
    show -x.direction.sign * x.notional * u / x.strike = -(x.direction.sign * (x.notional / x.strike) * u) by ring,
    abs_neg, abs_mul, abs_mul, sign_abs, one_mul, abs_div, abs_of_pos hK]
  have q : 0 ≤ |x.notional| / x.strike := by positivity
  have := mul_le_mul_of_nonneg_left b q
  linarith

/-- **C102.** An option on a foreign notional is converted at the spot, whose error counts once more. -/
theorem C102_option_foreign {ops : SliceOps} {σ π ε ν F D v s' : ℝ} {x : FxOption} {m m' : FxMarket} {c : Ccy}
    (hm : MarketNear σ π ε x.asset m m') (hF : outright ops x.asset m x.expiry = .ok F)
    (hD : m.domestic.discount x.expiry = .ok D) (he : m.valuation ≤ x.expiry) (hK : 0 < x.strike)
    (hw : σ + π / ((x.asset.converter : Int) : ℝ) < F) (hs : |s' - x.volatility| ≤ ν) (hS : σ < m.spot)
    (hn : x.asset.frn = .ok x.notionalCcy) (h : x.mtm ops m = .ok ⟨c, v⟩) :
    ∃ v', ({ x with volatility := s' } : FxOption).mtm ops m' = .ok ⟨c, v'⟩ ∧ |v' - v| ≤
      (|x.notional| * (D * Real.exp (ε * |yf365 m.domestic.valuation x.expiry|) *
        (σ + π / ((x.asset.converter : Int) : ℝ) +
          min F x.strike * (ν * √(yf365 m.valuation x.expiry) / √(2 * Real.pi)))) +
      ((Real.exp (ε * |yf365 m.domestic.valuation x.expiry|) - 1) * m.spot + σ) * |v|) / (m.spot - σ) := by
  obtain ⟨F', hF', bF⟩ := C102_outright hm hF
  obtain ⟨D', hD', p, p', bD, bD2⟩ := marketDiscount_near hm hD
  have w0 := (abs_nonneg _).trans bF
  have pF' : 0 < F' := by linarith [(abs_le.1 bF).1]
  have hc : x.notionalCcy = x.asset.ccys.2 := by
    rw [Pair.frn_eq] at hn
    exact (ok.inj hn).symm
  rw [opt_mtm hF hD he, if_pos hc] at h
  obtain ⟨rfl, rfl⟩ := CurrencyValue.mk.inj (ok.inj h)
  have he' : m'.valuation ≤ x.expiry := by rw [hm.valuation]; exact he
  have k := opt_mtm (x := { x with volatility := s' }) hF' hD' he'
  rw [if_pos hc, hm.valuation] at k
  refine ⟨_, k, ?_⟩
  have b := blackUnit_near (T := yf365 m.valuation x.expiry) (w0.trans_lt hw) pF' hK p p' bF bD bD2 hs x.optionType
  have bS := hm.spot
  have s0 := (abs_nonneg _).trans bS
  have pS : 0 < m.spot := by linarith
  have pS1 : m.spot - σ ≤ m'.spot := by linarith [(abs_le.1 bS).1]
  have pS0 : 0 < m.spot - σ := by linarith
  have pS' : 0 < m'.spot := pS0.trans_le pS1
  dsimp only
  generalize blackScholes F' x.strike (s' * s' * yf365 m.valuation x.expiry) D' x.optionType = u' at *
  generalize blackScholes F x.strike (x.volatility * x.volatility * yf365 m.valuation x.expiry) D x.optionType = u at *
  generalize D * Real.exp (ε * |yf365 m.domestic.valuation x.expiry|) *
    (σ + π / ((x.asset.converter : Int) : ℝ) +
          min F x.strike * (ν * √(yf365 m.valuation x.expiry) / √(2 * Real.pi))) = B at *
  generalize Real.exp (ε * |yf365 m.domestic.valuation x.expiry|) - 1 = E at *
  have hv : |-x.direction.sign * x.notional * u / m.spot| = |x.notional| * |u| / m.spot := by
    rw [abs_div, abs_mul, abs_mul, abs_neg, sign_abs, one_mul, abs_of_pos pS]
  rw [hv, show -x.direction.sign * x.notional * u' / m'.spot - -x.direction.sign * x.notional * u / m.spot =
    -(x.direction.sign * x.notional) * ((u' - u) - u / m.spot * (m'.spot - m.spot)) / m'.spot by field_simp; ring,
    abs_div, abs_mul, abs_neg, abs_mul, sign_abs, one_mul, abs_of_pos pS']
  have hn0 := abs_nonneg x.notional
  have t1 : |(u' - u) - u / m.spot * (m'.spot - m.spot)| ≤ B + E * |u| + |u| / m.spot * σ := by
    refine (abs_sub _ _).trans (add_le_add b ?_)
    rw [abs_mul, abs_div, abs_of_pos pS]
    exact mul_le_mul_of_nonneg_left bS (by positivity)
  have e : |x.notional| * B + (E * m.spot + σ) * (|x.notional| * |u| / m.spot) =
      |x.notional| * (B + E * |u| + |u| / m.spot * σ) := by field_simp; ring
  rw [e]
  exact div_le_div₀ (mul_nonneg hn0 ((abs_nonneg _).trans t1)) (mul_le_mul_of_nonneg_left t1 hn0) pS0 pS1

/-! ## Examples -/

/-- The sample market with the spot one cent, the week's points one pip and the curve ten basis points
higher. -/
noncomputable def shiftedMarket : FxMarket :=
  ⟨ymd 2023 10 16, 107 / 100, ⟨ymd 2023 10 16, [pillarAt (ymd 2024 1 16) (41 / 1000) false]⟩,
    FwdHelper.new (ymd 2023 10 16) [⟨.weeks 1, 15⟩, ⟨.spot, 0⟩]⟩

theorem shiftedMarket_dated : Dated shiftedMarket.forwards Pair.eurusd.calendar
    [(ymd 2023 10 25, 15), (ymd 2023 10 18, 0)] := by
  refine .cons ⟨?_, rfl⟩ (.cons ⟨?_, rfl⟩ .nil) <;> decide +kernel

theorem shiftedMarket_near : MarketNear (1 / 100) 1 (1 / 1000) .eurusd sampleMarket shiftedMarket where
  valuation := rfl
  spot := by
    show |(107 / 100 - 106 / 100 : ℝ)| ≤ 1 / 100
    norm_num [abs_le]
  quoted := rfl
  points := by
    refine ⟨_, _, sampleMarket_dated, shiftedMarket_dated, by decide, .cons ⟨rfl, ?_⟩ (.cons ⟨rfl, ?_⟩ .nil)⟩ <;>
      norm_num
  curveDate := rfl
  curve := by
    refine .cons ⟨rfl, rfl, rfl, ?_⟩ .nil
    show |(41 / 1000 - 4 / 100 : ℝ)| ≤ 1 / 1000
    norm_num [abs_le]
  order := by simp [sampleMarket]

/-- The one-week outright forward moves by a cent and a pip: the bound of `C102_outright` is attained. -/
example : ∃ F', outright SliceOps.std .eurusd shiftedMarket (ymd 2023 10 25) = .ok F' ∧
    |F' - 10614 / 10000| = 1 / 100 + 1 / ((Pair.eurusd.converter : Int) : ℝ) := by
  have h : outright SliceOps.std .eurusd shiftedMarket (ymd 2023 10 25) = .ok (10715 / 10000) := by
    rw [C31_outright]
    refine ⟨15, C30_exact shiftedMarket_dated (by decide) (by decide) (by simp) ?_, ?_⟩
    · simp [ymd, yearStart, monthStart, leap]
    · have : Pair.eurusd.dom ≠ .ok .jpy := by decide
      rw [if_neg this]
      simp only [shiftedMarket]; norm_num
  refine ⟨_, h, ?_⟩
  have : Pair.eurusd.converter = 10000 := by decide
  rw [this]
  norm_num [abs_of_pos]

/-- A forward on 100 euros. -/
example : ∃ D v v', 0 < D ∧
    FxForward.mtm SliceOps.std ⟨ymd 2023 10 25, .buy, .eurusd, .eur, 100, 105 / 100⟩ sampleMarket = .ok ⟨.usd, v⟩ ∧
    FxForward.mtm SliceOps.std ⟨ymd 2023 10 25, .buy, .eurusd, .eur, 100, 105 / 100⟩ shiftedMarket = .ok ⟨.usd, v'⟩ ∧
    |v' - v| ≤ 100 * D * (Real.exp (1 / 1000 * |yf365 (ymd 2023 10 16) (ymd 2023 10 25)|) * (101 / 10000) +
      (Real.exp (1 / 1000 * |yf365 (ymd 2023 10 16) (ymd 2023 10 25)|) - 1) * (114 / 10000)) := by
  obtain ⟨D, hD⟩ := sampleMarket_discount
  obtain ⟨v', h', hb⟩ := C102_forward (x := ⟨ymd 2023 10 25, .buy, .eurusd, .eur, 100, 105 / 100⟩)
    shiftedMarket_near sampleMarket_outright hD (fwd_mtm sampleMarket_outright hD)
  refine ⟨D, _, v', C36_discount_pos hD, fwd_mtm sampleMarket_outright hD, h', hb.trans (le_of_eq ?_)⟩
  have c : Pair.eurusd.converter = 10000 := by decide
  dsimp only
  rw [if_pos (show Pair.eurusd.frn = .ok .eur by decide), c,
    show |(10614 / 10000 - 105 / 100 : ℝ)| = 114 / 10000 by norm_num [abs_of_pos],
    show |(100 : ℝ)| / 1 = 100 by norm_num [abs_of_pos],
    show (1 / 100 + 1 / ((10000 : Int) : ℝ)) = 101 / 10000 by norm_num]
  rfl

/-- The sample call on 100 euros, with the volatility one point higher. -/
example : ∃ v v', sampleOption.mtm SliceOps.std sampleMarket = .ok ⟨.eur, v⟩ ∧
    ({ sampleOption with volatility := 11 / 100 } : FxOption).mtm SliceOps.std shiftedMarket = .ok ⟨.eur, v'⟩ := by
  obtain ⟨D, hD⟩ := sampleMarket_discount
  have c : Pair.eurusd.converter = 10000 := by decide
  have hf : outright SliceOps.std sampleOption.asset sampleMarket sampleOption.expiry = .ok (10614 / 10000) :=
    sampleMarket_outright
  have hv := opt_mtm (x := sampleOption) hf hD (show ymd 2023 10 16 ≤ ymd 2023 10 25 by decide)
  obtain ⟨v', h', -⟩ := C102_option_foreign (x := sampleOption) (s' := 11 / 100) (ν := 1 / 100) shiftedMarket_near hf hD
    (show ymd 2023 10 16 ≤ ymd 2023 10 25 by decide) (show (0 : ℝ) < 105 / 100 by norm_num)
    (by show (1 / 100 + 1 / ((Pair.eurusd.converter : Int) : ℝ)) < 10614 / 10000
        rw [c]; norm_num)
    (by show |(11 / 100 - 1 / 10 : ℝ)| ≤ 1 / 100
        norm_num [abs_le])
    (by show (1 / 100 : ℝ) < 106 / 100
        norm_num)
    (by decide) hv
  exact ⟨_, v', hv, h'⟩

/-- The same call on a notional of 100 dollars. -/
example : ∃ v v',
    ({ sampleOption with notionalCcy := .usd } : FxOption).mtm SliceOps.std sampleMarket = .ok ⟨.usd, v⟩ ∧
    ({ sampleOption with notionalCcy := .usd, volatility := 11 / 100 } : FxOption).mtm SliceOps.std shiftedMarket =
      .ok ⟨.usd, v'⟩ := by
  obtain ⟨D, hD⟩ := sampleMarket_discount
  have c : Pair.eurusd.converter = 10000 := by decide
  have hf : outright SliceOps.std sampleOption.asset sampleMarket sampleOption.expiry = .ok (10614 / 10000) :=
    sampleMarket_outright
  have hv := opt_mtm (x := { sampleOption with notionalCcy := .usd }) hf hD
    (show ymd 2023 10 16 ≤ ymd 2023 10 25 by decide)
  obtain ⟨v', h', -⟩ := C102_option_domestic (x := { sampleOption with notionalCcy := .usd }) (s' := 11 / 100)
    (ν := 1 / 100) shiftedMarket_near hf hD
    (show ymd 2023 10 16 ≤ ymd 2023 10 25 by decide) (show (0 : ℝ) < 105 / 100 by norm_num)
    (by show (1 / 100 + 1 / ((Pair.eurusd.converter : Int) : ℝ)) < 10614 / 10000
        rw [c]; norm_num)
    (by show |(11 / 100 - 1 / 10 : ℝ)| ≤ 1 / 100
        norm_num [abs_le])
    (by decide) hv
  exact ⟨_, v', hv, h'⟩

end Verif
