import Verif.Lemmas.FxTrade
import Verif.Props.Forwards

/-!
# C31, C33: FX forwards and options
-/

namespace Verif

open Outcome Set

variable {ops : SliceOps} {m : FxMarket} {F D v w : ℝ} {c : Ccy}

/-! ## C31: FX forwards -/

/-- The value of a forward on a foreign-currency notional: signed notional times
(outright forward minus strike), discounted, in domestic currency. -/
theorem C31_value_foreign {x : FxForward} (hf : outright ops x.asset m x.expiry = .ok F)
    (hd : m.domestic.discount x.expiry = .ok D) (hc : x.asset.frn = .ok x.notionalCcy) :
    ∃ dom, x.asset.dom = .ok dom ∧
      x.mtm ops m = .ok ⟨dom, x.notional * x.direction.sign * (F - x.strike) * D⟩ := by
  rw [Pair.frn_eq] at hc
  refine ⟨_, Pair.dom_eq _, ?_⟩
  rw [fwd_mtm hf hd, if_pos (by injection hc with hc; exact hc.symm)]

/-- The outright forward is spot plus the quoted points divided by 100 for yen pairs and
10000 otherwise. -/
theorem C31_outright {p : Pair} {e : Int} :
    outright ops p m e = .ok F ↔ ∃ pts, getForward ops m.forwards e p.calendar = .ok (some pts) ∧
      F = m.spot + pts / (if p.dom = .ok .jpy then 100 else 10000) := by
  have hconv : ((p.converter : Int) : ℝ) = if p.dom = .ok .jpy then 100 else 10000 := by
    have : p.converter = if p.dom = .ok .jpy then 100 else 10000 := by
      cases p <;> decide +kernel
    rw [this]; split <;> norm_num
  unfold outright
  rw [bind_eq_ok, hconv]
  constructor
  · rintro ⟨a, h1, h2⟩
    cases a with
    | none => cases h2
    | some pts => cases h2; exact ⟨pts, h1, rfl⟩
  · rintro ⟨pts, h1, rfl⟩
    exact ⟨some pts, h1, rfl⟩

/-- A trade without forward points for its expiry is reported as expired. -/
theorem C31_expired {x : FxForward} (h : getForward ops m.forwards x.expiry x.asset.calendar = .ok none) :
    x.mtm ops m = .fail .tradeExpired := by
  unfold FxForward.mtm outright
  rw [h]; rfl

/-- A Buy is worth the negative of the same Sell. -/
theorem C31_mirror {x : FxForward} (h : x.mtm ops m = .ok ⟨c, v⟩) :
    FxForward.mtm ops { x with direction := x.direction.flip } m = .ok ⟨c, -v⟩ := by
  obtain ⟨F, D, hF, hD⟩ := fwd_mtm_ok h
  rw [fwd_mtm hF hD] at h
  rw [fwd_mtm (x := { x with direction := x.direction.flip }) hF hD]
  injection h with h
  injection h with h1 h2
  subst h1 h2
  simp only [Direction.sign_flip, Outcome.ok.injEq, CurrencyValue.mk.injEq, true_and]
  split <;> ring

/-- The value is linear in the notional. -/
theorem C31_linear {x : FxForward} (a b : ℝ)
    (h1 : FxForward.mtm ops { x with notional := a } m = .ok ⟨c, v⟩)
    (h2 : FxForward.mtm ops { x with notional := b } m = .ok ⟨c, w⟩) (s t : ℝ) :
    FxForward.mtm ops { x with notional := s * a + t * b } m = .ok ⟨c, s * v + t * w⟩ := by
  obtain ⟨F, D, hF, hD⟩ := fwd_mtm_ok h1
  have hF' : outright ops x.asset m x.expiry = .ok F := hF
  have hD' : m.domestic.discount x.expiry = .ok D := hD
  rw [fwd_mtm (x := { x with notional := a }) hF' hD'] at h1
  rw [fwd_mtm (x := { x with notional := b }) hF' hD'] at h2
  rw [fwd_mtm (x := { x with notional := s * a + t * b }) hF' hD']
  injection h1 with h1
  injection h1 with e1 e2
  injection h2 with h2
  injection h2 with e3 e4
  subst e1 e2 e4
  simp only [Outcome.ok.injEq, CurrencyValue.mk.injEq, true_and]
  split <;> ring

/-- With a non-zero notional the value is zero exactly at the outright forward. -/
theorem C31_zero {x : FxForward} (hf : outright ops x.asset m x.expiry = .ok F)
    (hn : x.notional ≠ 0) (hk : x.strike ≠ 0) (h : x.mtm ops m = .ok ⟨c, v⟩) :
    v = 0 ↔ x.strike = F := by
  obtain ⟨F', D, hF, hD⟩ := fwd_mtm_ok h
  rw [hf] at hF; cases hF
  rw [fwd_mtm hf hD] at h
  injection h with h
  injection h with h1 h2
  subst h2
  have hD0 := (C36_discount_pos hD).ne'
  have hs := x.direction.sign_ne
  have hN : -x.notional / x.strike ≠ 0 := div_ne_zero (neg_ne_zero.2 hn) hk
  rw [mul_eq_zero, or_iff_left hD0]
  split
  · rw [mul_eq_zero, or_iff_right (mul_ne_zero hn hs), sub_eq_zero]; exact eq_comm
  · rw [mul_eq_zero, or_iff_right (mul_ne_zero hN hs), sub_eq_zero]; exact eq_comm

/-- Between two markets with the same discount factor the value moves by delta times the
discount factor times the move of the outright forward. -/
theorem C31_delta {x : FxForward} {m' : FxMarket} {F' delta : ℝ} {c' c'' : Ccy}
    (hf : outright ops x.asset m x.expiry = .ok F) (hf' : outright ops x.asset m' x.expiry = .ok F')
    (hd : m.domestic.discount x.expiry = .ok D) (hd' : m'.domestic.discount x.expiry = .ok D)
    (h : x.mtm ops m = .ok ⟨c, v⟩) (h' : x.mtm ops m' = .ok ⟨c', w⟩)
    (hdel : x.delta = .ok ⟨c'', delta⟩) :
    w - v = delta * D * (F' - F) ∧ x.asset.frn = .ok c'' ∧ x.asset.dom = .ok c := by
  rw [fwd_mtm hf hd] at h
  rw [fwd_mtm hf' hd'] at h'
  rw [fwd_delta] at hdel
  injection h with h
  injection h with e1 e2
  injection h' with h'
  injection h' with e3 e4
  injection hdel with hdel
  injection hdel with e5 e6
  subst e1 e2 e4 e5 e6
  refine ⟨?_, Pair.frn_eq _, Pair.dom_eq _⟩
  split <;> ring

/-- A domestic-currency notional is the opposite of the foreign-currency notional it
buys at the strike. -/
theorem C31_domestic {x : FxForward} {frn : Ccy} (hfrn : x.asset.frn = .ok frn)
    (hc : x.notionalCcy ≠ frn) (h : x.mtm ops m = .ok ⟨c, v⟩) :
    FxForward.mtm ops { x with notionalCcy := frn, notional := x.notional / x.strike } m =
      .ok ⟨c, -v⟩ := by
  obtain ⟨F, D, hF, hD⟩ := fwd_mtm_ok h
  rw [fwd_mtm hF hD] at h
  rw [fwd_mtm (x := { x with notionalCcy := frn, notional := x.notional / x.strike }) hF hD]
  rw [Pair.frn_eq] at hfrn
  injection hfrn with hfrn
  subst hfrn
  injection h with h
  injection h with h1 h2
  subst h1 h2
  simp only [Outcome.ok.injEq, CurrencyValue.mk.injEq, true_and, if_true]
  rw [if_neg hc]; ring

/-- Forwards have no gamma and no vega. -/
theorem C31_gamma_vega (x : FxForward) : x.gamma = .ok 0 ∧ x.vega = .ok 0 := ⟨rfl, rfl⟩

/-- Spot 1.06 on Monday 16 October 2023; forward points 0 for spot and 14 one week
later; flat 4% domestic curve. -/
noncomputable def sampleMarket : FxMarket :=
  ⟨ymd 2023 10 16, 106 / 100,
    ⟨ymd 2023 10 16, [pillarAt (ymd 2024 1 16) (4 / 100) false]⟩, sampleHelper⟩

theorem sampleMarket_dated :
    Dated sampleHelper Pair.eurusd.calendar [(ymd 2023 10 25, 14), (ymd 2023 10 18, 0)] := by
  refine .cons ⟨?_, rfl⟩ (.cons ⟨?_, rfl⟩ .nil) <;> decide +kernel

/-- On the settlement date of the one-week quote the forward is 1.0614. -/
theorem sampleMarket_outright :
    outright SliceOps.std .eurusd sampleMarket (ymd 2023 10 25) = .ok (10614 / 10000) := by
  rw [C31_outright]
  refine ⟨14, C30_exact sampleMarket_dated (by decide) (by decide) (by simp) ?_, ?_⟩
  · simp [ymd, yearStart, monthStart, leap]
  · have : Pair.eurusd.dom ≠ .ok .jpy := by decide
    rw [if_neg this]
    simp only [sampleMarket]; norm_num

theorem sampleMarket_discount :
    ∃ D, sampleMarket.domestic.discount (ymd 2023 10 25) = .ok D :=
  C36_discount_exists.2 ⟨by simp [sampleMarket], by decide⟩

/-- Buying 100 EUR at 1.05 is worth 1.14 USD discounted. -/
example : ∃ D, 0 < D ∧ FxForward.mtm SliceOps.std
    ⟨ymd 2023 10 25, .buy, .eurusd, .eur, 100, 105 / 100⟩ sampleMarket =
      .ok ⟨.usd, 114 / 100 * D⟩ := by
  obtain ⟨D, hD⟩ := sampleMarket_discount
  refine ⟨D, C36_discount_pos hD, ?_⟩
  rw [fwd_mtm (F := 10614 / 10000) sampleMarket_outright hD]
  simp only [Pair.ccys, Direction.sign, if_true]
  norm_num

/-! ## C33: FX option Greeks -/

/-- Delta: signed notional times the derivative of the undiscounted price in the
forward. -/
theorem C33_delta {x : FxOption} (hf : outright ops x.asset m x.expiry = .ok F)
    (hm : m.valuation < x.expiry) (hF : 0 < F) (hK : 0 < x.strike) (hv : 0 < x.volatility)
    (h : x.delta ops m = .ok ⟨c, v⟩) :
    ∃ u, v = x.notional * x.direction.sign * u ∧ x.asset.frn = .ok c ∧
      HasDerivAt (fun f => blackScholes f x.strike
        (x.volatility ^ 2 * (((x.expiry - m.valuation : Int) : ℝ) / 365)) 1 x.optionType) u F := by
  unfold FxOption.delta at h
  rw [bind_eq_ok] at h
  obtain ⟨ctx, hc, h⟩ := h
  obtain ⟨F', D, hF', hD⟩ := opt_context_ok hc
  rw [hf] at hF'; cases hF'
  rw [opt_context hf hD] at hc
  cases hc
  rw [Pair.frn_eq, ok_bind] at h
  cases h
  have hy := yf365_pos hm
  have hV : 0 < x.volatility * x.volatility * yf365 m.valuation x.expiry := by positivity
  refine ⟨_, rfl, Pair.frn_eq _, ?_⟩
  rw [d1_eq_bd1 hV, sq]
  have := hasDerivAt_bs_F (D := 1) hF hK hV x.optionType
  rwa [one_mul] at this

/-- Gamma: signed notional times the second derivative of the discounted price in the
forward. -/
theorem C33_gamma {x : FxOption} (hf : outright ops x.asset m x.expiry = .ok F)
    (hd : m.domestic.discount x.expiry = .ok D)
    (hm : m.valuation < x.expiry) (hF : 0 < F) (hK : 0 < x.strike) (hv : 0 < x.volatility)
    (h : x.gamma ops m = .ok v) :
    ∃ u, v = x.notional * x.direction.sign * u ∧
      HasDerivAt (deriv fun f => blackScholes f x.strike
        (x.volatility ^ 2 * (((x.expiry - m.valuation : Int) : ℝ) / 365)) D x.optionType) u F := by
  unfold FxOption.gamma at h
  rw [opt_context hf hd, ok_bind] at h
  have hy := yf365_pos hm
  have hV : 0 < x.volatility * x.volatility * yf365 m.valuation x.expiry := by positivity
  dsimp only at h
  rw [if_neg (not_le.2 (Real.sqrt_pos.2 hV))] at h
  cases h
  refine ⟨_, rfl, ?_⟩
  rw [d1_eq_bd1 hV, sq]
  exact hasDerivAt_bs_FF hF hK hV x.optionType

/-- Vega: the value lost by the holder of the position's premium account per point of
volatility, that is minus the derivative of the reported value divided by 100. -/
theorem C33_vega {x : FxOption} {val : ℝ → ℝ} (hf : outright ops x.asset m x.expiry = .ok F)
    (hm : m.valuation < x.expiry) (hF : 0 < F) (hK : 0 < x.strike) (hv : 0 < x.volatility)
    (hval : ∀ sg, FxOption.mtm ops { x with volatility := sg } m = .ok ⟨c, val sg⟩)
    (h : x.vega ops m = .ok v) : HasDerivAt val (-(100 * v)) x.volatility := by
  unfold FxOption.vega at h
  rw [bind_eq_ok] at h
  obtain ⟨ctx, hc, h⟩ := h
  obtain ⟨F', D, hF', hD⟩ := opt_context_ok hc
  rw [hf] at hF'; cases hF'
  rw [opt_context hf hD] at hc
  cases hc
  have hy := yf365_pos hm
  have hV : 0 < x.volatility * x.volatility * yf365 m.valuation x.expiry := by positivity
  rw [Pair.frn_eq] at h
  dsimp only at h
  rw [if_neg (not_le.2 hy), ok_bind] at h
  cases h
  rw [d1_eq_bd1 hV]
  have hb := hasDerivAt_bs_vol (D := D) hF hK hy hv x.optionType
  by_cases hcc : x.notionalCcy = x.asset.ccys.2
  · have e : val = fun sg => -x.direction.sign * x.notional / m.spot * blackScholes F x.strike
        (sg * sg * yf365 m.valuation x.expiry) D x.optionType := by
      funext sg
      have := hval sg
      rw [opt_mtm (x := { x with volatility := sg }) hf hD hm.le] at this
      injection this with this
      injection this with _ this
      rw [← this, if_pos hcc]; ring
    rw [e]
    refine (hb.const_mul _).congr_deriv ?_
    rw [if_pos hcc]; ring
  · have e : val = fun sg => -x.direction.sign * x.notional / x.strike * blackScholes F x.strike
        (sg * sg * yf365 m.valuation x.expiry) D x.optionType := by
      funext sg
      have := hval sg
      rw [opt_mtm (x := { x with volatility := sg }) hf hD hm.le] at this
      injection this with this
      injection this with _ this
      rw [← this, if_neg hcc]; ring
    rw [e]
    refine (hb.const_mul _).congr_deriv ?_
    rw [if_neg hcc]; ring

/-- Flipping the direction flips the sign of the value. -/
theorem C33_flip_mtm {x : FxOption} (h : x.mtm ops m = .ok ⟨c, v⟩) :
    FxOption.mtm ops { x with direction := x.direction.flip } m = .ok ⟨c, -v⟩ := by
  unfold FxOption.mtm at h ⊢
  rw [bind_eq_ok] at h
  obtain ⟨ctx, hc, h⟩ := h
  rw [show FxOption.context ops { x with direction := x.direction.flip } m = .ok ctx from hc,
    ok_bind]
  rw [Pair.frn_eq, ok_bind] at h ⊢
  cases h
  simp only [Direction.sign_flip, Outcome.ok.injEq, CurrencyValue.mk.injEq, true_and]
  split <;> ring

/-- Flipping the direction flips the sign of the delta. -/
theorem C33_flip_delta {x : FxOption} (h : x.delta ops m = .ok ⟨c, v⟩) :
    FxOption.delta ops { x with direction := x.direction.flip } m = .ok ⟨c, -v⟩ := by
  unfold FxOption.delta at h ⊢
  rw [bind_eq_ok] at h
  obtain ⟨ctx, hc, h⟩ := h
  rw [show FxOption.context ops { x with direction := x.direction.flip } m = .ok ctx from hc,
    ok_bind]
  rw [Pair.frn_eq, ok_bind] at h ⊢
  cases h
  simp only [Direction.sign_flip, Outcome.ok.injEq, CurrencyValue.mk.injEq, true_and]
  ring

/-- Flipping the direction flips the sign of the gamma. -/
theorem C33_flip_gamma {x : FxOption} (h : x.gamma ops m = .ok v) :
    FxOption.gamma ops { x with direction := x.direction.flip } m = .ok (-v) := by
  unfold FxOption.gamma at h ⊢
  rw [bind_eq_ok] at h
  obtain ⟨ctx, hc, h⟩ := h
  rw [show FxOption.context ops { x with direction := x.direction.flip } m = .ok ctx from hc,
    ok_bind]
  by_cases h0 : ctx.sqrtV ≤ 0
  · rw [if_pos h0] at h ⊢
    cases h; simp
  · rw [if_neg h0] at h ⊢
    cases h
    simp only [Direction.sign_flip, Outcome.ok.injEq]
    ring

/-- Flipping the direction flips the sign of the vega. -/
theorem C33_flip_vega {x : FxOption} (h : x.vega ops m = .ok v) :
    FxOption.vega ops { x with direction := x.direction.flip } m = .ok (-v) := by
  unfold FxOption.vega at h ⊢
  rw [bind_eq_ok] at h
  obtain ⟨ctx, hc, h⟩ := h
  rw [show FxOption.context ops { x with direction := x.direction.flip } m = .ok ctx from hc,
    ok_bind]
  rw [Pair.frn_eq] at h ⊢
  by_cases h0 : ctx.yearFraction ≤ 0
  · rw [if_pos h0] at h ⊢
    cases h; simp
  · rw [if_neg h0] at h ⊢
    rw [ok_bind] at h ⊢
    cases h
    simp only [Direction.sign_flip, Outcome.ok.injEq]
    split <;> ring

/-- The reported value of a bought option is minus the premium of the contract: the
Black price converted at spot for a foreign notional, divided by the strike for a
domestic one. -/
theorem C33_value {x : FxOption} (hf : outright ops x.asset m x.expiry = .ok F)
    (hd : m.domestic.discount x.expiry = .ok D) (hm : m.valuation ≤ x.expiry) :
    x.mtm ops m = .ok ⟨x.notionalCcy, -(x.direction.sign * x.notional *
      blackScholes F x.strike (x.volatility ^ 2 * (((x.expiry - m.valuation : Int) : ℝ) / 365)) D
        x.optionType / (if x.asset.frn = .ok x.notionalCcy then m.spot else x.strike))⟩ := by
  rw [opt_mtm hf hd hm, Pair.frn_eq, sq]
  simp only [Outcome.ok.injEq, CurrencyValue.mk.injEq, true_and]
  by_cases h : x.notionalCcy = x.asset.ccys.2
  · rw [if_pos h, if_pos h.symm]; simp only [yf365]; ring
  · rw [if_neg h, if_neg (Ne.symm h)]; simp only [yf365]; ring

/-- One-week EUR call struck at 1.05 with 10% volatility. -/
noncomputable def sampleOption : FxOption :=
  ⟨ymd 2023 10 25, .buy, .eurusd, .call, .eur, 100, 105 / 100, 1 / 10⟩

/-- Its delta is a derivative. -/
example : ∃ v u, sampleOption.delta SliceOps.std sampleMarket = .ok ⟨.eur, v⟩ ∧ v = 100 * u ∧
    HasDerivAt (fun f => blackScholes f (105 / 100) ((1 / 10) ^ 2 * (9 / 365)) 1 .call) u
      (10614 / 10000) := by
  obtain ⟨D, hD⟩ := sampleMarket_discount
  have hf : outright SliceOps.std sampleOption.asset sampleMarket sampleOption.expiry =
    .ok (10614 / 10000) := sampleMarket_outright
  have h : ∃ v, sampleOption.delta SliceOps.std sampleMarket = .ok ⟨.eur, v⟩ := by
    unfold FxOption.delta
    rw [opt_context hf hD, ok_bind, Pair.frn_eq, ok_bind]
    exact ⟨_, rfl⟩
  obtain ⟨v, hv⟩ := h
  obtain ⟨u, h1, -, h3⟩ := C33_delta hf (by decide) (by norm_num)
    (by simp only [sampleOption]; norm_num) (by simp only [sampleOption]; norm_num) hv
  refine ⟨v, u, hv, by rw [h1]; simp [sampleOption, Direction.sign], ?_⟩
  have e : (sampleOption.expiry - sampleMarket.valuation : Int) = 9 := by decide
  rw [e] at h3
  have e2 : ((9 : Int) : ℝ) = 9 := by norm_num
  rw [e2] at h3
  exact h3

/-- Its value function exists for every volatility, as `C33_vega` supposes. -/
example : ∃ val : ℝ → ℝ, ∀ sg,
    FxOption.mtm SliceOps.std { sampleOption with volatility := sg } sampleMarket =
      .ok ⟨.eur, val sg⟩ := by
  obtain ⟨D, hD⟩ := sampleMarket_discount
  exact ⟨_, fun sg => C33_value (x := { sampleOption with volatility := sg })
    sampleMarket_outright hD (show ymd 2023 10 16 ≤ ymd 2023 10 25 by decide)⟩

end Verif
