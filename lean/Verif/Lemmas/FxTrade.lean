import Verif.Spec.FxTrade
import Verif.Lemmas.FxPair
import Verif.Lemmas.Options
import Verif.Props.YieldCurve

/-!
# Lemmas for FX trades
-/

namespace Verif

open Outcome Set

variable {ops : SliceOps} {m : FxMarket} {F D : ℝ}

theorem Direction.sign_flip (d : Direction) : d.flip.sign = -d.sign := by
  cases d <;> simp [Direction.flip, Direction.sign]

theorem Direction.sign_ne (d : Direction) : d.sign ≠ 0 := by
  cases d <;> simp [Direction.sign]

theorem fwd_mtm {x : FxForward} (hf : outright ops x.asset m x.expiry = .ok F)
    (hd : m.domestic.discount x.expiry = .ok D) :
    x.mtm ops m = .ok ⟨x.asset.ccys.1,
      (if x.notionalCcy = x.asset.ccys.2 then x.notional * x.direction.sign * (F - x.strike)
        else -x.notional / x.strike * x.direction.sign * (F - x.strike)) * D⟩ := by
  unfold FxForward.mtm
  rw [hf, ok_bind, hd, ok_bind, Pair.frn_eq, ok_bind, Pair.dom_eq, ok_bind]

theorem fwd_mtm_ok {x : FxForward} {v : CurrencyValue} (h : x.mtm ops m = .ok v) :
    ∃ F D, outright ops x.asset m x.expiry = .ok F ∧ m.domestic.discount x.expiry = .ok D := by
  unfold FxForward.mtm at h
  rw [bind_eq_ok] at h
  obtain ⟨F, hF, h⟩ := h
  rw [bind_eq_ok] at h
  obtain ⟨D, hD, -⟩ := h
  exact ⟨F, D, hF, hD⟩

theorem fwd_delta (x : FxForward) : x.delta = .ok ⟨x.asset.ccys.2,
    if x.notionalCcy = x.asset.ccys.2 then x.notional * x.direction.sign
      else -x.notional / x.strike * x.direction.sign⟩ := by
  unfold FxForward.delta
  rw [Pair.frn_eq, ok_bind]

theorem opt_context {x : FxOption} (hf : outright ops x.asset m x.expiry = .ok F)
    (hd : m.domestic.discount x.expiry = .ok D) :
    x.context ops m = .ok ⟨F, m.spot, x.strike, yf365 m.valuation x.expiry, D,
      √(x.volatility * x.volatility * yf365 m.valuation x.expiry),
      (Real.log (F / x.strike) + 1 / 2 * (x.volatility * x.volatility *
        yf365 m.valuation x.expiry)) /
        √(x.volatility * x.volatility * yf365 m.valuation x.expiry)⟩ := by
  unfold FxOption.context
  rw [hf, ok_bind, hd, ok_bind]

theorem opt_context_ok {x : FxOption} {c : BsContext} (h : x.context ops m = .ok c) :
    ∃ F D, outright ops x.asset m x.expiry = .ok F ∧ m.domestic.discount x.expiry = .ok D := by
  unfold FxOption.context at h
  rw [bind_eq_ok] at h
  obtain ⟨F, hF, h⟩ := h
  rw [bind_eq_ok] at h
  obtain ⟨D, hD, -⟩ := h
  exact ⟨F, D, hF, hD⟩

theorem yf365_pos {a b : Int} (h : a < b) : 0 < yf365 a b := by
  unfold yf365
  have : (0 : ℝ) < ((b - a : Int) : ℝ) := by exact_mod_cast (by omega : (0 : Int) < b - a)
  positivity

theorem yf365_nonneg {a b : Int} (h : a ≤ b) : 0 ≤ yf365 a b := by
  unfold yf365
  have : (0 : ℝ) ≤ ((b - a : Int) : ℝ) := by exact_mod_cast (by omega : (0 : Int) ≤ b - a)
  positivity

theorem opt_mtm {x : FxOption} (hf : outright ops x.asset m x.expiry = .ok F)
    (hd : m.domestic.discount x.expiry = .ok D) (hm : m.valuation ≤ x.expiry) :
    x.mtm ops m = .ok ⟨x.notionalCcy,
      if x.notionalCcy = x.asset.ccys.2 then
        -x.direction.sign * x.notional * blackScholes F x.strike
          (x.volatility * x.volatility * yf365 m.valuation x.expiry) D x.optionType / m.spot
      else -x.direction.sign * x.notional * blackScholes F x.strike
          (x.volatility * x.volatility * yf365 m.valuation x.expiry) D x.optionType / x.strike⟩ := by
  unfold FxOption.mtm
  rw [opt_context hf hd, ok_bind, Pair.frn_eq, ok_bind]
  dsimp only
  rw [Real.mul_self_sqrt]
  have h1 := yf365_nonneg hm
  have h2 := mul_self_nonneg x.volatility
  positivity

/-- Delta of either option type: derivative of the undiscounted price in the forward. -/
theorem hasDerivAt_bs_F {K V : ℝ} (hF : 0 < F) (hK : 0 < K) (hV : 0 < V) (ot : OptionType) :
    HasDerivAt (fun f => blackScholes f K V D ot)
      (D * (ot.omega * normCdf (ot.omega * bd1 F K (√V)))) F := by
  have hs := (Real.sqrt_pos.2 hV).ne'
  have hev : ∀ᶠ f in nhds F, 0 < f := lt_mem_nhds hF
  have hc := hasDerivAt_blackCore_F hF hK hs
  cases ot
  · refine ((hc.const_mul D).congr_of_eventuallyEq
      (hev.mono fun f _ => blackScholes_call hV)).congr_deriv ?_
    simp [OptionType.omega]
  · have h1 : HasDerivAt (fun f => D * (blackCore f K (√V) - (f - K)))
        (D * (normCdf (bd1 F K (√V)) - 1)) F :=
      (hc.sub ((hasDerivAt_id F).sub_const K)).const_mul D
    refine (h1.congr_of_eventuallyEq (hev.mono fun f hf => ?_)).congr_deriv ?_
    · show blackScholes f K V D .put = _
      rw [blackScholes_put hf hK hV]
      have := blackCore_parity hf hK hs
      congr 1; linarith
    · simp only [OptionType.omega, neg_mul, one_mul]
      rw [normCdf_neg]; ring

/-- Gamma: derivative of the delta in the forward, the same for calls and puts. -/
theorem hasDerivAt_bs_FF {K V : ℝ} (hF : 0 < F) (hK : 0 < K) (hV : 0 < V) (ot : OptionType) :
    HasDerivAt (deriv fun f => blackScholes f K V D ot)
      (D * normPdf (bd1 F K (√V)) / (F * √V)) F := by
  have hev : ∀ᶠ f in nhds F, 0 < f := lt_mem_nhds hF
  have h0 : HasDerivAt (fun f => D * (ot.omega * normCdf (ot.omega * bd1 f K (√V))))
      (D * normPdf (bd1 F K (√V)) / (F * √V)) F := by
    have hc := hasDerivAt_cdf_d1_F (s := √V) hF hK
    cases ot
    · simp only [OptionType.omega, one_mul]
      refine (hc.const_mul D).congr_deriv ?_
      ring
    · simp only [OptionType.omega, neg_mul, one_mul, normCdf_neg]
      have := ((hc.const_sub 1).neg).const_mul D
      refine this.congr_deriv ?_
      ring
  exact h0.congr_of_eventuallyEq (hev.mono fun f hf => (hasDerivAt_bs_F hf hK hV ot).deriv)

/-- Vega of either option type. -/
theorem hasDerivAt_bs_vol {K T sg : ℝ} (hF : 0 < F) (hK : 0 < K) (hT : 0 < T) (hs : 0 < sg)
    (ot : OptionType) :
    HasDerivAt (fun v => blackScholes F K (v * v * T) D ot)
      (D * F * normPdf (bd1 F K (√(sg * sg * T))) * √T) sg := by
  have hev : ∀ᶠ v in nhds sg, 0 < v := lt_mem_nhds hs
  have hq := Real.sqrt_pos.2 hT
  have esqrt : ∀ v : ℝ, 0 < v → √(v * v * T) = v * √T := fun v hv => by
    rw [Real.sqrt_mul (mul_self_nonneg v), Real.sqrt_mul_self hv.le]
  have hlin : HasDerivAt (fun v : ℝ => v * √T) (√T) sg := by
    simpa using (hasDerivAt_id sg).mul_const (√T)
  have hne : sg * √T ≠ 0 := by positivity
  rw [esqrt sg hs]
  cases ot
  · have h1 := ((hasDerivAt_blackCore_s hF hK hne).comp sg hlin).const_mul D
    refine (h1.congr_of_eventuallyEq (hev.mono fun v hv => ?_)).congr_deriv (by ring)
    show blackScholes F K (v * v * T) D .call = _
    rw [blackScholes_call (by positivity), esqrt v hv]; rfl
  · have h1 := ((hasDerivAt_blackCore_s hK hF hne).comp sg hlin).const_mul D
    refine (h1.congr_of_eventuallyEq (hev.mono fun v hv => ?_)).congr_deriv ?_
    · show blackScholes F K (v * v * T) D .put = _
      rw [blackScholes_put hF hK (by positivity), esqrt v hv]; rfl
    · have e := black_pdf hF hK hne
      rw [black_swap_d1 hF hK hne, normPdf_neg]
      linear_combination (-D * √T) * e

end Verif
