import Verif.Lemmas.Inverse
import Verif.Props.FxVol

/-!
# C95: the direction of the pair

An option to buy one unit of foreign currency for `K` is an option to sell `K` units of domestic
currency for `1 / K` each.  Black prices and implied volatilities (`C95_black`, `C95_implied`) and the
FX-HHW model with its parameters turned round (`C95_hhw`, `C95_correlations`, `C95_prices`) agree with
this.  The strikes of a quoted smile do not: the conventions of `volsurface.rs` have no premium
adjustment, so the at-the-money strikes of the two directions are not reciprocal (`C95_strikes`,
`C95_strikes_false`), nor do the Hagan volatilities of the lognormal model with the correlation turned
round agree (`C95_sabr`, `C95_sabr_false`).
-/

namespace Verif

open Outcome Classical

/-! ## Black -/

/-- **C95.** A call on the pair is `F K` puts on the inverse pair, and conversely; between spot
amounts, each discounted in its own currency, it is `S K` of them. -/
theorem C95_black {F K : ℝ} (hF : 0 < F) (hK : 0 < K) :
    (∀ V D, blackScholes F K V D .call = F * K * blackScholes (1 / F) (1 / K) V D .put)
    ∧ (∀ V D, blackScholes F K V D .put = F * K * blackScholes (1 / F) (1 / K) V D .call)
    ∧ (∀ sg t D, bsCallForward F K sg t D = F * K * bsPutForward (1 / F) (1 / K) sg t D)
    ∧ (∀ sg t D, bsPutForward F K sg t D = F * K * bsCallForward (1 / F) (1 / K) sg t D)
    ∧ ∀ S Dd Df V, Dd * F = Df * S →
      blackScholes F K V Dd .call = S * K * blackScholes (1 / F) (1 / K) V Df .put := by
  refine ⟨blackScholes_inverse hF hK, blackScholes_inverse_put hF hK, bsCall_inverse hF hK,
    bsPut_inverse hF hK, fun S Dd Df V h => ?_⟩
  have e1 := blackScholes_discount (1 / F) (1 / K) V Dd 1 .put
  have e2 := blackScholes_discount (1 / F) (1 / K) V Df 1 .put
  rw [mul_one] at e1 e2
  rw [blackScholes_inverse hF hK, e1, e2]
  linear_combination K * blackScholes (1 / F) (1 / K) V 1 .put * h

example : blackScholes 1.25 1.3 0.04 0.97 .call = 1.25 * 1.3 * blackScholes 0.8 (10 / 13) 0.04 0.97 .put := by
  have := (C95_black (F := 1.25) (K := 1.3) (by norm_num) (by norm_num)).1 0.04 0.97
  rw [this]
  norm_num

/-- **C95.** The two quotations of one option have the same implied volatility, when the tolerance is
counted in the currency of the price. -/
theorem C95_implied {F K : ℝ} (hF : 0 < F) (hK : 0 < K) (target t D : ℝ) (isCall : Bool) (tol : ℝ) :
    bsImpliedVolTol (F * K * target) F K t D isCall (F * K * tol) =
      bsImpliedVolTol target (1 / F) (1 / K) t D (!isCall) tol :=
  impliedVol_inverse hF hK target t D isCall tol

example : bsImpliedVolTol (1.25 * 1.28 * 0.04) 1.25 1.28 1 1 true (1.25 * 1.28 * 1e-8) =
    bsImpliedVolTol 0.04 0.8 0.78125 1 1 false 1e-8 := by
  have := C95_implied (F := 1.25) (K := 1.28) (by norm_num) (by norm_num) 0.04 1 1 true 1e-8
  rw [this]
  norm_num

/-! ## FX-HHW -/

/-- **C95.** The factor of the simulator exists in one direction exactly when it exists in the
other. -/
theorem C95_correlations (p : HhwParams) :
    (∃ q, HhwSim.new p.inverse = .ok q) ↔ ∃ q, HhwSim.new p = .ok q := by
  rw [(C67_new p).1, (C67_new p.inverse).1]
  exact positiveDefinite_inverse p.correlations

/-- **C95.** Turning the pair round twice gives the pair back. -/
theorem C95_involution (p : HhwParams) (hk : p.heston.kappa ≠ 0) (hk' : p.inverseKappa ≠ 0) :
    p.inverse.inverse = p := by
  have e : p.inverse.inverseKappa = p.heston.kappa := by
    show p.inverseKappa - p.heston.gamma * -p.correlations.xiSigma = _
    unfold HhwParams.inverseKappa; ring
  have e2 : p.inverseKappa * (p.heston.kappa * p.heston.theta / p.inverseKappa) / p.heston.kappa
      = p.heston.theta := by
    field_simp
  show HhwParams.mk (1 / (1 / p.fx0)) ⟨p.inverse.inverseKappa,
    p.inverseKappa * (p.heston.kappa * p.heston.theta / p.inverseKappa) / p.inverse.inverseKappa,
    p.heston.gamma, p.heston.sigma0⟩ p.domestic p.foreign p.rd0 p.rf0 p.thetaD p.thetaF
    p.correlations.inverse.inverse = p
  rw [e, e2, inverse_inverse_correlation, one_div_one_div]

example : paperHhw.inverse.inverse = paperHhw :=
  C95_involution _ (by norm_num [paperHhw]) (by norm_num [paperHhw, HhwParams.inverseKappa])

/-- **C95.** The characteristic functions of the two directions belong to one law: when the rates are
deterministic, or when the variance is not correlated with the exchange rate, the function of the
pair at `-u - i` is the forward times the function of the inverse pair at `u`.  Missing: correlated
variance together with stochastic rates, where the deterministic stand-in for the volatility differs
between the directions. -/
theorem C95_hhw_partial (p : HhwParams) (hfx : 0 < p.fx0) (hk : 0 < p.heston.kappa)
    (hk' : 0 < p.inverseKappa)
    (h : (p.domestic.sigma = 0 ∧ p.foreign.sigma = 0) ∨
      p.heston.gamma * p.correlations.xiSigma = 0) {T : ℝ} (hT : 0 ≤ T) {m : ℕ} (hm : 0 < m) :
    ∃ q q', HhwChf.withSimpsonSteps p T (2 * m) = .ok q ∧
      HhwChf.withSimpsonSteps p.inverse T (2 * m) = .ok q' ∧
      ∀ u : ℂ, ∃ w, q'.evaluate u = .ok w ∧ q.evaluate (-u - Complex.I) =
        .ok (((p.fx0 * Real.exp ((p.rd0 - p.rf0) * T) : ℝ) : ℂ) * w) := by
  obtain ⟨q, hq, he⟩ := evaluate_eq p hk hT hm
  obtain ⟨q', hq', he'⟩ := evaluate_eq p.inverse hk' hT hm
  refine ⟨q, q', hq, hq', fun u => ⟨_, (he' u).2, ?_⟩⟩
  rw [(he _).2]
  simp only [integrandVal_inverse p hk'.ne' h, cOfTau_inverse, inv_iu]
  rw [logForward_inverse, ← exp_logForward p hfx T, Complex.ofReal_exp, ← Complex.exp_add]
  have : p.inverse.heston.sigma0 = p.heston.sigma0 := rfl
  rw [this]
  congr 2
  push_cast
  ring

/-- The Heston model of the paper's parameters: correlation -40%. -/
example : ∃ q q', HhwChf.withSimpsonSteps hestonHhw 2 (2 * 16) = .ok q ∧
    HhwChf.withSimpsonSteps hestonHhw.inverse 2 (2 * 16) = .ok q' ∧
    ∀ u : ℂ, ∃ w, q'.evaluate u = .ok w ∧ q.evaluate (-u - Complex.I) =
      .ok (((hestonHhw.fx0 * Real.exp ((hestonHhw.rd0 - hestonHhw.rf0) * 2) : ℝ) : ℂ) * w) :=
  C95_hhw_partial hestonHhw (by norm_num [hestonHhw, paperHhw]) (by norm_num [hestonHhw, paperHhw])
    (by norm_num [hestonHhw, paperHhw, HhwParams.inverseKappa]) (.inl ⟨rfl, rfl⟩) (by norm_num)
    (by norm_num)

/-- **C95.** Cosine prices: without volatility of variance a call on the pair, paid in domestic
currency, and `S K` puts on the inverse pair, paid in foreign currency, come as close to each other as
wished. -/
theorem C95_prices (p : HhwParams) (hk : 0 < p.heston.kappa) (hg : p.heston.gamma = 0)
    (hθ : 0 ≤ p.heston.theta) (hs : 0 ≤ p.heston.sigma0) (hfx : 0 < p.fx0) {T : ℝ} (hT : 0 ≤ T)
    (hV : 0 < p.forwardVariance T) {K : ℝ} (hK : 0 < K) {ε : ℝ} (hε : 0 < ε) :
    ∃ H0 : ℝ, ∀ H ≥ H0, ∃ n0 : ℕ, ∀ n ≥ n0, ∃ m0 : ℕ, ∀ m ≥ m0, ∃ q q' c w,
      HhwChf.withSimpsonSteps p T (2 * m) = .ok q ∧
      HhwChf.withSimpsonSteps p.inverse T (2 * m) = .ok q' ∧
      CosPricer.call ⟨q.forwardChf, n, p.logForward T - H, p.logForward T + H⟩ K
        (Real.exp (-p.rd0 * T)) = .ok c ∧
      CosPricer.put ⟨q'.forwardChf, n, -p.logForward T - H, -p.logForward T + H⟩ (1 / K)
        (Real.exp (-p.rf0 * T)) = .ok w ∧
      |c - p.fx0 * K * w| < ε := by
  set F := p.fx0 * Real.exp ((p.rd0 - p.rf0) * T) with hFdef
  have hF : 0 < F := by positivity
  have hSK : 0 < p.fx0 * K := mul_pos hfx hK
  have hih := inverse_heston p hk hg
  obtain ⟨H1, h1⟩ := C93_converges p hk hg hθ hs hfx hT hV hK (Real.exp (-p.rd0 * T)) (half_pos hε)
  obtain ⟨H2, h2⟩ := C93_converges p.inverse (by rw [hih]; exact hk) (by rw [hih]; exact hg)
    (by rw [hih]; exact hθ) (by rw [hih]; exact hs) (one_div_pos.2 hfx) hT
    (by rw [forwardVariance_inverse p hk hg]; exact hV) (one_div_pos.2 hK) (Real.exp (-p.rf0 * T))
    (div_pos (half_pos hε) hSK)
  refine ⟨max H1 H2, fun H hH => ?_⟩
  obtain ⟨n1, h1⟩ := h1 H (le_trans (le_max_left _ _) hH)
  obtain ⟨n2, h2⟩ := h2 H (le_trans (le_max_right _ _) hH)
  refine ⟨max n1 n2, fun n hn => ?_⟩
  obtain ⟨m1, h1⟩ := h1 n (le_trans (le_max_left _ _) hn)
  obtain ⟨m2, h2⟩ := h2 n (le_trans (le_max_right _ _) hn)
  refine ⟨max m1 m2, fun m hm => ?_⟩
  obtain ⟨q, c, -, hq, hc, -, bc, -⟩ := h1 m (le_trans (le_max_left _ _) hm)
  obtain ⟨q', -, w, hq', -, hw, -, bw⟩ := h2 m (le_trans (le_max_right _ _) hm)
  rw [logForward_inverse] at hw
  refine ⟨q, q', c, w, hq, hq', hc, hw, ?_⟩
  have eF : p.inverse.fx0 * Real.exp ((p.inverse.rd0 - p.inverse.rf0) * T) = 1 / F := by
    show 1 / p.fx0 * Real.exp ((p.rf0 - p.rd0) * T) = _
    rw [hFdef, one_div, one_div, mul_inv, ← Real.exp_neg]
    congr 2; ring
  rw [eF, forwardVariance_inverse p hk hg] at bw
  have key := (C95_black hF hK).2.2.2.2 p.fx0 (Real.exp (-p.rd0 * T)) (Real.exp (-p.rf0 * T))
    (p.forwardVariance T) (by
      rw [hFdef, mul_left_comm, ← Real.exp_add, mul_comm _ p.fx0]
      congr 2; ring)
  rw [key] at bc
  set B := blackScholes (1 / F) (1 / K) (p.forwardVariance T) (Real.exp (-p.rf0 * T)) .put
  have e : c - p.fx0 * K * w = (c - p.fx0 * K * B) - p.fx0 * K * (w - B) := by ring
  rw [e]
  refine (abs_sub _ _).trans_lt ?_
  have hb : |p.fx0 * K * (w - B)| < ε / 2 := by
    rw [abs_mul, abs_of_pos hSK]
    calc p.fx0 * K * |w - B| < p.fx0 * K * (ε / 2 / (p.fx0 * K)) := by gcongr
      _ = ε / 2 := by field_simp
  linarith

example : ∃ H0 : ℝ, ∀ H ≥ H0, ∃ n0 : ℕ, ∀ n ≥ n0, ∃ m0 : ℕ, ∀ m ≥ m0, ∃ q q' c w,
    HhwChf.withSimpsonSteps rateVolHhw 1 (2 * m) = .ok q ∧
    HhwChf.withSimpsonSteps rateVolHhw.inverse 1 (2 * m) = .ok q' ∧
    CosPricer.call ⟨q.forwardChf, n, rateVolHhw.logForward 1 - H, rateVolHhw.logForward 1 + H⟩ (7 / 5)
      (Real.exp (-rateVolHhw.rd0 * 1)) = .ok c ∧
    CosPricer.put ⟨q'.forwardChf, n, -rateVolHhw.logForward 1 - H, -rateVolHhw.logForward 1 + H⟩
      (1 / (7 / 5)) (Real.exp (-rateVolHhw.rf0 * 1)) = .ok w ∧
    |c - rateVolHhw.fx0 * (7 / 5) * w| < 1 / 10 ^ 9 :=
  C95_prices rateVolHhw (by norm_num [rateVolHhw]) rfl (by norm_num [rateVolHhw])
    (by norm_num [rateVolHhw]) (by norm_num [rateVolHhw, paperHhw]) zero_le_one rateVol_variance
    (by norm_num) (by norm_num)

/-! ## Quoted smiles -/

/-- **C95.** The strikes of the two directions: at the money, and for the call and the put of one
quoted delta, the strike of the pair times the strike of the inverse pair is `exp (σ² T)`, not one. -/
theorem C95_strikes {F : ℝ} (hF : F ≠ 0) (sigma T : ℝ) (hT : 0 ≤ T) :
    atmDnsStrike sigma F T * atmDnsStrike sigma (1 / F) T = Real.exp (sigma ^ 2 * T)
    ∧ ∀ delta k, strikeFromCallDelta delta sigma F √T = .ok k →
      ∃ k', strikeFromPutDelta delta sigma (1 / F) √T = .ok k' ∧ k * k' = Real.exp (sigma ^ 2 * T) := by
  constructor
  · unfold atmDnsStrike
    rw [mul_mul_mul_comm, ← Real.exp_add, mul_one_div_cancel hF, one_mul]
    congr 1; ring
  · intro delta k hk
    rw [strikeFromCallDelta, bind_eq_ok] at hk
    obtain ⟨x, hx, hk⟩ := hk
    obtain ⟨d0, d1, hx⟩ := normInv_iff.1 hx
    have hy : normInv (1 - delta) = .ok (-x) :=
      normInv_iff.2 ⟨by linarith, by linarith, by rw [normCdf_neg, hx]⟩
    refine ⟨_, by rw [strikeFromPutDelta, hy, ok_bind], ?_⟩
    rw [← Outcome.ok.inj hk, mul_mul_mul_comm, ← Real.exp_add, mul_one_div_cancel hF, one_mul]
    congr 1
    have := Real.mul_self_sqrt hT
    linear_combination sigma ^ 2 * this

/-- **C95.** So a surface of the inverse pair is not the surface of the pair read at reciprocal
strikes, whenever there is volatility and time. -/
theorem C95_strikes_false {F sigma T : ℝ} (hF : F ≠ 0) (hs : sigma ≠ 0) (hT : 0 < T) :
    atmDnsStrike sigma (1 / F) T ≠ 1 / atmDnsStrike sigma F T := by
  intro h
  have hp : atmDnsStrike sigma F T ≠ 0 := mul_ne_zero hF (Real.exp_pos _).ne'
  have := (C95_strikes hF sigma T hT.le).1
  rw [h, mul_one_div_cancel hp, eq_comm, Real.exp_eq_one_iff] at this
  exact absurd this (by positivity)

example : atmDnsStrike (1 / 5) (1 / (5 / 4)) 2 ≠ 1 / atmDnsStrike (1 / 5) (5 / 4) 2 :=
  C95_strikes_false (by norm_num) (by norm_num) (by norm_num)

/-- **C95.** Hagan volatilities of the lognormal model (`β = 1`): turning the correlation round gives
the same shape across strikes, but the term in the expiry differs by `ρ ν α / 2` per year. -/
theorem C95_sabr {alpha rho nu : ℝ} (h1 : -1 < rho) (h2 : rho < 1) {f k t : ℝ} (hf : 0 < f)
    (hk : 0 < k) (ht : 0 < t) :
    ∃ b c, haganVol ⟨alpha, 1, rho, nu⟩ f k t = .ok (b * (c + 1 / 4 * rho * nu * alpha * t))
      ∧ haganVol ⟨alpha, 1, -rho, nu⟩ (1 / f) (1 / k) t = .ok (b * (c - 1 / 4 * rho * nu * alpha * t))
      ∧ b = alpha * zOverX rho (Sabr.z ⟨alpha, 1, rho, nu⟩ f k)
      ∧ c = 1 + (2 - 3 * rho ^ 2) * nu ^ 2 / 24 * t := by
  refine ⟨_, _, ?_, ?_, rfl, rfl⟩
  · unfold haganVol
    rw [if_pos ⟨hf, hk, ht⟩]
    have e : ∀ x y, Sabr.fkHalf ⟨alpha, 1, rho, nu⟩ x y = 1 := fun x y => by simp [Sabr.fkHalf]
    simp only [Sabr.timeCorrection, Sabr.expansionDenom, e]
    congr 1
    norm_num
    left; ring
  · unfold haganVol
    rw [if_pos ⟨one_div_pos.2 hf, one_div_pos.2 hk, ht⟩]
    have e : ∀ r x y, Sabr.fkHalf ⟨alpha, 1, r, nu⟩ x y = 1 := fun r x y => by simp [Sabr.fkHalf]
    have hz : Sabr.z ⟨alpha, 1, -rho, nu⟩ (1 / f) (1 / k) = -Sabr.z ⟨alpha, 1, rho, nu⟩ f k := by
      unfold Sabr.z
      rw [e, e, inv_log]
      dsimp only
      by_cases ha : 0 < alpha
      · rw [if_pos ha, if_pos ha]; ring
      · rw [if_neg ha, if_neg ha, neg_zero]
    rw [hz]
    dsimp only
    rw [zOverX_inverse h1 h2]
    simp only [Sabr.timeCorrection, Sabr.expansionDenom, e]
    congr 1
    norm_num
    left; ring

/-- **C95.** At the money the volatilities of the two directions differ by `ρ ν α² t / 2`. -/
theorem C95_sabr_false {alpha rho nu : ℝ} (h1 : -1 < rho) (h2 : rho < 1) (hr : rho ≠ 0)
    (ha : 0 < alpha) (hn : 0 < nu) {f t : ℝ} (hf : 0 < f) (ht : 0 < t) :
    haganVol ⟨alpha, 1, rho, nu⟩ f f t ≠ haganVol ⟨alpha, 1, -rho, nu⟩ (1 / f) (1 / f) t := by
  obtain ⟨b, c, e1, e2, hb, -⟩ := C95_sabr (alpha := alpha) (nu := nu) h1 h2 hf hf ht
  have hz : Sabr.z ⟨alpha, 1, rho, nu⟩ f f = 0 := by
    unfold Sabr.z
    dsimp only
    rw [if_pos ha, div_self hf.ne', Real.log_one, mul_zero]
  have hb' : b = alpha := by
    rw [hb, hz, zOverX, abs_zero, if_pos (by positivity)]
    ring
  rw [e1, e2, hb']
  intro h
  have h := Outcome.ok.inj h
  have : alpha * (rho * nu * alpha * t) = 0 := by linarith
  have hne : alpha * (rho * nu * alpha * t) ≠ 0 := by positivity
  exact hne this

example : haganVol ⟨1 / 10, 1, -3 / 10, 1 / 2⟩ (5 / 4) (5 / 4) 1 ≠
    haganVol ⟨1 / 10, 1, -(-3 / 10), 1 / 2⟩ (1 / (5 / 4)) (1 / (5 / 4)) 1 :=
  C95_sabr_false (by norm_num) (by norm_num) (by norm_num) (by norm_num) (by norm_num) (by norm_num)
    (by norm_num)

end Verif
