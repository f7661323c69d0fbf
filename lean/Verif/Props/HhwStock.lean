import Verif.Lemmas.HhwStock

/-!
# C72: the foreign stock on top of FX-HHW

Expectations are integrals over independent standard normal draws, six per step.
-/

namespace Verif

open MeasureTheory ProbabilityTheory Outcome

/-- **C72**: the simulator is built exactly for a positive definite base matrix and two numbers
`ρ_{ξ,S}`, `ρ_{S,ω}` in `[−1, 1]`; it never panics. -/
theorem C72_new (p : HhwParams) (e : ForeignStock) :
    ((∃ q, HhwStockSim.new p e = .ok q) ↔ PositiveDefiniteN 4 p.correlations.matrix
      ∧ |e.rhoXiSf| ≤ 1 ∧ |e.rhoSfOmega| ≤ 1)
    ∧ (¬ (PositiveDefiniteN 4 p.correlations.matrix ∧ |e.rhoXiSf| ≤ 1 ∧ |e.rhoSfOmega| ≤ 1) →
      HhwStockSim.new p e = .fail .invalidData)
    ∧ ∀ q, HhwStockSim.new p e = .ok q → q.params = p ∧ q.equity = e := by
  have hv := (C52_correlation4 p.correlations).1
  rw [Correlation4.isValid] at hv
  refine ⟨?_, ?_, fun q h => ⟨(stock_new_factor h).1, (stock_new_factor h).2.1⟩⟩
  · rw [← hv]
    unfold HhwStockSim.new
    cases p.correlations.cholesky with
    | none => simp
    | some l =>
      dsimp only
      split_ifs with h1 h2
      · simp [h1]
      · simp [h2]
      · simp [not_lt.1 h1, not_lt.1 h2]
  · rw [← hv]
    unfold HhwStockSim.new
    cases p.correlations.cholesky with
    | none => simp
    | some l =>
      dsimp only
      split_ifs with h1 h2
      · simp
      · simp
      · simp [not_lt.1 h1, not_lt.1 h2]

/-- **C72**: a step of positive length always succeeds and whatever the draws gives a positive FX
rate, a positive stock and two non-negative variances; any other length panics. -/
theorem C72_step (q : HhwStockSim) (s : HhwStockState) (dt : ℝ) (z : Fin 6 → ℝ) :
    (0 < dt → ∃ s', q.step s dt z = .ok s' ∧ 0 < s'.fx.fx ∧ 0 ≤ s'.fx.variance ∧ 0 < s'.stock
      ∧ 0 ≤ s'.stockVariance)
    ∧ (dt ≤ 0 → q.step s dt z = .panic) := by
  unfold HhwStockSim.step
  refine ⟨fun h => ?_, fun h => if_neg (not_lt.2 h)⟩
  rw [if_pos h]
  exact ⟨_, rfl, Real.exp_pos _, le_max_right _ _, Real.exp_pos _, le_max_right _ _⟩

/-- **C72**: the first four factors are those of the FX-HHW simulator, driven by the first four
draws, along a whole path: the stock never feeds back into them. -/
theorem C72_base {p : HhwParams} {e : ForeignStock} {q : HhwStockSim}
    (h : HhwStockSim.new p e = .ok q) :
    ∃ b, HhwSim.new p = .ok b ∧ ∀ (dt : ℕ → ℝ) (n : ℕ) (s : HhwStockState) (z : ℕ → Fin 6 → ℝ),
      (chain (stockChainStep q dt) n s z).fx
        = chain (hhwChainStep b dt fun _ => (p.thetaD, p.thetaF)) n s.fx fun k => baseDraws (z k) := by
  obtain ⟨hp, -, -, -, -, hl⟩ := stock_new_factor h
  refine ⟨⟨p, q.chol, fun _ => (p.thetaD, p.thetaF)⟩, by rw [HhwSim.new, hl], fun dt n s z => ?_⟩
  induction n with
  | zero => rfl
  | succ n ih =>
    rw [chain, chain, ← ih]
    unfold stockChainStep hhwChainStep HhwStockSim.euler HhwSim.euler
    rw [hp]
    rfl

/-- **C72**: one step is the Euler step, with quanto corrections, of the six-factor system for
increments `dw` that are centred and whose covariances are `dt` times the correlations of the model:
the base matrix, `ρ_{ξ,S}` and `ρ_{S,ω}`, and their products for the other pairs. -/
theorem C72_noise {p : HhwParams} {e : ForeignStock} {q : HhwStockSim}
    (h : HhwStockSim.new p e = .ok q) {dt : ℝ} (hdt : 0 < dt) {s : HhwStockState}
    (_hs : 0 < s.fx.fx) (_hS : 0 < s.stock) (hv : 0 ≤ s.fx.variance) (hw : 0 ≤ s.stockVariance) :
    ∃ dw : (Fin 6 → ℝ) → Fin 6 → ℝ,
      (∀ i, Integrable (fun z => dw z i) (stdNormal 6) ∧ ∫ z, dw z i ∂stdNormal 6 = 0)
      ∧ (∀ i j, Integrable (fun z => dw z i * dw z j) (stdNormal 6)
        ∧ ∫ z, dw z i * dw z j ∂stdNormal 6
          = stockCorr p.correlations.matrix e.rhoXiSf e.rhoSfOmega i j * dt)
      ∧ ∀ z, ∃ s', q.step s dt z = .ok s'
        ∧ Real.log s'.fx.fx = Real.log s.fx.fx + (s.fx.rd - s.fx.rf - s.fx.variance / 2) * dt
          + √s.fx.variance * dw z 0
        ∧ s'.fx.variance = max (s.fx.variance + p.heston.kappa * (p.heston.theta - s.fx.variance) * dt
          + p.heston.gamma * √s.fx.variance * dw z 1) 0
        ∧ s'.fx.rd = s.fx.rd + p.domestic.lambda * (p.thetaD - s.fx.rd) * dt
          + p.domestic.sigma * dw z 2
        ∧ s'.fx.rf = s.fx.rf + (p.foreign.lambda * (p.thetaF - s.fx.rf)
          - p.foreign.sigma * p.correlations.xiF * √s.fx.variance) * dt + p.foreign.sigma * dw z 3
        ∧ Real.log s'.stock = Real.log s.stock + (s.fx.rf
          - e.rhoXiSf * √s.fx.variance * √s.stockVariance - s.stockVariance / 2) * dt
          + √s.stockVariance * dw z 4
        ∧ s'.stockVariance = max (s.stockVariance
          + (e.variance.kappa * (e.variance.theta - s.stockVariance)
            - e.rhoSfOmega * e.rhoXiSf * e.variance.gamma * √s.stockVariance * √s.fx.variance) * dt
          + e.variance.gamma * √s.stockVariance * dw z 5) 0 := by
  obtain ⟨hp, he, -⟩ := stock_new_factor h
  refine ⟨q.increment dt, increment_mean h, increment_cov h hdt.le, fun z =>
    ⟨q.euler s dt z, by rw [HhwStockSim.step, if_pos hdt], ?_⟩⟩
  unfold HhwStockSim.euler
  rw [hp, he, max_eq_left hv, max_eq_left hw]
  refine ⟨?_, rfl, rfl, rfl, ?_, rfl⟩
  · rw [Real.log_exp]
    change _ + _ + √s.fx.variance * q.dwBase dt z 0 = _ + _ + √s.fx.variance * q.dwBase dt z 0
    ring
  · rw [Real.log_exp]
    change _ + _ + √s.stockVariance * (q.zSf z * √dt) = _ + _ + √s.stockVariance * (q.zSf z * √dt)
    ring

/-- The FX rate and the stock of one step as multiples of the previous ones. -/
theorem stock_euler_mul (q : HhwStockSim) {s : HhwStockState} (hs : 0 < s.fx.fx) (hS : 0 < s.stock)
    (dt : ℝ) (z : Fin 6 → ℝ) :
    (q.euler s dt z).fx.fx = s.fx.fx
        * Real.exp ((s.fx.rd - s.fx.rf - 1 / 2 * max s.fx.variance 0) * dt)
        * Real.exp (√(max s.fx.variance 0) * q.increment dt z 0)
    ∧ (q.euler s dt z).stock = s.stock * Real.exp ((s.fx.rf
        - q.equity.rhoXiSf * √(max s.fx.variance 0) * √(max s.stockVariance 0)
        - 1 / 2 * max s.stockVariance 0) * dt)
        * Real.exp (√(max s.stockVariance 0) * q.increment dt z 4) := by
  constructor
  · change Real.exp (Real.log s.fx.fx + _ + _) = _
    rw [Real.exp_add, Real.exp_add, Real.exp_log hs]
    rfl
  · change Real.exp (Real.log s.stock + _ + _) = _
    rw [Real.exp_add, Real.exp_add, Real.exp_log hS]
    rfl

/-- **C72**: one step has the right means: the FX rate grows at `r_d − r_f`, the stock at `r_f` less
the quanto term, and the stock converted into domestic currency at `r_d`. -/
theorem C72_means {p : HhwParams} {e : ForeignStock} {q : HhwStockSim}
    (h : HhwStockSim.new p e = .ok q) {dt : ℝ} (hdt : 0 ≤ dt) {s : HhwStockState}
    (hs : 0 < s.fx.fx) (hS : 0 < s.stock) :
    (Integrable (fun z => (q.euler s dt z).fx.fx) (stdNormal 6)
      ∧ ∫ z, (q.euler s dt z).fx.fx ∂stdNormal 6 = s.fx.fx * Real.exp ((s.fx.rd - s.fx.rf) * dt))
    ∧ (Integrable (fun z => (q.euler s dt z).stock) (stdNormal 6)
      ∧ ∫ z, (q.euler s dt z).stock ∂stdNormal 6 = s.stock * Real.exp ((s.fx.rf
        - e.rhoXiSf * √(max s.fx.variance 0) * √(max s.stockVariance 0)) * dt))
    ∧ Integrable (fun z => (q.euler s dt z).fx.fx * (q.euler s dt z).stock) (stdNormal 6)
      ∧ ∫ z, (q.euler s dt z).fx.fx * (q.euler s dt z).stock ∂stdNormal 6
        = s.fx.fx * s.stock * Real.exp (s.fx.rd * dt) := by
  have he := (stock_new_factor h).2.1
  set v := max s.fx.variance 0 with hv
  set w := max s.stockVariance 0 with hw
  have hv0 : 0 ≤ v := le_max_right _ _
  have hw0 : 0 ≤ w := le_max_right _ _
  have c00 : stockCorr p.correlations.matrix e.rhoXiSf e.rhoSfOmega ((0 : Fin 6) : ℕ)
    ((0 : Fin 6) : ℕ) = 1 := rfl
  have c44 : stockCorr p.correlations.matrix e.rhoXiSf e.rhoSfOmega ((4 : Fin 6) : ℕ)
    ((4 : Fin 6) : ℕ) = 1 := rfl
  have c04 : stockCorr p.correlations.matrix e.rhoXiSf e.rhoSfOmega ((0 : Fin 6) : ℕ)
    ((4 : Fin 6) : ℕ) = e.rhoXiSf * 1 := rfl
  have hm := fun z => stock_euler_mul q hs hS dt z
  rw [he] at hm
  have h1 := increment_exp h hdt 0 4 (√v) 0
  have h2 := increment_exp h hdt 0 4 0 (√w)
  have h3 := increment_exp h hdt 0 4 (√v) (√w)
  rw [c00, c44, c04] at h1 h2 h3
  simp only [zero_mul, add_zero, zero_add, ne_eq, OfNat.ofNat_ne_zero, not_false_eq_true, zero_pow,
    mul_zero, mul_one, Real.sq_sqrt hv0, Real.sq_sqrt hw0] at h1 h2 h3
  refine ⟨⟨?_, ?_⟩, ⟨?_, ?_⟩, ?_, ?_⟩
  · simp_rw [(hm _).1]; exact h1.1.const_mul _
  · simp_rw [(hm _).1]
    rw [integral_const_mul, h1.2, mul_assoc, ← Real.exp_add]
    congr 2; ring
  · simp_rw [(hm _).2]; exact h2.1.const_mul _
  · simp_rw [(hm _).2]
    rw [integral_const_mul, h2.2, mul_assoc, ← Real.exp_add]
    congr 2; ring
  all_goals
    have e1 : ∀ z, (q.euler s dt z).fx.fx * (q.euler s dt z).stock
        = s.fx.fx * s.stock * Real.exp ((s.fx.rd - 1 / 2 * v - e.rhoXiSf * √v * √w - 1 / 2 * w) * dt)
          * Real.exp (√v * q.increment dt z 0 + √w * q.increment dt z 4) := fun z => by
      rw [(hm z).1, (hm z).2, Real.exp_add]
      have : Real.exp ((s.fx.rd - 1 / 2 * v - e.rhoXiSf * √v * √w - 1 / 2 * w) * dt)
          = Real.exp ((s.fx.rd - s.fx.rf - 1 / 2 * v) * dt)
            * Real.exp ((s.fx.rf - e.rhoXiSf * √v * √w - 1 / 2 * w) * dt) := by
        rw [← Real.exp_add]; congr 1; ring
      rw [this]; ring
    simp_rw [e1]
  · exact h3.1.const_mul _
  · rw [integral_const_mul, h3.2, mul_assoc, ← Real.exp_add]
    congr 2; ring

/-- **C72**: the quanto corrections are exact: under the foreign measure (weighting by the FX rate)
the stock grows at the foreign rate, its logarithm has the Heston drift, and its variance before
the clamp at zero has the Heston mean and variance, free of any FX term. -/
theorem C72_quanto {p : HhwParams} {e : ForeignStock} {q : HhwStockSim}
    (h : HhwStockSim.new p e = .ok q) {dt : ℝ} (hdt : 0 ≤ dt) {s : HhwStockState}
    (hs : 0 < s.fx.fx) (hS : 0 < s.stock) (hw : 0 ≤ s.stockVariance) :
    let weight := fun z => (q.euler s dt z).fx.fx / (s.fx.fx * Real.exp ((s.fx.rd - s.fx.rf) * dt))
    ∫ z, weight z * (q.euler s dt z).stock ∂stdNormal 6 = s.stock * Real.exp (s.fx.rf * dt)
    ∧ ∫ z, weight z * Real.log (q.euler s dt z).stock ∂stdNormal 6
      = Real.log s.stock + (s.fx.rf - s.stockVariance / 2) * dt
    ∧ ∃ X : (Fin 6 → ℝ) → ℝ, (∀ z, (q.euler s dt z).stockVariance = max (X z) 0)
      ∧ ∫ z, weight z * X z ∂stdNormal 6
        = s.stockVariance + e.variance.kappa * (e.variance.theta - s.stockVariance) * dt
      ∧ ∫ z, weight z * (X z - (s.stockVariance
          + e.variance.kappa * (e.variance.theta - s.stockVariance) * dt)) ^ 2 ∂stdNormal 6
        = e.variance.gamma ^ 2 * s.stockVariance * dt := by
  have he := (stock_new_factor h).2.1
  intro weight
  have hm := fun z => stock_euler_mul q hs hS dt z
  rw [he] at hm
  have hw' : max s.stockVariance 0 = s.stockVariance := max_eq_left hw
  set v := max s.fx.variance 0 with hv
  have hv0 : 0 ≤ v := le_max_right _ _
  set w := s.stockVariance with hwd
  have hK : s.fx.fx * Real.exp ((s.fx.rd - s.fx.rf) * dt) ≠ 0 := (mul_pos hs (Real.exp_pos _)).ne'
  -- the weight is the exponential martingale of the FX increment
  have hweight : ∀ z, weight z = Real.exp (-(v * dt / 2)) * Real.exp (√v * q.increment dt z 0) := by
    intro z
    change _ / _ = _
    rw [div_eq_iff hK, (hm z).1]
    have : Real.exp ((s.fx.rd - s.fx.rf - 1 / 2 * v) * dt)
        = Real.exp (-(v * dt / 2)) * Real.exp ((s.fx.rd - s.fx.rf) * dt) := by
      rw [← Real.exp_add]; congr 1; ring
    rw [this]; ring
  have hone : Real.exp (-(v * dt / 2)) * Real.exp (v * dt / 2) = 1 := by
    rw [← Real.exp_add, neg_add_cancel, Real.exp_zero]
  have t0 := increment_exp h hdt 0 0 (√v) 0
  rw [show stockCorr p.correlations.matrix e.rhoXiSf e.rhoSfOmega ((0 : Fin 6) : ℕ)
    ((0 : Fin 6) : ℕ) = 1 from rfl] at t0
  simp only [zero_mul, add_zero, ne_eq, OfNat.ofNat_ne_zero, not_false_eq_true, zero_pow,
    mul_zero, mul_one, Real.sq_sqrt hv0] at t0
  have tilt := fun j => increment_tilt h hdt j (√v)
  simp only [Real.sq_sqrt hv0] at tilt
  -- the weighted mean of an affine function of an increment
  have affine : ∀ (j : Fin 6) (m g : ℝ), ∫ z, weight z * (m + g * q.increment dt z j) ∂stdNormal 6
      = m + g * (√v * (stockCorr p.correlations.matrix e.rhoXiSf e.rhoSfOmega ((0 : Fin 6) : ℕ) j
        * dt)) := by
    intro j m g
    have e1 : ∀ z, weight z * (m + g * q.increment dt z j)
        = Real.exp (-(v * dt / 2)) * m * Real.exp (√v * q.increment dt z 0)
          + Real.exp (-(v * dt / 2)) * g * (Real.exp (√v * q.increment dt z 0) * q.increment dt z j) :=
      fun z => by rw [hweight]; ring
    simp_rw [e1]
    rw [integral_add (t0.1.const_mul _) ((tilt j).1.1.const_mul _), integral_const_mul,
      integral_const_mul, t0.2, (tilt j).1.2]
    linear_combination (m + g * (√v * (stockCorr p.correlations.matrix e.rhoXiSf e.rhoSfOmega
      ((0 : Fin 6) : ℕ) j * dt))) * hone
  have quad : ∀ (j : Fin 6) (m g : ℝ), ∫ z, weight z * (m + g * q.increment dt z j) ^ 2 ∂stdNormal 6
      = (m + g * (√v * (stockCorr p.correlations.matrix e.rhoXiSf e.rhoSfOmega ((0 : Fin 6) : ℕ) j
        * dt))) ^ 2
        + g ^ 2 * (stockCorr p.correlations.matrix e.rhoXiSf e.rhoSfOmega j j * dt) := by
    intro j m g
    have e1 : ∀ z, weight z * (m + g * q.increment dt z j) ^ 2
        = (Real.exp (-(v * dt / 2)) * m ^ 2 * Real.exp (√v * q.increment dt z 0)
          + Real.exp (-(v * dt / 2)) * (2 * m * g)
            * (Real.exp (√v * q.increment dt z 0) * q.increment dt z j))
          + Real.exp (-(v * dt / 2)) * g ^ 2
            * (Real.exp (√v * q.increment dt z 0) * q.increment dt z j ^ 2) :=
      fun z => by rw [hweight]; ring
    simp_rw [e1]
    have i01 : Integrable (fun z => Real.exp (-(v * dt / 2)) * m ^ 2
        * Real.exp (√v * q.increment dt z 0)
          + Real.exp (-(v * dt / 2)) * (2 * m * g)
            * (Real.exp (√v * q.increment dt z 0) * q.increment dt z j)) (stdNormal 6) :=
      (t0.1.const_mul _).add ((tilt j).1.1.const_mul _)
    rw [integral_add i01 ((tilt j).2.1.const_mul _),
      integral_add (t0.1.const_mul _) ((tilt j).1.1.const_mul _), integral_const_mul,
      integral_const_mul, integral_const_mul, t0.2, (tilt j).1.2, (tilt j).2.2]
    linear_combination ((m + g * (√v * (stockCorr p.correlations.matrix e.rhoXiSf e.rhoSfOmega
      ((0 : Fin 6) : ℕ) j * dt))) ^ 2
        + g ^ 2 * (stockCorr p.correlations.matrix e.rhoXiSf e.rhoSfOmega j j * dt)) * hone
  have c04 : stockCorr p.correlations.matrix e.rhoXiSf e.rhoSfOmega ((0 : Fin 6) : ℕ)
    ((4 : Fin 6) : ℕ) = e.rhoXiSf * 1 := rfl
  have c05 : stockCorr p.correlations.matrix e.rhoXiSf e.rhoSfOmega ((0 : Fin 6) : ℕ)
    ((5 : Fin 6) : ℕ) = e.rhoXiSf * e.rhoSfOmega * 1 := rfl
  have c55 : stockCorr p.correlations.matrix e.rhoXiSf e.rhoSfOmega ((5 : Fin 6) : ℕ)
    ((5 : Fin 6) : ℕ) = 1 := rfl
  refine ⟨?_, ?_, fun z => w + (e.variance.kappa * (e.variance.theta - w)
      - e.rhoSfOmega * e.rhoXiSf * e.variance.gamma * √w * √v) * dt
      + e.variance.gamma * √w * q.increment dt z 5, fun z => ?_, ?_, ?_⟩
  · change ∫ z, _ / _ * _ ∂stdNormal 6 = _
    simp_rw [div_mul_eq_mul_div]
    rw [integral_div, ((C72_means h hdt hs hS).2.2).2, div_eq_iff hK]
    have : Real.exp (s.fx.rd * dt)
        = Real.exp (s.fx.rf * dt) * Real.exp ((s.fx.rd - s.fx.rf) * dt) := by
      rw [← Real.exp_add]; congr 1; ring
    rw [this]; ring
  · have e1 : ∀ z, Real.log (q.euler s dt z).stock = (Real.log s.stock
        + (s.fx.rf - e.rhoXiSf * √v * √w - w / 2) * dt) + √w * q.increment dt z 4 := fun z => by
      unfold HhwStockSim.euler
      dsimp only
      rw [Real.log_exp, he, hw', ← hv]
      change _ + _ + √w * (q.zSf z * √dt) = _ + √w * (q.zSf z * √dt)
      ring
    simp_rw [e1, affine 4]
    rw [c04]
    ring
  · unfold HhwStockSim.euler
    dsimp only
    rw [he, hw', ← hv]
    rfl
  · rw [affine 5, c05]
    ring
  · have e1 : ∀ z, w + (e.variance.kappa * (e.variance.theta - w)
        - e.rhoSfOmega * e.rhoXiSf * e.variance.gamma * √w * √v) * dt
        + e.variance.gamma * √w * q.increment dt z 5 - (w + e.variance.kappa * (e.variance.theta - w) * dt)
        = -(e.rhoSfOmega * e.rhoXiSf * e.variance.gamma * √w * √v * dt)
          + e.variance.gamma * √w * q.increment dt z 5 := fun z => by ring
    simp_rw [e1]
    rw [quad 5, c05, c55]
    linear_combination e.variance.gamma ^ 2 * dt * Real.mul_self_sqrt hw

theorem measurable_stockChainStep (q : HhwStockSim) (dt : ℕ → ℝ) (k : ℕ) :
    Measurable fun x : HhwStockState × (Fin 6 → ℝ) => stockChainStep q dt k x.1 x.2 := by
  have hx : Measurable fun x : HhwStockState × (Fin 6 → ℝ) => x.1.fx :=
    measurable_stock_fx.comp measurable_fst
  have h0 := measurable_fx.comp hx
  have h1 := measurable_variance.comp hx
  have h2 := measurable_rd.comp hx
  have h3 := measurable_rf.comp hx
  have h4 : Measurable fun x : HhwStockState × (Fin 6 → ℝ) => x.1.stock :=
    measurable_stock.comp measurable_fst
  have h5 : Measurable fun x : HhwStockState × (Fin 6 → ℝ) => x.1.stockVariance :=
    measurable_stockVariance.comp measurable_fst
  have hn : ∀ i, Measurable fun x : HhwStockState × (Fin 6 → ℝ) => q.increment (dt k) x.2 i :=
    fun i => (measurable_increment q (dt k) i).comp measurable_snd
  have hs := h1.max (measurable_const (a := (0 : ℝ)))
  have hr := Real.continuous_sqrt.measurable.comp hs
  have ho := h5.max (measurable_const (a := (0 : ℝ)))
  have hq := Real.continuous_sqrt.measurable.comp ho
  unfold stockChainStep HhwStockSim.euler
  refine measurable_stockState (measurable_hhw ?_ ?_ ?_ ?_) ?_ ?_
  · exact Real.measurable_exp.comp (((Real.measurable_log.comp h0).add
      (((h2.sub h3).sub (hs.const_mul _)).mul_const _)).add (hr.mul (hn 0)))
  · exact ((hs.add (((measurable_const.sub hs).const_mul _).mul_const _)).add
      ((hr.const_mul _).mul (hn 1))).max measurable_const
  · exact (h2.add (((measurable_const.sub h2).const_mul _).mul_const _)).add ((hn 2).const_mul _)
  · exact (h3.add ((((measurable_const.sub h3).const_mul _).sub (hr.const_mul _)).mul_const _)).add
      ((hn 3).const_mul _)
  · exact Real.measurable_exp.comp (((Real.measurable_log.comp h4).add
      (((h3.sub ((hr.const_mul _).mul hq)).sub (ho.const_mul _)).mul_const _)).add (hq.mul (hn 4)))
  · exact ((ho.add ((((measurable_const.sub ho).const_mul _).sub
      ((hq.const_mul _).mul hr)).mul_const _)).add ((hq.const_mul _).mul (hn 5))).max measurable_const

theorem stock_pos_step (q : HhwStockSim) (dt : ℕ → ℝ) (k : ℕ) (s : HhwStockState) (z : Fin 6 → ℝ) :
    0 < (stockChainStep q dt k s z).fx.fx ∧ 0 < (stockChainStep q dt k s z).stock :=
  ⟨Real.exp_pos _, Real.exp_pos _⟩

/-- **C72**: over any number of steps of any lengths the stock converted into domestic currency and
divided by the domestic account is a martingale: its mean is the initial value. -/
theorem C72_martingale {p : HhwParams} {e : ForeignStock} {q : HhwStockSim}
    (h : HhwStockSim.new p e = .ok q) {dt : ℕ → ℝ} (hdt : ∀ k, 0 ≤ dt k) {s : HhwStockState}
    (hs : 0 < s.fx.fx) (hS : 0 < s.stock) (n : ℕ) :
    Integrable (fun zs => (chain (stockChainStep q dt) n s (firstDraws zs)).fx.fx
      * (chain (stockChainStep q dt) n s (firstDraws zs)).stock
      / stockAccount q dt n s (firstDraws zs)) (iidLaw (stdNormal 6) n)
    ∧ ∫ zs, (chain (stockChainStep q dt) n s (firstDraws zs)).fx.fx
      * (chain (stockChainStep q dt) n s (firstDraws zs)).stock
      / stockAccount q dt n s (firstDraws zs) ∂iidLaw (stdNormal 6) n = s.fx.fx * s.stock := by
  have := chain_martingale (stdNormal 6) (stockChainStep q dt) (measurable_stockChainStep q dt)
    (fun s => 0 < s.fx.fx ∧ 0 < s.stock) (fun k s z _ => stock_pos_step q dt k s z)
    (fun s => s.fx.fx * s.stock) ((measurable_fx.comp measurable_stock_fx).mul measurable_stock)
    (fun s hs => (mul_pos hs.1 hs.2).le) (fun k s => s.fx.rd * dt k)
    (fun k => (measurable_rd.comp measurable_stock_fx).mul_const _)
    (fun k s hs => (C72_means h (hdt k) hs.1 hs.2).2.2.1)
    (fun k s hs => (C72_means h (hdt k) hs.1 hs.2).2.2.2) ⟨hs, hS⟩ n
  simp_rw [Real.exp_neg, ← div_eq_mul_inv] at this
  exact this

/-- **C72**: the same for the FX rate itself with respect to the two accounts. -/
theorem C72_fx_martingale {p : HhwParams} {e : ForeignStock} {q : HhwStockSim}
    (h : HhwStockSim.new p e = .ok q) {dt : ℕ → ℝ} (hdt : ∀ k, 0 ≤ dt k) {s : HhwStockState}
    (hs : 0 < s.fx.fx) (hS : 0 < s.stock) (n : ℕ) :
    ∫ zs, (chain (stockChainStep q dt) n s (firstDraws zs)).fx.fx
      / Real.exp (∑ k ∈ Finset.range n, ((chain (stockChainStep q dt) k s (firstDraws zs)).fx.rd
        - (chain (stockChainStep q dt) k s (firstDraws zs)).fx.rf) * dt k)
      ∂iidLaw (stdNormal 6) n = s.fx.fx := by
  have := chain_martingale (stdNormal 6) (stockChainStep q dt) (measurable_stockChainStep q dt)
    (fun s => 0 < s.fx.fx ∧ 0 < s.stock) (fun k s z _ => stock_pos_step q dt k s z)
    (fun s => s.fx.fx) (measurable_fx.comp measurable_stock_fx)
    (fun s hs => hs.1.le) (fun k s => (s.fx.rd - s.fx.rf) * dt k)
    (fun k => ((measurable_rd.comp measurable_stock_fx).sub
      (measurable_rf.comp measurable_stock_fx)).mul_const _)
    (fun k s hs => (C72_means h (hdt k) hs.1 hs.2).1.1)
    (fun k s hs => (C72_means h (hdt k) hs.1 hs.2).1.2) ⟨hs, hS⟩ n
  simp_rw [Real.exp_neg, ← div_eq_mul_inv] at this
  exact this.2

/-- **C72**, refuted part: the updated stock variance is clamped at zero, which is not the
full-truncation scheme: its mean strictly exceeds that of the drift whenever there is noise. -/
theorem C72_full_truncation_false {p : HhwParams} {e : ForeignStock} {q : HhwStockSim}
    (h : HhwStockSim.new p e = .ok q) {dt : ℝ} (hdt : 0 < dt) {s : HhwStockState}
    (hw : 0 < s.stockVariance) (hg : e.variance.gamma ≠ 0) :
    s.stockVariance + (e.variance.kappa * (e.variance.theta - s.stockVariance)
        - e.rhoSfOmega * e.rhoXiSf * e.variance.gamma * √s.stockVariance * √(max s.fx.variance 0)) * dt
      < ∫ z, (q.euler s dt z).stockVariance ∂stdNormal 6 := by
  obtain ⟨-, he, hq, hx, hr, -⟩ := stock_new_factor h
  set m := s.stockVariance + (e.variance.kappa * (e.variance.theta - s.stockVariance)
    - e.rhoSfOmega * e.rhoXiSf * e.variance.gamma * √s.stockVariance * √(max s.fx.variance 0)) * dt
    with hm
  set g := e.variance.gamma * √s.stockVariance with hgd
  have hg0 : g ≠ 0 := mul_ne_zero hg (Real.sqrt_pos.2 hw).ne'
  have hvar : ∀ z, (q.euler s dt z).stockVariance
      = max (m + ∑ k, (g * (stockRow q.chol e.rhoXiSf e.rhoSfOmega 5 k * √dt)) * z k) 0 := fun z => by
    have : ∑ k, (g * (stockRow q.chol e.rhoXiSf e.rhoSfOmega 5 k * √dt)) * z k
        = g * q.increment dt z 5 := by
      rw [increment_form h, Finset.mul_sum]
      exact Finset.sum_congr rfl fun k _ => by ring
    rw [this]
    unfold HhwStockSim.euler
    dsimp only
    rw [he, max_eq_left hw.le]
    rfl
  simp_rw [hvar]
  -- some coefficient of the increment is not zero, since its variance is `dt`
  have hex : ∃ i, stockRow q.chol e.rhoXiSf e.rhoSfOmega 5 i ≠ 0 := by
    by_contra hne
    push Not at hne
    have := stockRow_product hq rfl hx hr 5 5
    simp_rw [hne] at this
    rw [show stockCorr p.correlations.matrix e.rhoXiSf e.rhoSfOmega ((5 : Fin 6) : ℕ)
      ((5 : Fin 6) : ℕ) = 1 from rfl] at this
    simp at this
  obtain ⟨i, hi⟩ := hex
  exact clamp_mean_gt m _ (i := i) (mul_ne_zero hg0 (mul_ne_zero hi (Real.sqrt_pos.2 hdt).ne'))

theorem stock_pathLoop (q : HhwStockSim) {dt : ℝ} (hdt : 0 < dt) (draws : ℕ → Fin 6 → ℝ) :
    ∀ (n k : ℕ) (s : HhwStockState), q.pathLoop dt draws n k s
      = .ok (chain (stockChainStep q fun _ => dt) n s fun j => draws (k + j))
  | 0, k, s => rfl
  | n + 1, k, s => by
    rw [HhwStockSim.pathLoop, HhwStockSim.step, if_pos hdt, ok_bind, stock_pathLoop q hdt draws n,
      chain_front]
    refine congrArg Outcome.ok ?_
    congr 1
    funext j
    rw [show k + 1 + j = k + (j + 1) by omega]

theorem stock_pathsLoop (q : HhwStockSim) {dt : ℝ} (hdt : 0 < dt) (nSteps : ℕ)
    (draws : ℕ → Fin 6 → ℝ) :
    ∀ n k : ℕ, q.pathsLoop dt nSteps draws n k = .ok ((List.range n).map fun i =>
      chain (stockChainStep q fun _ => dt) nSteps (HhwStockState.initial q.params q.equity)
        fun j => draws (k + i * nSteps + j))
  | 0, k => rfl
  | n + 1, k => by
    rw [HhwStockSim.pathsLoop, stock_pathLoop q hdt draws nSteps, ok_bind,
      stock_pathsLoop q hdt nSteps draws n (k + nSteps), ok_bind, List.range_succ_eq_map]
    simp only [List.map_cons, List.map_map, zero_mul, add_zero]
    congr 2
    refine List.map_congr_left fun i _ => ?_
    simp only [Function.comp]
    congr 1
    funext j
    rw [show k + nSteps + i * nSteps + j = k + (i + 1) * nSteps + j by ring]

/-- **C72**: `simulate` returns one terminal state per path; path `i` is the chain of equal steps
driven by its own block of draws, started at the configured values. Empty requests panic. -/
theorem C72_simulate (q : HhwStockSim) (draws : ℕ → Fin 6 → ℝ) (tEnd : ℝ) (nSteps nPaths : ℕ) :
    (0 < nSteps → 0 < nPaths → 0 < tEnd → ∃ l, q.simulate draws tEnd nSteps nPaths = .ok l
      ∧ l.length = nPaths
      ∧ (∀ i < nPaths, l[i]? = some (chain (stockChainStep q fun _ => tEnd / nSteps) nSteps
          ⟨⟨q.params.fx0, q.params.heston.sigma0, q.params.rd0, q.params.rf0⟩, q.equity.s0,
            q.equity.variance.sigma0⟩ fun j => draws (i * nSteps + j)))
      ∧ ∀ s ∈ l, 0 < s.fx.fx ∧ 0 ≤ s.fx.variance ∧ 0 < s.stock ∧ 0 ≤ s.stockVariance)
    ∧ (nSteps = 0 ∨ nPaths = 0 ∨ tEnd ≤ 0 → q.simulate draws tEnd nSteps nPaths = .panic) := by
  unfold HhwStockSim.simulate
  constructor
  · intro h1 h2 h3
    rw [if_pos ⟨h1, h2, h3⟩, stock_pathsLoop q (by positivity)]
    refine ⟨_, rfl, by simp, fun i hi => ?_, fun s hs => ?_⟩
    · simp [hi, HhwStockState.initial, HhwState.initial]
    · obtain ⟨i, -, rfl⟩ := List.mem_map.1 hs
      obtain ⟨m, rfl⟩ : ∃ m, nSteps = m + 1 := ⟨nSteps - 1, by omega⟩
      rw [chain]
      exact ⟨Real.exp_pos _, le_max_right _ _, Real.exp_pos _, le_max_right _ _⟩
  · intro h
    rw [if_neg]
    rintro ⟨h1, h2, h3⟩
    rcases h with h | h | h
    · omega
    · omega
    · linarith

/-- **C72**: driven by dates, the simulator is the same chain with the steps between consecutive
dates, started at the configured values; so the martingale properties apply to it. -/
theorem C72_dated (q : HhwStockSim) (draws : ℕ → Fin 6 → ℝ) (f : Int → ℝ) (later : List Int) :
    (∀ k, (q.toModel draws).initial k
      = ⟨⟨q.params.fx0, q.params.heston.sigma0, q.params.rd0, q.params.rf0⟩, q.equity.s0,
          q.equity.variance.sigma0⟩)
    ∧ ∀ (val : Int) (s : HhwStockState) (k : ℕ), walk (q.toModel draws) f val later (s, k)
      = (chain (stockChainStep q
          fun j => f ((val :: later).getD (j + 1) 0) - f ((val :: later).getD j 0))
          later.length s (fun j => draws (k + j)), k + later.length) := by
  refine ⟨fun _ => rfl, ?_⟩
  induction later with
  | nil => intro val s k; rfl
  | cons d ds ih =>
    intro val s k
    rw [walk]
    change walk (q.toModel draws) f d ds (_, k + 1) = _
    rw [ih, List.length_cons, chain_front]
    refine Prod.ext ?_ (by simp; omega)
    dsimp only
    congr 1
    funext j
    rw [show k + 1 + j = k + (j + 1) by omega]

/-- A stock at 100 with leverage `−7/10`, correlated `3/10` with the FX rate of `exHhwSim`. -/
noncomputable def exForeignStock : ForeignStock :=
  ⟨100, ⟨3 / 2, 3 / 10, 1 / 25, 1 / 20⟩, 3 / 10, -7 / 10⟩

/-- The hypotheses of the theorems above hold together. -/
example : ∃ q, HhwStockSim.new exHhwSim exForeignStock = .ok q
    ∧ 0 < (HhwStockState.initial exHhwSim exForeignStock).fx.fx
    ∧ 0 < (HhwStockState.initial exHhwSim exForeignStock).stock
    ∧ 0 < (HhwStockState.initial exHhwSim exForeignStock).fx.variance
    ∧ 0 < (HhwStockState.initial exHhwSim exForeignStock).stockVariance
    ∧ exForeignStock.variance.gamma ≠ 0
    ∧ stockCorr exHhwSim.correlations.matrix exForeignStock.rhoXiSf exForeignStock.rhoSfOmega 0 5
      = -21 / 100 := by
  obtain ⟨q, hq⟩ := ((C72_new exHhwSim exForeignStock).1.2 ⟨(C67_new _).1.1 exHhwSim_new, by
    norm_num [exForeignStock, abs_le], by norm_num [exForeignStock, abs_le]⟩)
  refine ⟨q, hq, ?_⟩
  simp only [HhwStockState.initial, HhwState.initial, exHhwSim, exForeignStock, stockCorr,
    Correlation4.matrix]
  norm_num

end Verif
