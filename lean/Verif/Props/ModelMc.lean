import Verif.Lemmas.ModelMc
import Verif.Props.HhwStock
import Verif.Props.TdSabr
import Verif.Props.FxFmmSim

/-!
# C88: Monte Carlo averages of the model simulators
-/

namespace Verif

open MeasureTheory ProbabilityTheory Filter Topology Outcome

variable {Ω S V : Type} [MeasurableSpace Ω] [MeasurableSpace V] {P : Measure Ω} [IsProbabilityMeasure P]

/-! ## What a sample is good for -/

theorem sample_average {obs : S → V} {r : ℕ → Ω → List S} {X : ℕ → Ω → V}
    (hX : ∀ n ω, 0 < n → (r n ω).map obs = (List.range n).map fun j => X j ω) (G : V → ℝ) {n : ℕ}
    (hn : 0 < n) (ω : Ω) :
    average (fun s => G (obs s)) (r n ω) = (∑ j ∈ Finset.range n, G (X j ω)) / n := by
  have h := hX n ω hn
  have hl : (r n ω).length = n := by
    rw [← List.length_map (f := obs), h, List.length_map, List.length_range]
  rw [average, hl, show (r n ω).map (fun s => G (obs s)) = ((r n ω).map obs).map G by
    rw [List.map_map]; rfl, h, List.map_map]
  rfl

/-- **C88**: averages over samples converge almost surely to the mean of a single path. -/
theorem C88_average {obs : S → V} {r : ℕ → Ω → List S} (h : IidSample P obs r) {G : V → ℝ}
    (hG : Measurable G) (hint : Integrable (fun ω => average (fun s => G (obs s)) (r 1 ω)) P) :
    ∀ᵐ ω ∂P, Tendsto (fun n => average (fun s => G (obs s)) (r n ω)) atTop
      (𝓝 (∫ ω, average (fun s => G (obs s)) (r 1 ω) ∂P)) := by
  obtain ⟨X, hX, hm, hi, hl⟩ := h
  have e1 : (fun ω => average (fun s => G (obs s)) (r 1 ω)) = fun ω => G (X 0 ω) := by
    funext ω; rw [sample_average hX G one_pos]; simp
  rw [e1] at hint ⊢
  have hid : ∀ j, IdentDistrib (fun ω => G (X j ω)) (fun ω => G (X 0 ω)) P P := fun j =>
    (⟨(hm j).aemeasurable, (hm 0).aemeasurable, hl j⟩ : IdentDistrib (X j) (X 0) P P).comp hG
  filter_upwards [strong_law_ae_real (fun j ω => G (X j ω)) hint
    (fun i j hij => (hi.indepFun hij).comp hG hG) hid] with ω hω
  refine hω.congr' ?_
  filter_upwards [eventually_gt_atTop 0] with n hn
  rw [sample_average hX G hn]

/-- **C88**: the average over `n` paths has the mean of a single path and its variance divided by
`n`, and `√n` times its error tends in distribution to a normal law. -/
theorem C88_error {obs : S → V} {r : ℕ → Ω → List S} (h : IidSample P obs r) {G : V → ℝ}
    (hG : Measurable G) (hint : MemLp (fun ω => average (fun s => G (obs s)) (r 1 ω)) 2 P) :
    (∀ n, 0 < n → ∫ ω, average (fun s => G (obs s)) (r n ω) ∂P
        = ∫ ω, average (fun s => G (obs s)) (r 1 ω) ∂P
      ∧ Var[fun ω => average (fun s => G (obs s)) (r n ω); P]
        = Var[fun ω => average (fun s => G (obs s)) (r 1 ω); P] / n)
    ∧ TendstoInDistribution (fun (n : ℕ) ω => √(n + 1 : ℕ) * (average (fun s => G (obs s)) (r (n + 1) ω)
        - ∫ ω, average (fun s => G (obs s)) (r 1 ω) ∂P)) atTop id (fun _ => P)
      (gaussianReal 0 Var[fun ω => average (fun s => G (obs s)) (r 1 ω); P].toNNReal) := by
  obtain ⟨X, hX, hm, hi, hl⟩ := h
  have e1 : (fun ω => average (fun s => G (obs s)) (r 1 ω)) = fun ω => G (X 0 ω) := by
    funext ω; rw [sample_average hX G one_pos]; simp
  have en : ∀ n, 0 < n → (fun ω => average (fun s => G (obs s)) (r n ω))
      = fun ω => (∑ j ∈ Finset.range n, G (X j ω)) / n := fun n hn => by
    funext ω; rw [sample_average hX G hn]
  rw [e1] at hint ⊢
  have hid : ∀ j, IdentDistrib (fun ω => G (X j ω)) (fun ω => G (X 0 ω)) P P := fun j =>
    (⟨(hm j).aemeasurable, (hm 0).aemeasurable, hl j⟩ : IdentDistrib (X j) (X 0) P P).comp hG
  have hL : ∀ j, MemLp (fun ω => G (X j ω)) 2 P := fun j => (hid j).memLp_iff.2 hint
  constructor
  · intro n hn
    have hn' : (n : ℝ) ≠ 0 := by exact_mod_cast hn.ne'
    rw [en n hn]
    constructor
    · rw [integral_div, integral_finset_sum _ fun j _ => (hL j).integrable (by norm_num)]
      simp only [fun j => (hid j).integral_eq]
      rw [Finset.sum_const, Finset.card_range, nsmul_eq_mul, mul_div_cancel_left₀ _ hn']
    · have e : (fun ω => (∑ j ∈ Finset.range n, G (X j ω)) / n)
          = fun ω => (n : ℝ)⁻¹ * (∑ j ∈ Finset.range n, fun ω => G (X j ω)) ω := by
        funext ω; rw [Finset.sum_apply, div_eq_inv_mul]
      rw [e, variance_const_mul, IndepFun.variance_sum (fun j _ => hL j)
        (fun i _ j _ hij => (hi.indepFun hij).comp hG hG)]
      simp only [fun j => (hid j).variance_eq]
      rw [Finset.sum_const, Finset.card_range, nsmul_eq_mul]
      field_simp
  · have := tendstoInDistribution_inv_sqrt_mul_sum_sub (X := fun j ω => G (X j ω)) (Y := id)
      (P' := gaussianReal 0 Var[fun ω => G (X 0 ω); P].toNNReal)
      ⟨aemeasurable_id, Measure.map_id⟩ hint (hi.comp (fun _ => G) fun _ => hG) hid
    have e : ∀ (n : ℕ) ω, √(n + 1 : ℕ) * (average (fun s => G (obs s)) (r (n + 1) ω)
        - ∫ ω, G (X 0 ω) ∂P) = (√(n + 1 : ℕ))⁻¹ * (∑ j ∈ Finset.range (n + 1), G (X j ω)
          - (n + 1 : ℕ) * ∫ ω, G (X 0 ω) ∂P) := by
      intro n ω
      rw [sample_average hX G n.succ_pos]
      have hp : (0 : ℝ) < (n + 1 : ℕ) := by exact_mod_cast n.succ_pos
      have hs := Real.sqrt_pos.2 hp
      generalize ∑ j ∈ Finset.range (n + 1), G (X j ω) = A
      generalize ∫ ω, G (X 0 ω) ∂P = B
      have hq : √((n + 1 : ℕ) : ℝ) * √((n + 1 : ℕ) : ℝ) = ((n + 1 : ℕ) : ℝ) := Real.mul_self_sqrt hp.le
      generalize √((n + 1 : ℕ) : ℝ) = t at hs hq
      rw [← hq]
      field_simp
    simp only [e]
    exact ⟨fun n => this.forall_aemeasurable (n + 1), this.aemeasurable_limit,
      this.tendsto.comp (tendsto_add_atTop_nat 1)⟩

/-! ## The FX-HHW simulator -/

/-- What is observed of a state. -/
def hhwObs (s : HhwState) : ℝ × ℝ × ℝ × ℝ := (s.fx, s.variance, s.rd, s.rf)

theorem hhw_sample {q : HhwSim} {ξ : ℕ → Ω → Fin 4 → ℝ} (hξ : IidDraws P (stdNormal 4) ξ) {T : ℝ}
    {N : ℕ} {r : ℕ → Ω → List HhwState}
    (hr : ∀ n ω, 0 < n → q.simulate (fun k => ξ k ω) T N n = .ok (r n ω)) :
    (0 < N ∧ 0 < T) ∧ IidSample P hhwObs r ∧ ∀ G : ℝ × ℝ × ℝ × ℝ → ℝ, Measurable G →
      (Integrable (fun ω => average (fun s => G (hhwObs s)) (r 1 ω)) P
        ↔ Integrable (fun zs => G (hhwObs (chain (hhwChainStep q (fun _ => T / N)
          fun _ => (q.params.thetaD, q.params.thetaF)) N
          ⟨q.params.fx0, q.params.heston.sigma0, q.params.rd0, q.params.rf0⟩ (firstDraws zs))))
          (iidLaw (stdNormal 4) N))
      ∧ ∫ ω, average (fun s => G (hhwObs s)) (r 1 ω) ∂P
        = ∫ zs, G (hhwObs (chain (hhwChainStep q (fun _ => T / N)
          fun _ => (q.params.thetaD, q.params.thetaF)) N
          ⟨q.params.fx0, q.params.heston.sigma0, q.params.rd0, q.params.rf0⟩ (firstDraws zs)))
          ∂iidLaw (stdNormal 4) N := by
  obtain ⟨ω0⟩ : Nonempty Ω := P.nonempty_of_neZero
  have hc : 0 < N ∧ 0 < T := by
    by_contra hc
    have := (C67_simulate q (fun k => ξ k ω0) T N 1).2 (by
      by_contra h'
      push Not at h'
      exact hc ⟨Nat.pos_of_ne_zero h'.1, h'.2.2⟩)
    rw [hr 1 ω0 one_pos] at this
    cases this
  refine ⟨hc, chain_sample hξ (measurable_hhw_tuple.comp (measurable_chain _
    (measurable_hhwChainStep q _ _) _ _)) fun n ω hn => ?_⟩
  obtain ⟨l, h1, h2, h3, -⟩ := (C67_simulate q (fun k => ξ k ω) T N n).1 hc.1 hn hc.2
  rw [hr n ω hn] at h1
  injection h1 with h1
  subst h1
  exact ⟨h2, h3⟩

/-- **C88**: the terminal states of the FX-HHW simulator are samples. -/
theorem C88_hhw {q : HhwSim} {ξ : ℕ → Ω → Fin 4 → ℝ} (hξ : IidDraws P (stdNormal 4) ξ) {T : ℝ}
    {N : ℕ} {r : ℕ → Ω → List HhwState}
    (hr : ∀ n ω, 0 < n → q.simulate (fun k => ξ k ω) T N n = .ok (r n ω)) :
    IidSample P hhwObs r := (hhw_sample hξ hr).2.1

/-- **C88**: the average domestic rate converges almost surely to the mean of the mean-reverting
scheme. -/
theorem C88_hhw_rate {p : HhwParams} {q : HhwSim} (h : HhwSim.new p = .ok q)
    {ξ : ℕ → Ω → Fin 4 → ℝ} (hξ : IidDraws P (stdNormal 4) ξ) {T : ℝ} {N : ℕ}
    {r : ℕ → Ω → List HhwState}
    (hr : ∀ n ω, 0 < n → q.simulate (fun k => ξ k ω) T N n = .ok (r n ω)) :
    ∀ᵐ ω ∂P, Tendsto (fun n => average HhwState.rd (r n ω)) atTop
      (𝓝 (p.thetaD + (1 - p.domestic.lambda * (T / N)) ^ N * (p.rd0 - p.thetaD))) := by
  obtain ⟨-, hs, hG⟩ := hhw_sample hξ hr
  obtain ⟨hp, -, hq⟩ := hhw_new_factor h
  have hg : Measurable fun v : ℝ × ℝ × ℝ × ℝ => v.2.2.1 :=
    measurable_fst.comp (measurable_snd.comp measurable_snd)
  obtain ⟨g1, g2⟩ := hG _ hg
  have hm := chain_mean (stdNormal 4) (hhwChainStep q (fun _ => T / N)
      fun _ => (q.params.thetaD, q.params.thetaF)) HhwState.rd
    (fun k => 1 - p.domestic.lambda * (T / N)) (fun k => p.domestic.lambda * p.thetaD * (T / N))
    (fun k z => p.domestic.sigma * q.noise (T / N) z 2) (fun k => (noise_mean q hq _ 2).1.const_mul _)
    (fun k => by rw [integral_const_mul, (noise_mean q hq _ 2).2, mul_zero]) (fun k s z => by
      change s.rd + q.params.domestic.lambda * (q.params.thetaD - s.rd) * (T / N)
        + q.params.domestic.sigma * q.noise (T / N) z 2 = _
      rw [hp]
      ring)
    (eulerMean p.domestic.lambda (fun _ => T / N) (fun _ => p.thetaD) p.rd0)
    ⟨q.params.fx0, q.params.heston.sigma0, q.params.rd0, q.params.rf0⟩ (by rw [hp]; rfl) (fun k => rfl) N
  rw [(C67_scheme_mean p.domestic.lambda (T / N) p.thetaD p.rd0 N).1] at hm
  have := C88_average hs hg (g1.2 hm.1)
  rw [g2] at this
  exact (hm.2 ▸ this : _)

/-- **C88**: with deterministic constant rates the average FX rate converges almost surely to the
forward of covered interest parity, whatever the volatility parameters. -/
theorem C88_hhw_parity {p : HhwParams} {q : HhwSim} (h : HhwSim.new p = .ok q) (hfx : 0 < p.fx0)
    (hd : p.domestic.sigma = 0) (hf : p.foreign.sigma = 0) (ht : p.rd0 = p.thetaD)
    (ht' : p.rf0 = p.thetaF) {ξ : ℕ → Ω → Fin 4 → ℝ} (hξ : IidDraws P (stdNormal 4) ξ) {T : ℝ}
    {N : ℕ} {r : ℕ → Ω → List HhwState}
    (hr : ∀ n ω, 0 < n → q.simulate (fun k => ξ k ω) T N n = .ok (r n ω)) :
    ∀ᵐ ω ∂P, Tendsto (fun n => average HhwState.fx (r n ω)) atTop
      (𝓝 (p.fx0 * Real.exp ((p.rd0 - p.rf0) * T))) := by
  obtain ⟨⟨hN, hT⟩, hs, hG⟩ := hhw_sample hξ hr
  obtain ⟨hp, -, -⟩ := hhw_new_factor h
  have hNr : (0 : ℝ) < N := by exact_mod_cast hN
  obtain ⟨g1, g2⟩ := hG _ measurable_fst
  rw [hp] at g1 g2
  have hconst : ∀ (z : ℕ → Fin 4 → ℝ) (k : ℕ), (chain (hhwChainStep q (fun _ => T / N)
        fun _ => (p.thetaD, p.thetaF)) k ⟨p.fx0, p.heston.sigma0, p.rd0, p.rf0⟩ z).rd = p.rd0
      ∧ (chain (hhwChainStep q (fun _ => T / N)
        fun _ => (p.thetaD, p.thetaF)) k ⟨p.fx0, p.heston.sigma0, p.rd0, p.rf0⟩ z).rf = p.rf0 := by
    intro z k
    induction k with
    | zero => exact ⟨rfl, rfl⟩
    | succ k ih =>
      rw [chain]
      generalize chain (hhwChainStep q (fun _ => T / N) fun _ => (p.thetaD, p.thetaF)) k
        ⟨p.fx0, p.heston.sigma0, p.rd0, p.rf0⟩ z = s at ih
      constructor
      · change s.rd + q.params.domestic.lambda * (p.thetaD - s.rd) * (T / N)
          + q.params.domestic.sigma * q.noise (T / N) (z k) 2 = _
        rw [hp, hd, ih.1, ht]
        ring
      · change s.rf + (q.params.foreign.lambda * (p.thetaF - s.rf)
          - q.params.foreign.sigma * q.params.correlations.xiF * √(max s.variance 0)) * (T / N)
          + q.params.foreign.sigma * q.noise (T / N) (z k) 3 = _
        rw [hp, hf, ih.2, ht']
        ring
  have hcarry : ∀ z : ℕ → Fin 4 → ℝ, hhwCarry q (fun _ => T / N) (fun _ => (p.thetaD, p.thetaF)) N
      ⟨p.fx0, p.heston.sigma0, p.rd0, p.rf0⟩ z = Real.exp ((p.rd0 - p.rf0) * T) := by
    intro z
    unfold hhwCarry
    rw [Finset.sum_congr rfl fun k _ => by rw [(hconst z k).1, (hconst z k).2], Finset.sum_const,
      Finset.card_range, nsmul_eq_mul]
    congr 1
    field_simp
  have hm := C67_martingale h (dt := fun _ => T / N) (fun _ => (div_pos hT hNr).le)
    (fun _ => (p.thetaD, p.thetaF)) (s := ⟨p.fx0, p.heston.sigma0, p.rd0, p.rf0⟩) hfx N
  simp only [hcarry] at hm
  have hE := Real.exp_pos ((p.rd0 - p.rf0) * T)
  have hi : Integrable (fun zs => (chain (hhwChainStep q (fun _ => T / N)
        fun _ => (p.thetaD, p.thetaF)) N ⟨p.fx0, p.heston.sigma0, p.rd0, p.rf0⟩ (firstDraws zs)).fx)
      (iidLaw (stdNormal 4) N) := by
    refine (hm.1.mul_const (Real.exp ((p.rd0 - p.rf0) * T))).congr (Eventually.of_forall fun zs => ?_)
    exact div_mul_cancel₀ _ hE.ne'
  have he : ∫ zs, (chain (hhwChainStep q (fun _ => T / N)
        fun _ => (p.thetaD, p.thetaF)) N ⟨p.fx0, p.heston.sigma0, p.rd0, p.rf0⟩ (firstDraws zs)).fx
      ∂iidLaw (stdNormal 4) N = p.fx0 * Real.exp ((p.rd0 - p.rf0) * T) := by
    have := hm.2
    rw [integral_div] at this
    exact (div_eq_iff hE.ne').1 this
  have := C88_average hs measurable_fst (g1.2 hi)
  rw [g2] at this
  exact (he ▸ this : _)

/-! ## The foreign-stock simulator -/

/-- What is observed of a state. -/
def stockObs (s : HhwStockState) : (ℝ × ℝ × ℝ × ℝ) × ℝ × ℝ := (hhwObs s.fx, s.stock, s.stockVariance)

theorem stock_sample {q : HhwStockSim} {ξ : ℕ → Ω → Fin 6 → ℝ} (hξ : IidDraws P (stdNormal 6) ξ) {T : ℝ}
    {N : ℕ} {r : ℕ → Ω → List HhwStockState}
    (hr : ∀ n ω, 0 < n → q.simulate (fun k => ξ k ω) T N n = .ok (r n ω)) :
    (0 < N ∧ 0 < T) ∧ IidSample P stockObs r ∧ ∀ G : (ℝ × ℝ × ℝ × ℝ) × ℝ × ℝ → ℝ, Measurable G →
      (Integrable (fun ω => average (fun s => G (stockObs s)) (r 1 ω)) P
        ↔ Integrable (fun zs => G (stockObs (chain (stockChainStep q (fun _ => T / N)) N
          ⟨⟨q.params.fx0, q.params.heston.sigma0, q.params.rd0, q.params.rf0⟩, q.equity.s0,
            q.equity.variance.sigma0⟩ (firstDraws zs)))) (iidLaw (stdNormal 6) N))
      ∧ ∫ ω, average (fun s => G (stockObs s)) (r 1 ω) ∂P
        = ∫ zs, G (stockObs (chain (stockChainStep q (fun _ => T / N)) N
          ⟨⟨q.params.fx0, q.params.heston.sigma0, q.params.rd0, q.params.rf0⟩, q.equity.s0,
            q.equity.variance.sigma0⟩ (firstDraws zs))) ∂iidLaw (stdNormal 6) N := by
  obtain ⟨ω0⟩ : Nonempty Ω := P.nonempty_of_neZero
  have hc : 0 < N ∧ 0 < T := by
    by_contra hc
    have := (C72_simulate q (fun k => ξ k ω0) T N 1).2 (by
      by_contra h'
      push Not at h'
      exact hc ⟨Nat.pos_of_ne_zero h'.1, h'.2.2⟩)
    rw [hr 1 ω0 one_pos] at this
    cases this
  have ho : Measurable stockObs :=
    (measurable_hhw_tuple.comp (measurable_fst.comp measurable_stock_tuple)).prodMk
      (measurable_snd.comp measurable_stock_tuple)
  refine ⟨hc, chain_sample hξ (ho.comp (measurable_chain _ (measurable_stockChainStep q _) _ _))
    fun n ω hn => ?_⟩
  obtain ⟨l, h1, h2, h3, -⟩ := (C72_simulate q (fun k => ξ k ω) T N n).1 hc.1 hn hc.2
  rw [hr n ω hn] at h1
  injection h1 with h1
  subst h1
  exact ⟨h2, h3⟩

/-- **C88**: the terminal states of the foreign-stock simulator are samples. -/
theorem C88_stock {q : HhwStockSim} {ξ : ℕ → Ω → Fin 6 → ℝ} (hξ : IidDraws P (stdNormal 6) ξ) {T : ℝ}
    {N : ℕ} {r : ℕ → Ω → List HhwStockState}
    (hr : ∀ n ω, 0 < n → q.simulate (fun k => ξ k ω) T N n = .ok (r n ω)) :
    IidSample P stockObs r := (stock_sample hξ hr).2.1

/-- **C88**: with a deterministic constant domestic rate the average of the stock converted at the FX
rate converges almost surely to today's value grown at the domestic rate. -/
theorem C88_stock_parity {p : HhwParams} {e : ForeignStock} {q : HhwStockSim}
    (h : HhwStockSim.new p e = .ok q) (hfx : 0 < p.fx0) (hS : 0 < e.s0) (hd : p.domestic.sigma = 0)
    (ht : p.rd0 = p.thetaD) {ξ : ℕ → Ω → Fin 6 → ℝ} (hξ : IidDraws P (stdNormal 6) ξ) {T : ℝ}
    {N : ℕ} {r : ℕ → Ω → List HhwStockState}
    (hr : ∀ n ω, 0 < n → q.simulate (fun k => ξ k ω) T N n = .ok (r n ω)) :
    ∀ᵐ ω ∂P, Tendsto (fun n => average (fun s : HhwStockState => s.fx.fx * s.stock) (r n ω)) atTop
      (𝓝 (p.fx0 * e.s0 * Real.exp (p.rd0 * T))) := by
  obtain ⟨⟨hN, hT⟩, hs, hG⟩ := stock_sample hξ hr
  obtain ⟨hp, heq, -⟩ := stock_new_factor h
  have hNr : (0 : ℝ) < N := by exact_mod_cast hN
  have hg : Measurable fun v : (ℝ × ℝ × ℝ × ℝ) × ℝ × ℝ => v.1.1 * v.2.1 :=
    (measurable_fst.comp measurable_fst).mul (measurable_fst.comp measurable_snd)
  obtain ⟨g1, g2⟩ := hG _ hg
  rw [hp, heq] at g1 g2
  set s0 : HhwStockState := ⟨⟨p.fx0, p.heston.sigma0, p.rd0, p.rf0⟩, e.s0, e.variance.sigma0⟩ with hs0
  obtain ⟨b, hb, hbase⟩ := C72_base h
  obtain ⟨hbp, -, -⟩ := hhw_new_factor hb
  have hconst : ∀ (z : ℕ → Fin 6 → ℝ) (k : ℕ),
      (chain (stockChainStep q (fun _ => T / N)) k s0 z).fx.rd = p.rd0 := by
    intro z k
    rw [hbase]
    induction k with
    | zero => rfl
    | succ k ih =>
      rw [chain]
      generalize chain (hhwChainStep b (fun _ => T / N) fun _ => (p.thetaD, p.thetaF)) k s0.fx
        (fun k => baseDraws (z k)) = s at ih
      change s.rd + b.params.domestic.lambda * (p.thetaD - s.rd) * (T / N)
          + b.params.domestic.sigma * b.noise (T / N) (baseDraws (z k)) 2 = _
      rw [hbp, hd, ih, ht]
      ring
  have hacc : ∀ z : ℕ → Fin 6 → ℝ, stockAccount q (fun _ => T / N) N s0 z = Real.exp (p.rd0 * T) := by
    intro z
    unfold stockAccount
    rw [Finset.sum_congr rfl fun k _ => by rw [hconst z k], Finset.sum_const, Finset.card_range,
      nsmul_eq_mul]
    congr 1
    field_simp
  have hm := C72_martingale h (dt := fun _ => T / N) (fun _ => (div_pos hT hNr).le) (s := s0) hfx hS N
  simp only [hacc] at hm
  have hE := Real.exp_pos (p.rd0 * T)
  have hi : Integrable (fun zs => (chain (stockChainStep q (fun _ => T / N)) N s0 (firstDraws zs)).fx.fx
      * (chain (stockChainStep q (fun _ => T / N)) N s0 (firstDraws zs)).stock)
      (iidLaw (stdNormal 6) N) := by
    refine (hm.1.mul_const (Real.exp (p.rd0 * T))).congr (Eventually.of_forall fun zs => ?_)
    exact div_mul_cancel₀ _ hE.ne'
  have he : ∫ zs, (chain (stockChainStep q (fun _ => T / N)) N s0 (firstDraws zs)).fx.fx
      * (chain (stockChainStep q (fun _ => T / N)) N s0 (firstDraws zs)).stock
      ∂iidLaw (stdNormal 6) N = p.fx0 * e.s0 * Real.exp (p.rd0 * T) := by
    have := hm.2
    rw [integral_div] at this
    exact (div_eq_iff hE.ne').1 this
  have := C88_average hs hg (g1.2 hi)
  rw [g2] at this
  exact (he ▸ this : _)

/-! ## The SABR simulators -/

/-- What is observed of a state. -/
def sabrObs (s : SabrState) : ℝ × ℝ := (s.forward, s.vol)

theorem tdSabr_sample {p : TdSabr} (h : p.Admissible) (hh : 0 ≤ p.horizon) (hv : p.alpha.values ≠ [])
    {ξ : ℕ → Ω → Fin 2 → ℝ} (hξ : IidDraws P (stdNormal 2) ξ) {T : ℝ} {N : ℕ}
    {r : ℕ → Ω → List SabrState}
    (hr : ∀ n ω, 0 < n → p.simulate (fun k => ξ k ω) T N n = .ok (r n ω)) :
    (0 < N ∧ 0 < T ∧ T - T / N / 2 ≤ p.horizon + 1 / 10 ^ 15) ∧ IidSample P sabrObs r
      ∧ ∀ G : ℝ × ℝ → ℝ, Measurable G →
      (Integrable (fun ω => average (fun s => G (sabrObs s)) (r 1 ω)) P
        ↔ Integrable (fun zs => G ((chain (tdChain p (pcRead p.alpha 0) (T / N)) N (p.forward0, 1)
            (firstDraws zs)).1, pcRead p.alpha 0 * (chain (tdChain p (pcRead p.alpha 0) (T / N)) N
              (p.forward0, 1) (firstDraws zs)).2)) (iidLaw (stdNormal 2) N))
      ∧ ∫ ω, average (fun s => G (sabrObs s)) (r 1 ω) ∂P
        = ∫ zs, G ((chain (tdChain p (pcRead p.alpha 0) (T / N)) N (p.forward0, 1)
            (firstDraws zs)).1, pcRead p.alpha 0 * (chain (tdChain p (pcRead p.alpha 0) (T / N)) N
              (p.forward0, 1) (firstDraws zs)).2) ∂iidLaw (stdNormal 2) N := by
  obtain ⟨ω0⟩ : Nonempty Ω := P.nonempty_of_neZero
  obtain ⟨hN, -, hT, hR⟩ := (C70_range h hh hv (fun k => ξ k ω0) T N 1).1.1 ⟨_, hr 1 ω0 one_pos⟩
  have hNr : (0 : ℝ) < N := by exact_mod_cast hN
  have hs : (0 : ℝ) < 1 / 10 ^ 15 := by norm_num
  have ha0 : 0 < pcRead p.alpha 0 := h.alpha _ (pcRead_mem p.alpha hv 0)
  have hin : ((N : ℝ) - 1 / 2) * (T / N) ≤ p.alpha.finalTime + 1 / 10 ^ 15 := by
    have : ((N : ℝ) - 1 / 2) * (T / N) = T - T / N / 2 := by field_simp
    rw [this]; exact hR
  have hmc : Measurable fun z : ℕ → Fin 2 → ℝ =>
      chain (tdChain p (pcRead p.alpha 0) (T / N)) N (p.forward0, 1) z :=
    measurable_chain _ (measurable_sabrScheme _ _ _ _ _) _ _
  refine ⟨⟨hN, hT, hR⟩, block_sample hξ (Ψ := fun z =>
      ((chain (tdChain p (pcRead p.alpha 0) (T / N)) N (p.forward0, 1) z).1,
        pcRead p.alpha 0 * (chain (tdChain p (pcRead p.alpha 0) (T / N)) N (p.forward0, 1) z).2))
    ((measurable_fst.comp hmc).prodMk ((measurable_snd.comp hmc).const_mul _))
    (fun z z' hz => by rw [chain_congr _ _ N hz]) fun n ω hn => ?_⟩
  have hok := tdSabr_pathsLoop p (div_pos hT hNr) ha0.le h.forward.le h.final_rho h.final_nu
    (fun k => ξ k ω) N hin n 0
  have ha := at_pcRead p.alpha le_rfl (by rw [TdSabr.horizon] at hh; linarith)
  have hsim := hr n ω hn
  rw [TdSabr.simulate, if_pos ⟨hN, hn, hT⟩, ha, ok_bind, hok] at hsim
  injection hsim with hsim
  rw [← hsim, List.map_map]
  simp only [zero_add]
  rfl

/-- **C88**: the terminal states of the time-dependent SABR simulator are samples. -/
theorem C88_td_sabr {p : TdSabr} (h : p.Admissible) (hh : 0 ≤ p.horizon) (hv : p.alpha.values ≠ [])
    {ξ : ℕ → Ω → Fin 2 → ℝ} (hξ : IidDraws P (stdNormal 2) ξ) {T : ℝ} {N : ℕ}
    {r : ℕ → Ω → List SabrState}
    (hr : ∀ n ω, 0 < n → p.simulate (fun k => ξ k ω) T N n = .ok (r n ω)) :
    IidSample P sabrObs r := (tdSabr_sample h hh hv hξ hr).2.1

/-- **C88, refuted**: the average of the simulated forwards does not converge to today's forward; it
converges almost surely to a strictly larger number, for all admissible parameters and every number
of steps. -/
theorem C88_td_sabr_forward_false {p : TdSabr} (h : p.Admissible) (hh : 0 ≤ p.horizon)
    (hv : p.alpha.values ≠ []) {ξ : ℕ → Ω → Fin 2 → ℝ} (hξ : IidDraws P (stdNormal 2) ξ) {T : ℝ}
    {N : ℕ} {r : ℕ → Ω → List SabrState}
    (hr : ∀ n ω, 0 < n → p.simulate (fun k => ξ k ω) T N n = .ok (r n ω)) :
    ∃ m, p.forward0 < m ∧
      ∀ᵐ ω ∂P, Tendsto (fun n => average SabrState.forward (r n ω)) atTop (𝓝 m) := by
  obtain ⟨⟨hN, hT, -⟩, hs, hG⟩ := tdSabr_sample h hh hv hξ hr
  obtain ⟨g1, g2⟩ := hG _ measurable_fst
  have ha0 : 0 < pcRead p.alpha 0 := h.alpha _ (pcRead_mem p.alpha hv 0)
  have hb := C70_martingale_false h (pcRead p.rho) (pcRead p.nu) ha0 hT hN
  have := C88_average hs measurable_fst (g1.2 hb.1)
  rw [g2] at this
  exact ⟨_, hb.2, this⟩

/-- **C88**: the average of the simulated volatilities converges almost surely to the first
volatility. -/
theorem C88_td_sabr_vol {p : TdSabr} (h : p.Admissible) (hh : 0 ≤ p.horizon)
    (hv : p.alpha.values ≠ []) (hrv : p.rho.values ≠ []) {ξ : ℕ → Ω → Fin 2 → ℝ}
    (hξ : IidDraws P (stdNormal 2) ξ) {T : ℝ}
    {N : ℕ} {r : ℕ → Ω → List SabrState}
    (hr : ∀ n ω, 0 < n → p.simulate (fun k => ξ k ω) T N n = .ok (r n ω)) :
    ∀ᵐ ω ∂P, Tendsto (fun n => average SabrState.vol (r n ω)) atTop (𝓝 (pcRead p.alpha 0)) := by
  obtain ⟨⟨hN, hT, -⟩, hs, hG⟩ := tdSabr_sample h hh hv hξ hr
  have hNr : (0 : ℝ) < N := by exact_mod_cast hN
  obtain ⟨g1, g2⟩ := hG _ measurable_snd
  have hf := sabr_factor (fun _ => pcRead p.alpha 0) (fun k => pcRead p.rho ((k + 1 / 2) * (T / N)))
    (fun k => pcRead p.nu ((k + 1 / 2) * (T / N))) (fun _ => T / N) p.beta
    (fun k => ⟨(h.rho _ (pcRead_mem _ hrv _)).1.le, (h.rho _ (pcRead_mem _ hrv _)).2.le⟩)
    (fun _ => (div_pos hT hNr).le) 1 (s := (p.forward0, 1)) ⟨h.forward.le, one_pos⟩ N
  simp only [Real.rpow_one, one_pow, sub_self, zero_div, zero_mul, Real.exp_zero, mul_one] at hf
  have hi := hf.1.const_mul (pcRead p.alpha 0)
  have := C88_average hs measurable_snd (g1.2 hi)
  rw [g2] at this
  have he : ∫ zs, pcRead p.alpha 0 * (chain (tdChain p (pcRead p.alpha 0) (T / N)) N
      (p.forward0, 1) (firstDraws zs)).2 ∂iidLaw (stdNormal 2) N = pcRead p.alpha 0 := by
    rw [integral_const_mul]
    change _ * (∫ zs, (chain (sabrScheme _ _ _ _ _) N (p.forward0, 1) (firstDraws zs)).2 ∂_) = _
    rw [hf.2, mul_one]
  exact (he ▸ this : _)

/-- A flat schedule. -/
def flatSabr (s : Sabr) (f T : ℝ) : TdSabr :=
  ⟨⟨[0, T], [s.alpha]⟩, ⟨[0, T], [s.rho]⟩, ⟨[0, T], [s.nu]⟩, s.beta, f⟩

/-- **C88**: the terminal states of the SABR simulator with constant parameters are samples; the average
volatility converges almost surely to `α`, and the average forward to a number strictly above today's
forward. -/
theorem C88_sabr {s : Sabr} {f T : ℝ} (hα : 0 < s.alpha) (hβ : 0 ≤ s.beta) (hβ' : s.beta ≤ 1)
    (hρ : -1 < s.rho) (hρ' : s.rho < 1) (hν : 0 ≤ s.nu) (hf : 0 < f)
    {ξ : ℕ → Ω → Fin 2 → ℝ} (hξ : IidDraws P (stdNormal 2) ξ) {N : ℕ} {r : ℕ → Ω → List SabrState}
    (hr : ∀ n ω, 0 < n → s.simulate f (fun k => ξ k ω) T N n = .ok (r n ω)) :
    IidSample P sabrObs r
    ∧ (∀ᵐ ω ∂P, Tendsto (fun n => average SabrState.vol (r n ω)) atTop (𝓝 s.alpha))
    ∧ ∃ m, f < m ∧ ∀ᵐ ω ∂P, Tendsto (fun n => average SabrState.forward (r n ω)) atTop (𝓝 m) := by
  obtain ⟨ω0⟩ : Nonempty Ω := P.nonempty_of_neZero
  have hT : 0 < T := by
    by_contra hT
    have := hr 1 ω0 one_pos
    rw [Sabr.simulate, if_neg fun h => hT h.2.2] at this
    cases this
  have h : (flatSabr s f T).Admissible := ⟨rfl, rfl, hβ, hβ', hf, by simpa [flatSabr] using hα,
    by simpa [flatSabr] using hν, by simpa [flatSabr] using ⟨hρ, hρ'⟩⟩
  have hH : (flatSabr s f T).horizon = T := rfl
  have hr' : ∀ n ω, 0 < n → (flatSabr s f T).simulate (fun k => ξ k ω) T N n = .ok (r n ω) := by
    intro n ω hn
    rw [C70_flat h (by rw [hH]; exact hT.le) (a := s.alpha) (r := s.rho) (v := s.nu) (by simp [flatSabr])
      (by simp [flatSabr]) (by simp [flatSabr]) (by simp [flatSabr]) (by simp [flatSabr])
      (by simp [flatSabr]) _ hH.ge]
    exact hr n ω hn
  have hne : (flatSabr s f T).alpha.values ≠ [] := by simp [flatSabr]
  have ha : pcRead (flatSabr s f T).alpha 0 = s.alpha := by
    have := pcRead_mem _ hne 0
    simpa [flatSabr] using this
  refine ⟨C88_td_sabr h (by rw [hH]; exact hT.le) hne hξ hr', ?_,
    C88_td_sabr_forward_false h (by rw [hH]; exact hT.le) hne hξ hr'⟩
  have := C88_td_sabr_vol h (by rw [hH]; exact hT.le) hne (by simp [flatSabr]) hξ hr'
  rwa [ha] at this

/-! ## The FX simulator with forward market models -/

/-- What is observed of a state: the FX rate, the variance and all rates of both currencies. -/
noncomputable def fxFmmObs (m : ℕ) (st : FxFmmState) : ℝ × ℝ × (Fin m → ℝ) × (Fin m → ℝ) :=
  (st.fx, st.variance, (fun j => st.dom.R (j + 1)), fun j => st.fgn.R (j + 1))

/-- **C88**: the terminal states of the FX simulator with forward market models are samples. -/
theorem C88_fx_fmm {p : FmmParams} {s : FxFmmSim} (h : FxFmmSim.new p = .ok s) (hq : p.tenor.Ordered)
    {ξ : ℕ → Ω → Fin s.size → ℝ} (hξ : IidDraws P (stdNormal s.size) ξ) {T : ℝ} {N : ℕ}
    {r : ℕ → Ω → List FxFmmState}
    (hr : ∀ n ω, 0 < n → s.simulateTerminal (fun k => ξ k ω) T N n = .ok (r n ω)) :
    IidSample P (fxFmmObs p.tenor.m) r := by
  obtain ⟨ω0⟩ : Nonempty Ω := P.nonempty_of_neZero
  have hc : 0 < T ∧ 0 < N := by
    by_contra hc
    have := (C68_simulate h hq (fun k => ξ k ω0) T N 1).2 (by
      by_contra h'
      push Not at h'
      exact hc ⟨h'.1, Nat.pos_of_ne_zero h'.2.1⟩)
    rw [hr 1 ω0 one_pos] at this
    cases this
  have hNr : (0 : ℝ) < N := by exact_mod_cast hc.2
  obtain ⟨st0, i1, i2, -⟩ := C68_initial p hq
  have h' := h
  obtain ⟨rfl, hv, -⟩ := fxFmm_new h
  obtain ⟨m1, m2, m3, m4, -⟩ := measurable_fxChain hq hv (dt := fun _ => T / N)
    (fun _ => div_pos hc.1 hNr) i2 N
  refine (chain_sample hξ (step := fxFmmChainStep s fun _ => T / N) (s0 := st0) (N := N)
    (m1.prodMk (m2.prodMk ((measurable_pi_lambda _ fun j => m3 _ (by omega) (by omega)).prodMk
      (measurable_pi_lambda _ fun j => m4 _ (by omega) (by omega))))) fun n ω hn => ?_).1
  obtain ⟨st1, l, h0, h1, h2, h3, -⟩ := (C68_simulate h' hq (fun k => ξ k ω) T N n).1 hc.1 hc.2 hn
  rw [i1] at h0
  rw [hr n ω hn] at h1
  injection h0 with h0
  injection h1 with h1
  subst h0 h1
  exact ⟨h2, h3⟩

/-! ## Examples -/

theorem exists_vectorDraws (d : ℕ) : IidDraws (Measure.infinitePi fun _ : ℕ => stdNormal d) (stdNormal d)
    (fun k (ω : ℕ → Fin d → ℝ) => ω k) where
  measurable k := measurable_pi_apply k
  independent := iIndepFun_infinitePi (P := fun _ : ℕ => stdNormal d) (X := fun _ x => x)
    fun _ => measurable_id
  law k := Measure.infinitePi_map_eval _ k

/-- Two-step paths over a year: the average domestic rate stays at three percent. -/
example : ∃ (q : HhwSim) (r : ℕ → (ℕ → Fin 4 → ℝ) → List HhwState),
    HhwSim.new exHhwSim = .ok q ∧ (∀ n ω, 0 < n → q.simulate ω 1 2 n = .ok (r n ω))
    ∧ ∀ᵐ ω ∂Measure.infinitePi fun _ : ℕ => stdNormal 4,
      Tendsto (fun n => average HhwState.rd (r n ω)) atTop (𝓝 (3 / 100)) := by
  obtain ⟨q, h⟩ := exHhwSim_new
  have hex : ∀ n (ω : ℕ → Fin 4 → ℝ), ∃ l, 0 < n → q.simulate ω 1 2 n = .ok l := by
    intro n ω
    by_cases hn : 0 < n
    · obtain ⟨l, h1, -⟩ := (C67_simulate q ω 1 2 n).1 (by norm_num) hn (by norm_num)
      exact ⟨l, fun _ => h1⟩
    · exact ⟨[], fun h => absurd h hn⟩
  choose r hr using hex
  refine ⟨q, r, h, hr, ?_⟩
  have := C88_hhw_rate h (exists_vectorDraws 4) (T := 1) (N := 2) (r := r) hr
  norm_num [exHhwSim] at this
  norm_num
  exact this

/-- Constant rates of three and one percent, `κ = 2`, `γ = 1/5`: the average FX rate converges to
`exp (2/100)`. -/
example : ∃ (q : HhwSim) (r : ℕ → (ℕ → Fin 4 → ℝ) → List HhwState),
    HhwSim.new { exHhwSim with domestic := ⟨1 / 10, 0⟩, foreign := ⟨1 / 20, 0⟩ } = .ok q
    ∧ (∀ n ω, 0 < n → q.simulate ω 1 2 n = .ok (r n ω))
    ∧ ∀ᵐ ω ∂Measure.infinitePi fun _ : ℕ => stdNormal 4,
      Tendsto (fun n => average HhwState.fx (r n ω)) atTop (𝓝 (Real.exp (2 / 100))) := by
  obtain ⟨q, h⟩ : ∃ q, HhwSim.new { exHhwSim with domestic := ⟨1 / 10, 0⟩, foreign := ⟨1 / 20, 0⟩ }
      = .ok q := (C67_new _).1.2 ((C67_new exHhwSim).1.1 exHhwSim_new)
  have hex : ∀ n (ω : ℕ → Fin 4 → ℝ), ∃ l, 0 < n → q.simulate ω 1 2 n = .ok l := by
    intro n ω
    by_cases hn : 0 < n
    · obtain ⟨l, h1, -⟩ := (C67_simulate q ω 1 2 n).1 (by norm_num) hn (by norm_num)
      exact ⟨l, fun _ => h1⟩
    · exact ⟨[], fun h => absurd h hn⟩
  choose r hr using hex
  refine ⟨q, r, h, hr, ?_⟩
  have := C88_hhw_parity h (by norm_num [exHhwSim]) rfl rfl rfl rfl (exists_vectorDraws 4) (T := 1)
    (N := 2) (r := r) hr
  norm_num [exHhwSim] at this
  norm_num
  exact this

/-- A stock at 100 in foreign currency, a constant domestic rate of three percent. -/
example : ∃ (q : HhwStockSim) (r : ℕ → (ℕ → Fin 6 → ℝ) → List HhwStockState),
    HhwStockSim.new { exHhwSim with domestic := ⟨1 / 10, 0⟩ } exForeignStock = .ok q
    ∧ (∀ n ω, 0 < n → q.simulate ω 1 2 n = .ok (r n ω))
    ∧ ∀ᵐ ω ∂Measure.infinitePi fun _ : ℕ => stdNormal 6,
      Tendsto (fun n => average (fun s : HhwStockState => s.fx.fx * s.stock) (r n ω)) atTop
        (𝓝 (100 * Real.exp (3 / 100))) := by
  obtain ⟨q, h⟩ := (C72_new { exHhwSim with domestic := ⟨1 / 10, 0⟩ } exForeignStock).1.2
    ⟨(C67_new exHhwSim).1.1 exHhwSim_new, by norm_num [exForeignStock, abs_le], by
      norm_num [exForeignStock, abs_le]⟩
  have hex : ∀ n (ω : ℕ → Fin 6 → ℝ), ∃ l, 0 < n → q.simulate ω 1 2 n = .ok l := by
    intro n ω
    by_cases hn : 0 < n
    · obtain ⟨l, h1, -⟩ := (C72_simulate q ω 1 2 n).1 (by norm_num) hn (by norm_num)
      exact ⟨l, fun _ => h1⟩
    · exact ⟨[], fun h => absurd h hn⟩
  choose r hr using hex
  refine ⟨q, r, h, hr, ?_⟩
  have := C88_stock_parity h (by norm_num [exHhwSim]) (by norm_num [exForeignStock]) rfl rfl
    (exists_vectorDraws 6) (T := 1) (N := 2) (r := r) hr
  norm_num [exHhwSim, exForeignStock] at this
  norm_num
  exact this

/-- `α = 1/5`, `β = 1/2`, `ρ = −1/2`, `ν = 3/10` from a forward of one: a run exists for every draw, and
the averages of forward and volatility separate. -/
example : ∃ r : ℕ → (ℕ → Fin 2 → ℝ) → List SabrState,
    (∀ n ω, 0 < n → (⟨1 / 5, 1 / 2, -1 / 2, 3 / 10⟩ : Sabr).simulate 1 ω 1 4 n = .ok (r n ω))
    ∧ (∀ᵐ ω ∂Measure.infinitePi fun _ : ℕ => stdNormal 2,
      Tendsto (fun n => average SabrState.vol (r n ω)) atTop (𝓝 (1 / 5)))
    ∧ ∃ m, 1 < m ∧ ∀ᵐ ω ∂Measure.infinitePi fun _ : ℕ => stdNormal 2,
      Tendsto (fun n => average SabrState.forward (r n ω)) atTop (𝓝 m) := by
  set s : Sabr := ⟨1 / 5, 1 / 2, -1 / 2, 3 / 10⟩ with hs
  have h : (flatSabr s 1 1).Admissible := ⟨rfl, rfl, by norm_num [flatSabr, hs],
    by norm_num [flatSabr, hs], by norm_num [flatSabr], by norm_num [flatSabr, hs],
    by norm_num [flatSabr, hs], by norm_num [flatSabr, hs]⟩
  have hH : (flatSabr s 1 1).horizon = 1 := rfl
  have hex : ∀ n (ω : ℕ → Fin 2 → ℝ), ∃ l, 0 < n → s.simulate 1 ω 1 4 n = .ok l := by
    intro n ω
    by_cases hn : 0 < n
    · obtain ⟨l, h1⟩ := (C70_range h (by norm_num [hH]) (by simp [flatSabr]) ω 1 4 n).1.2
        ⟨by norm_num, hn, by norm_num, by rw [hH]; norm_num⟩
      rw [C70_flat h (by rw [hH]; norm_num) (a := s.alpha) (r := s.rho) (v := s.nu) (by simp [flatSabr])
        (by simp [flatSabr]) (by simp [flatSabr]) (by simp [flatSabr]) (by simp [flatSabr])
        (by simp [flatSabr]) _ hH.ge] at h1
      exact ⟨l, fun _ => h1⟩
    · exact ⟨[], fun h => absurd h hn⟩
  choose r hr using hex
  refine ⟨r, hr, ?_⟩
  exact (C88_sabr (s := s) (by norm_num [hs]) (by norm_num [hs]) (by norm_num [hs]) (by norm_num [hs])
    (by norm_num [hs]) (by norm_num [hs]) one_pos (exists_vectorDraws 2) hr).2

/-- Four-step paths of the model of `exFxSkew`. -/
example : ∃ (s : FxFmmSim) (r : ℕ → (ℕ → Fin s.size → ℝ) → List FxFmmState),
    FxFmmSim.new exFxSkew = .ok s ∧ (∀ n ω, 0 < n → s.simulateTerminal ω 2 4 n = .ok (r n ω))
    ∧ IidSample (Measure.infinitePi fun _ : ℕ => stdNormal s.size) (fxFmmObs 2) r := by
  obtain ⟨s, h⟩ := exFxSkew_new
  have hex : ∀ n (ω : ℕ → Fin s.size → ℝ), ∃ l, 0 < n → s.simulateTerminal ω 2 4 n = .ok l := by
    intro n ω
    by_cases hn : 0 < n
    · obtain ⟨-, l, -, h1, -⟩ := (C68_simulate h exFxSkew_ordered ω 2 4 n).1 (by norm_num)
        (by norm_num) hn
      exact ⟨l, fun _ => h1⟩
    · exact ⟨[], fun h => absurd h hn⟩
  choose r hr using hex
  exact ⟨s, r, h, hr, C88_fx_fmm h exFxSkew_ordered (exists_vectorDraws _) hr⟩

end Verif
