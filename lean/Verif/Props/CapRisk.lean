import Verif.Lemmas.CapRisk

/-!
# C76: the risk figures of caps and floors
-/

namespace Verif

open Outcome Classical

variable {c : CapFloor} {cv : Curve} {vs : List CapletPillar} {r v x : ℝ}

/-- C76: a deal that can be valued under one pair of shifts can be valued under all. -/
theorem C76_defined (h : c.pv cv vs r v = .ok x) (r' v' : ℝ) : ∃ y, c.pv cv vs r' v' = .ok y := by
  obtain ⟨l, -, -, hl⟩ := pv_data h
  exact ⟨_, hl r' v'⟩

/-- C76: shifting the volatilities is revaluing on the raised surface. -/
theorem C76_vol_shift : c.pv cv vs r v = c.pv cv (raiseVols vs v) r 0 := by
  have hm : ∀ p, c.market p cv vs r v = c.market p cv (raiseVols vs v) r 0 := by
    intro p
    unfold CapFloor.market
    rw [capletVolatility_raise]
    simp only [zero_mul, add_zero]
    congr 1; funext tau
    congr 1; funext ds
    congr 1; funext de
    congr 1; funext dp
    cases capletVolatility vs p.start c.strike <;> rfl
  have key : ∀ ps acc, c.addCaplets cv vs r v ps acc
      = c.addCaplets cv (raiseVols vs v) r 0 ps acc := ?_
  · exact key _ _
  intro ps acc
  induction ps generalizing acc with
  | nil => rfl
  | cons p ps ih =>
    rw [CapFloor.addCaplets, CapFloor.addCaplets, hm]
    simp only [ih]

/-- The value of the closed form on positive volatilities. -/
theorem analyticVega_data {l : List (SchedPeriod × CapletData)} (h1 : l.map Prod.fst = c.schedule)
    (hl : ∀ e ∈ l, e.2.Of c cv vs e.1) (hs : ∀ e ∈ l, 0 < e.2.sigma) :
    c.analyticVega cv vs = .ok (l.map fun e => e.2.vega c cv e.1 e.2.sigma).sum := by
  unfold CapFloor.analyticVega
  rw [← h1, addVegas_data hl hs, zero_add]

theorem sigma_pos {l : List (SchedPeriod × CapletData)} (h1 : l.map Prod.fst = c.schedule)
    (hl : ∀ e ∈ l, e.2.Of c cv vs e.1)
    (hs : ∀ p ∈ c.schedule, ∀ s, capletVolatility vs p.start c.strike = .ok s → 0 < s) :
    ∀ e ∈ l, 0 < e.2.sigma := by
  intro e he
  refine hs e.1 ?_ _ (hl e he).2.2.2.2
  rw [← h1]
  exact List.mem_map_of_mem he

/-- C76: the closed-form vega is the derivative of the value with respect to a parallel shift of
the volatilities, in basis points. -/
theorem C76_analytic (hx : c.pv cv vs 0 0 = .ok x)
    (hs : ∀ p ∈ c.schedule, ∀ s, capletVolatility vs p.start c.strike = .ok s → 0 < s) :
    ∃ a f, c.analyticVega cv vs = .ok a ∧ (∀ v, c.pv cv vs 0 v = .ok (f v)) ∧ HasDerivAt f a 0 := by
  obtain ⟨l, h1, hl, hp⟩ := pv_data hx
  have hs' := sigma_pos h1 hl hs
  refine ⟨_, _, analyticVega_data h1 hl hs', fun v => hp 0 v, ?_⟩
  refine hasDerivAt_list_sum (f := fun (e : SchedPeriod × CapletData) v => e.2.value c cv e.1 0 v) fun e he => ?_
  simp only [value_eq_vol]
  have a : HasDerivAt (fun v : ℝ => e.2.sigma + v * (1 / 10000)) (1 * (1 / 10000)) 0 :=
    ((hasDerivAt_id (0 : ℝ)).mul_const _).const_add _
  have hd := hasDerivAt_volValue c.kind (F := (e.2.market c cv e.1 0 0).forward) (K := c.strike)
    (varTime_nonneg c e.1) (sigma := e.2.sigma + 0 * (1 / 10000)) (by simpa using hs' e he)
  refine ((hd.comp 0 a).const_mul _).congr_deriv ?_
  unfold CapletData.vega
  simp only [zero_mul, add_zero]
  ring

/-- C76: for a long deal the bump vega lies between the bump times the closed form before and
after the bump; in particular it is never below the closed form. -/
theorem C76_bracket {d b : ℝ} (hb : c.direction = .buy) (hN : 0 ≤ c.notional) (hd : 0 ≤ d)
    (hv : c.vega cv (some vs) d = .ok b)
    (hy : ∀ p ∈ c.schedule, ∀ t, c.yearFraction p.start p.fin = .ok t → 0 ≤ t)
    (hs : ∀ p ∈ c.schedule, ∀ s, capletVolatility vs p.start c.strike = .ok s → 0 < s) :
    ∃ a a', c.analyticVega cv vs = .ok a ∧ c.analyticVega cv (raiseVols vs d) = .ok a' ∧
      d * a ≤ b ∧ b ≤ d * a' := by
  unfold CapFloor.vega at hv
  rw [unpack_some, ok_bind] at hv
  obtain ⟨x, hx, hv⟩ := bind_eq_ok.1 hv
  obtain ⟨y, hy', hv⟩ := bind_eq_ok.1 hv
  obtain rfl := ok.inj hv
  obtain ⟨l, h1, hl, hp⟩ := pv_data hx
  have hs' := sigma_pos h1 hl hs
  rw [hp] at hx hy'
  obtain rfl := ok.inj hx
  obtain rfl := ok.inj hy'
  -- the data on the raised surface
  let up : SchedPeriod × CapletData → SchedPeriod × CapletData :=
    fun e => (e.1, { e.2 with sigma := e.2.sigma + d * (1 / 10000) })
  have h1' : (l.map up).map Prod.fst = c.schedule := by
    rw [← h1, List.map_map]; rfl
  have hl' : ∀ e ∈ l.map up, e.2.Of c cv (raiseVols vs d) e.1 := by
    intro e he
    obtain ⟨e0, he0, rfl⟩ := List.mem_map.1 he
    obtain ⟨g1, g2, g3, g4, g5⟩ := hl e0 he0
    refine ⟨g1, g2, g3, g4, ?_⟩
    rw [capletVolatility_raise, g5]
    rfl
  have hs'' : ∀ e ∈ l.map up, 0 < e.2.sigma := by
    intro e he
    obtain ⟨e0, he0, rfl⟩ := List.mem_map.1 he
    have := hs' e0 he0
    simp only [up]
    positivity
  refine ⟨_, _, analyticVega_data h1 hl hs', analyticVega_data h1' hl' hs'', ?_⟩
  have hw : ∀ e ∈ l, 0 ≤ c.direction.sign * c.notional * e.2.tau * (e.2.market c cv e.1 0 0).dfPay := by
    intro e he
    have hmem : e.1 ∈ c.schedule := by rw [← h1]; exact List.mem_map_of_mem he
    have t := hy e.1 hmem _ (hl e he).1
    have p := C36_discount_pos (hl e he).2.2.2.1
    rw [hb]
    simp only [Direction.sign, one_mul, CapletData.market]
    positivity
  have hbr : ∀ e ∈ l, d * e.2.vega c cv e.1 e.2.sigma
        ≤ e.2.value c cv e.1 0 d - e.2.value c cv e.1 0 0 ∧
      e.2.value c cv e.1 0 d - e.2.value c cv e.1 0 0
        ≤ d * (up e).2.vega c cv (up e).1 (up e).2.sigma := by
    intro e he
    have w := hw e he
    have := volValue_bracket c.kind (F := (e.2.market c cv e.1 0 0).forward) (K := c.strike)
      (varTime_nonneg c e.1) (hs' e he) (d := d * (1 / 10000)) (by positivity)
    have hm : (up e).2.vega c cv (up e).1 (up e).2.sigma
        = e.2.vega c cv e.1 (e.2.sigma + d * (1 / 10000)) := rfl
    rw [hm, value_eq_vol, value_eq_vol, zero_mul, add_zero]
    unfold CapletData.vega
    obtain ⟨k1, k2⟩ := this
    constructor
    · have := mul_le_mul_of_nonneg_left k1 w
      linarith
    · have := mul_le_mul_of_nonneg_left k2 w
      linarith
  rw [sum_map_sub', ← List.sum_map_mul_left, ← List.sum_map_mul_left, List.map_map]
  constructor
  · exact List.sum_le_sum fun e he => (hbr e he).1
  · exact List.sum_le_sum fun e he => (hbr e he).2

/-- C76: a cap and the floor with the same terms have the same vega. -/
theorem C76_vega_parity {d : ℝ} :
    (c.withKind .cap).vega cv (some vs) d = .ok x ↔ (c.withKind .floor).vega cv (some vs) d = .ok x := by
  have key : ∀ k k', (c.withKind k).vega cv (some vs) d = .ok x →
      (c.withKind k').vega cv (some vs) d = .ok x := by
    intro k k' h
    unfold CapFloor.vega at h
    rw [unpack_some, ok_bind] at h
    obtain ⟨a, ha, h⟩ := bind_eq_ok.1 h
    obtain ⟨b, hb, h⟩ := bind_eq_ok.1 h
    obtain rfl := ok.inj h
    obtain ⟨ms, g, rfl⟩ := pv_ok.1 ha
    obtain ⟨ms', g', rfl⟩ := pv_ok.1 hb
    have e1 : (c.withKind k').pv cv vs 0 0 = .ok _ := pv_ok.2 ⟨ms, g, rfl⟩
    have e2 : (c.withKind k').pv cv vs 0 d = .ok _ := pv_ok.2 ⟨ms', g', rfl⟩
    unfold CapFloor.vega
    rw [unpack_some, ok_bind, e1, ok_bind, e2, ok_bind]
    refine congrArg Outcome.ok ?_
    have hsame : (ms.map fun m => (m.tau, m.dfPay, m.forward))
        = ms'.map fun m => (m.tau, m.dfPay, m.forward) := by
      clear * - g g'
      generalize (c.withKind k).schedule = ps at g g'
      induction g generalizing ms' with
      | nil => cases g'; rfl
      | cons hm _ ih =>
        cases g' with
        | cons hm' ht =>
          obtain ⟨t, ds, de, dp, s, i1, i2, i3, i4, -, rfl⟩ := market_ok.1 hm
          obtain ⟨t', ds', de', dp', s', j1, j2, j3, j4, -, rfl⟩ := market_ok.1 hm'
          rw [i1] at j1
          rw [i2] at j2
          rw [i3] at j3
          rw [i4] at j4
          obtain rfl := ok.inj j1
          obtain rfl := ok.inj j2
          obtain rfl := ok.inj j3
          obtain rfl := ok.inj j4
          rw [List.map_cons, List.map_cons, ih _ ht]
    have hdiff : ∀ ms : List CapletMarket,
        (ms.map fun m => (c.withKind k').direction.sign * (c.withKind k').notional * m.tau * m.dfPay *
          optionValue (c.withKind k').kind (c.withKind k').strike m).sum -
        (ms.map fun m => (c.withKind k).direction.sign * (c.withKind k).notional * m.tau * m.dfPay *
          optionValue (c.withKind k).kind (c.withKind k).strike m).sum =
        ((ms.map fun m => (m.tau, m.dfPay, m.forward)).map fun t => c.direction.sign * c.notional *
          t.1 * t.2.1 * (match k', k with
            | .cap, .floor => t.2.2 - c.strike
            | .floor, .cap => c.strike - t.2.2
            | _, _ => 0)).sum := by
      intro ms
      rw [sum_map_sub', List.map_map]
      congr 1
      refine List.map_congr_left fun m _ => ?_
      have hp := C46_parity (F := m.forward) (K := c.strike) (V := m.variance)
      simp only [CapFloor.withKind, Function.comp_apply]
      rw [← mul_sub]
      congr 1
      cases k' <;> cases k <;> simp only [optionValue] <;> linarith
    have d1 := hdiff ms
    have d2 := hdiff ms'
    rw [hsame] at d1
    linarith
  exact ⟨key _ _, key _ _⟩

/-- C76: a long floor never gains when rates rise: its DV01 is not positive, whatever the curve
and the surface, as long as nothing is paid in the past. -/
theorem C76_floor_dv01 (hk : c.kind = .floor) (hb : c.direction = .buy) (hN : 0 ≤ c.notional)
    (h : c.dv01 cv (some vs) = .ok x)
    (hp : ∀ p ∈ c.schedule, p.start ≤ p.fin ∧ cv.valuation ≤ p.pay ∧
      ∀ t, c.yearFraction p.start p.fin = .ok t → 0 < t) : x ≤ 0 := by
  unfold CapFloor.dv01 at h
  rw [unpack_some, ok_bind] at h
  obtain ⟨a, ha, h⟩ := bind_eq_ok.1 h
  obtain ⟨b, hb', h⟩ := bind_eq_ok.1 h
  obtain rfl := ok.inj h
  obtain ⟨l, h1, hl, hpv⟩ := pv_data ha
  rw [hpv] at ha hb'
  obtain rfl := ok.inj ha
  obtain rfl := ok.inj hb'
  rw [sub_nonpos]
  refine List.sum_le_sum fun e he => ?_
  have hmem : e.1 ∈ c.schedule := by rw [← h1]; exact List.mem_map_of_mem he
  obtain ⟨p1, p2, p3⟩ := hp e.1 hmem
  obtain ⟨g1, g2, g3, g4, g5⟩ := hl e he
  have ht := p3 _ g1
  have q1 := C36_discount_pos g2
  have q2 := C36_discount_pos g3
  have q3 := C36_discount_pos g4
  have yle : yf365 cv.valuation e.1.start ≤ yf365 cv.valuation e.1.fin := by
    unfold yf365
    have : ((e.1.start - cv.valuation : Int) : ℝ) ≤ ((e.1.fin - cv.valuation : Int) : ℝ) := by
      exact_mod_cast (by omega)
    gcongr
  have ypay : 0 ≤ yf365 cv.valuation e.1.pay := by
    unfold yf365
    have : (0 : ℝ) ≤ ((e.1.pay - cv.valuation : Int) : ℝ) := by exact_mod_cast (by omega)
    positivity
  have hF : e.2.fwd cv e.1 0 ≤ e.2.fwd cv e.1 1 := by
    rw [fwd_eq, fwd_eq]
    have : Real.exp (0 * (1 / 10000) * (yf365 cv.valuation e.1.fin - yf365 cv.valuation e.1.start))
        ≤ Real.exp (1 * (1 / 10000) * (yf365 cv.valuation e.1.fin - yf365 cv.valuation e.1.start)) := by
      apply Real.exp_le_exp.2
      nlinarith
    gcongr
  rw [value_eq_rate, value_eq_rate, hk, hb]
  unfold forwardValue
  simp only [Direction.sign, one_mul]
  have o1 := bachelierPut_antitone (K := c.strike) (V := (e.2.market c cv e.1 0 0).variance) hF
  have o0 := (le_max_right _ _).trans (C46_intrinsic (F := e.2.fwd cv e.1 1) (K := c.strike)
    (V := (e.2.market c cv e.1 0 0).variance)).2
  have hx : Real.exp (-1 * (1 / 10000) * yf365 cv.valuation e.1.pay)
      ≤ Real.exp (-0 * (1 / 10000) * yf365 cv.valuation e.1.pay) := by
    apply Real.exp_le_exp.2
    nlinarith
  gcongr

/-- C76: the derivative of the value with respect to a parallel rate shift, in basis points, is
the sum of the sensitivities of the periods. -/
theorem C76_rate_delta {tau : SchedPeriod → ℝ} {D : Int → ℝ} {V : SchedPeriod → ℝ}
    (hy : ∀ p ∈ c.schedule, c.yearFraction p.start p.fin = .ok (tau p) ∧ tau p ≠ 0)
    (hD : ∀ p ∈ c.schedule, cv.discount p.start = .ok (D p.start) ∧
      cv.discount p.fin = .ok (D p.fin) ∧ cv.discount p.pay = .ok (D p.pay))
    (hV : ∀ p ∈ c.schedule, ∃ s, capletVolatility vs p.start c.strike = .ok s ∧
      V p = capletTotalVariance c.style s (yf365 c.valuation p.start) (yf365 c.valuation p.fin) ∧
      0 < V p) :
    ∃ f, (∀ r, c.pv cv vs r 0 = .ok (f r)) ∧ HasDerivAt f (c.direction.sign * c.notional *
      (c.schedule.map fun p => periodDelta c.kind cv.valuation D (tau p) c.strike (V p) p).sum) 0 := by
  have hex : ∃ x, c.pv cv vs 0 0 = .ok x := by
    have key : ∀ ps, (∀ p ∈ ps, p ∈ c.schedule) →
        ∃ ms, List.Forall₂ (fun p m => c.market p cv vs 0 0 = .ok m) ps ms := by
      intro ps
      induction ps with
      | nil => exact fun _ => ⟨[], List.Forall₂.nil⟩
      | cons p ps ih =>
        intro h
        obtain ⟨ms, hms⟩ := ih fun q hq => h q (List.mem_cons_of_mem _ hq)
        have hp := h p (by simp)
        obtain ⟨s, hs, -⟩ := hV p hp
        exact ⟨_, List.Forall₂.cons (market_of_data (q := ⟨tau p, D p.start, D p.fin, D p.pay, s⟩)
          ⟨(hy p hp).1, (hD p hp).1, (hD p hp).2.1, (hD p hp).2.2, hs⟩ 0 0) hms⟩
    obtain ⟨ms, hms⟩ := key c.schedule fun _ h => h
    exact ⟨_, pv_ok.2 ⟨ms, hms, rfl⟩⟩
  obtain ⟨x, hx⟩ := hex
  obtain ⟨l, h1, hl, hp⟩ := pv_data hx
  refine ⟨_, fun r => hp r 0, ?_⟩
  have hsum : c.direction.sign * c.notional * (c.schedule.map fun p =>
      periodDelta c.kind cv.valuation D (tau p) c.strike (V p) p).sum
      = (l.map fun e => c.direction.sign * c.notional *
          periodDelta c.kind cv.valuation D (tau e.1) c.strike (V e.1) e.1).sum := by
    rw [← h1, List.map_map, ← List.sum_map_mul_left]; rfl
  rw [hsum]
  refine hasDerivAt_list_sum (f := fun (e : SchedPeriod × CapletData) r => e.2.value c cv e.1 r 0) fun e he => ?_
  have hmem : e.1 ∈ c.schedule := by rw [← h1]; exact List.mem_map_of_mem he
  obtain ⟨g1, g2, g3, g4, g5⟩ := hl e he
  obtain ⟨d1, d2, d3⟩ := hD e.1 hmem
  obtain ⟨t1, t2⟩ := hy e.1 hmem
  obtain ⟨s, s1, s2, s3⟩ := hV e.1 hmem
  rw [d1] at g2
  rw [d2] at g3
  rw [d3] at g4
  rw [t1] at g1
  rw [s1] at g5
  have i1 := ok.inj g1
  have i5 := ok.inj g5
  have hvar : (e.2.market c cv e.1 0 0).variance = V e.1 := by
    rw [s2]
    simp only [CapletData.market]
    rw [← i5]
    norm_num
  have := hasDerivAt_value (q := e.2) (c := c) (cv := cv) (p := e.1) (v := 0) (D := D)
    (by rw [← ok.inj g3]; exact (C36_discount_pos d2).ne') (by rw [← i1]; exact t2)
    (ok.inj g2).symm (ok.inj g3).symm (ok.inj g4).symm (by rw [hvar]; exact s3)
  rw [hvar, ← i1] at this
  exact this

/-- C76: gamma scales with the square of the bump: divided by it, it tends to the second
derivative of the value in the rate shift. -/
theorem C76_gamma (hx : c.pv cv vs 0 0 = .ok x)
    (hV : ∀ p ∈ c.schedule, ∀ s, capletVolatility vs p.start c.strike = .ok s →
      0 < capletTotalVariance c.style s (yf365 c.valuation p.start) (yf365 c.valuation p.fin)) :
    ∃ f g : ℝ → ℝ, (∀ r, c.pv cv vs r 0 = .ok (f r)) ∧ ContDiff ℝ 2 f ∧
      (∀ d, c.gamma cv (some vs) d .zeros = .ok (g d)) ∧
      Filter.Tendsto (fun d => g d / d ^ 2) (nhdsWithin 0 {0}ᶜ) (nhds (deriv (deriv f) 0)) := by
  obtain ⟨l, h1, hl, hp⟩ := pv_data hx
  have hc : ContDiff ℝ 2 fun r => (l.map fun e => e.2.value c cv e.1 r 0).sum := by
    refine contDiff_list_sum (f := fun (e : SchedPeriod × CapletData) r => e.2.value c cv e.1 r 0) fun e he => contDiff_value ?_
    have hmem : e.1 ∈ c.schedule := by rw [← h1]; exact List.mem_map_of_mem he
    have := hV e.1 hmem _ (hl e he).2.2.2.2
    simpa [CapletData.market] using this
  refine ⟨_, fun d => (l.map fun e => e.2.value c cv e.1 d 0).sum
    + (l.map fun e => e.2.value c cv e.1 (-d) 0).sum
    - 2 * (l.map fun e => e.2.value c cv e.1 0 0).sum, fun r => hp r 0, hc, fun d => ?_,
    second_difference hc⟩
  unfold CapFloor.gamma
  simp only [unpack_some, ok_bind, hp]

/-- A flat curve: one pillar at ten per cent. -/
noncomputable def highCurve : Curve := ⟨0, [pillarAt 365 (1 / 10) false]⟩

theorem highCurve_discount {d : Int} (hd : Valid (d + 1)) :
    highCurve.discount d = .ok (Real.exp (-(1 / 10) * (d / 365))) := by
  have hz : highCurve.zeroRate d = .ok (1 / 10) := by
    rw [show (1 / 10 : ℝ) = (trueFirst (pillarAt 365 (1 / 10) false)
      [pillarAt 365 (1 / 10) false]).zeroRate by simp [trueFirst, pillarAt]]
    refine zeroRate_of_eq (cv := highCurve) (p0 := pillarAt 365 (1 / 10) false) rfl hd
      (Prod.mk.eta (p := scanPillars (d + 1) (pillarAt 365 (1 / 10) false)
        [pillarAt 365 (1 / 10) false])).symm ?_
    simp only [scanPillars]
    by_cases h : d + 1 ≤ (pillarAt 365 (1 / 10) false).date ∧ (pillarAt 365 (1 / 10) false).hidden = false
    · rw [if_pos h]; simp [trueFirst, pillarAt]
    · rw [if_neg h]; simp [trueFirst, pillarAt]
  unfold Curve.discount
  rw [hz, ok_bind]
  simp [yf365, highCurve]

/-- A long one-year caplet starting in thirty years, struck at one per cent. -/
noncomputable def longDatedCap : CapFloor where
  direction := .buy
  kind := .cap
  style := .forwardLooking
  currency := .usd
  notional := 1
  strike := 1 / 100
  valuation := 0
  schedule := [⟨10950, 11315, 11315, 10950, 0, 1⟩]
  yearFraction := fun a b => .ok (yf365 a b)

theorem bachelierCall_upper {F K V : ℝ} (hF : K < F) (hV : 0 < V) :
    bachelierCall F K V ≤ F - K + √V * V / (F - K) ^ 2 := by
  have hs := Real.sqrt_pos.2 hV
  have hd : 0 < F - K := by linarith
  rw [bachelierCall_eq hV]
  have h1 : bachCore ((F - K) / √V) = (F - K) / √V + bachCore (-((F - K) / √V)) := by
    rw [bachCore_neg]; ring
  have h2 : bachCore (-((F - K) / √V)) ≤ normPdf ((F - K) / √V) := by
    unfold bachCore
    rw [normPdf_neg]
    have := normCdf_nonneg (-((F - K) / √V))
    have : 0 < (F - K) / √V := by positivity
    nlinarith
  have h3 : normPdf ((F - K) / √V) ≤ V / (F - K) ^ 2 := by
    rw [normPdf_eq]
    have hpi : (2 : ℝ) ≤ √(2 * Real.pi) := by
      rw [Real.le_sqrt (by norm_num) (by positivity)]
      have := Real.two_le_pi
      linarith
    have hsq : ((F - K) / √V) ^ 2 = (F - K) ^ 2 / V := by rw [div_pow, Real.sq_sqrt hV.le]
    have he : Real.exp (-(1 / 2) * ((F - K) / √V) ^ 2) ≤ 2 * V / (F - K) ^ 2 := by
      rw [hsq, show -(1 / 2) * ((F - K) ^ 2 / V) = -((F - K) ^ 2 / (2 * V)) by ring, Real.exp_neg]
      have := Real.add_one_le_exp ((F - K) ^ 2 / (2 * V))
      have hp : 0 < (F - K) ^ 2 / (2 * V) := by positivity
      calc (Real.exp ((F - K) ^ 2 / (2 * V)))⁻¹ ≤ ((F - K) ^ 2 / (2 * V))⁻¹ := by
            apply inv_anti₀ hp; linarith
        _ = 2 * V / (F - K) ^ 2 := by rw [inv_div]
    calc _ ≤ 2 * V / (F - K) ^ 2 / √(2 * Real.pi) := by gcongr
      _ ≤ 2 * V / (F - K) ^ 2 / 2 := by gcongr
      _ = V / (F - K) ^ 2 := by ring
  calc √V * bachCore ((F - K) / √V) ≤ √V * ((F - K) / √V + V / (F - K) ^ 2) := by
        rw [h1]; gcongr; linarith
    _ = F - K + √V * V / (F - K) ^ 2 := by field_simp

/-- The number behind the witness: `x = exp(-3)`, `y = exp(-1/10)`, `u` and `w` the discounting of
one basis point over thirty years and over one. -/
theorem longDated_bound {y u w q : ℝ} (hy0 : 0 < y) (hy : y ≤ 10 / 11) (hu0 : 0 < u)
    (hu : u ≤ 1000 / 1003) (hw : 9999 / 10000 ≤ w) (hw1 : w ≤ 1) (hq0 : 0 ≤ q)
    (hq : q ≤ 1 / 40000) :
    u * (1 - y * w * (1 + 1 / 100)) + u * (y * w * q) < 1 - y * (1 + 1 / 100) := by
  have h1 : y * w ≥ y * (9999 / 10000) := by gcongr
  have h2 : y * w * q ≤ 1 / 40000 := by
    calc y * w * q ≤ 1 * 1 * (1 / 40000) := by gcongr; linarith
      _ = _ := by norm_num
  have h3 : 1 - y * w * (1 + 1 / 100) + y * w * q ≤ 1 - y * (9999 / 10000) * (101 / 100) + 1 / 40000 := by
    linarith
  have h4 : 0 ≤ 1 - y * (9999 / 10000) * (101 / 100) + 1 / 40000 := by linarith
  have h5 : u * (1 - y * w * (1 + 1 / 100) + y * w * q)
      ≤ 1000 / 1003 * (1 - y * (9999 / 10000) * (101 / 100) + 1 / 40000) :=
    (mul_le_mul_of_nonneg_left h3 hu0.le).trans (mul_le_mul_of_nonneg_right hu h4)
  linarith

/-- C76: the remark on `dv01` that a long cap gains when rates rise is false: on a flat curve at
ten per cent, with a volatility of ten basis points, a caplet far in the money and far away loses
more from the discounting than it gains from the forward. -/
theorem C76_cap_dv01_false : ∃ (c : CapFloor) (cv : Curve) (vs : List CapletPillar) (x : ℝ),
    c.kind = .cap ∧ c.direction = .buy ∧ 0 < c.notional ∧
    (∀ p ∈ c.schedule, c.valuation < p.start ∧ p.start < p.fin ∧ p.pay = p.fin ∧
      c.yearFraction p.start p.fin = .ok 1) ∧
    (∀ d k, capletVolatility vs d k = .ok (1 / 1000)) ∧
    c.dv01 cv (some vs) = .ok x ∧ x < 0 := by
  have hex : ∃ a, longDatedCap.pv highCurve (flatSurface (1 / 1000)) 0 0 = .ok a := by
    refine ⟨_, pv_ok.2 ⟨_, List.Forall₂.cons (market_of_data (q := ⟨yf365 10950 11315, _, _, _, _⟩)
      ⟨rfl, highCurve_discount (d := 10950) (by decide), highCurve_discount (d := 11315) (by decide),
        highCurve_discount (d := 11315) (by decide), flatSurface_vol _ _ _⟩ 0 0) List.Forall₂.nil, rfl⟩⟩
  obtain ⟨a, ha⟩ := hex
  obtain ⟨l, h1, hl, hp⟩ := pv_data ha
  obtain ⟨e, rfl⟩ : ∃ e, l = [e] := by
    have := congrArg List.length h1
    simp only [List.length_map, longDatedCap, List.length_cons, List.length_nil] at this
    exact List.length_eq_one_iff.1 this
  have he : e.1 = ⟨10950, 11315, 11315, 10950, 0, 1⟩ := by
    have := h1
    simp only [List.map_cons, List.map_nil, longDatedCap, List.cons.injEq] at this
    exact this.1
  obtain ⟨g1, g2, g3, g4, g5⟩ := hl e (by simp)
  have hd : longDatedCap.dv01 highCurve (some (flatSurface (1 / 1000)))
      = .ok (e.2.value longDatedCap highCurve e.1 1 0 - e.2.value longDatedCap highCurve e.1 0 0) := by
    unfold CapFloor.dv01
    simp only [unpack_some, ok_bind, hp, List.map_cons, List.map_nil, List.sum_cons, List.sum_nil,
      add_zero]
  refine ⟨longDatedCap, highCurve, flatSurface (1 / 1000), _, rfl, rfl, by norm_num [longDatedCap], ?_,
    fun d k => flatSurface_vol _ d k, hd, ?_⟩
  · simp only [longDatedCap, List.mem_cons, List.not_mem_nil, or_false, forall_eq]
    norm_num [yf365]
  rw [he] at g1 g2 g3 g4 g5 ⊢
  rw [highCurve_discount (by decide)] at g2 g3 g4
  rw [flatSurface_vol] at g5
  have t1 : e.2.tau = 1 := by rw [← ok.inj g1]; norm_num [yf365]
  have t2 : e.2.ds = Real.exp (-3) := by rw [← ok.inj g2]; norm_num
  have t3 : e.2.de = Real.exp (-3) * Real.exp (-(1 / 10)) := by
    rw [← ok.inj g3, ← Real.exp_add]; norm_num
  have t4 : e.2.dp = Real.exp (-3) * Real.exp (-(1 / 10)) := by
    rw [← ok.inj g4, ← Real.exp_add]; norm_num
  have t5 : e.2.sigma = 1 / 1000 := (ok.inj g5).symm
  have hV : (e.2.market longDatedCap highCurve ⟨10950, 11315, 11315, 10950, 0, 1⟩ 0 0).variance
      = 3 / 100000 := by
    simp only [CapletData.market, capletTotalVariance, longDatedCap, t5, yf365]
    norm_num
  rw [value_eq_rate, value_eq_rate, hV, fwd_eq, fwd_eq, t1, t2, t3, t4]
  simp only [forwardValue, longDatedCap, Direction.sign, highCurve, yf365]
  set E := Real.exp (-3) with hE
  set y := Real.exp (-(1 / 10)) with hy
  have hE0 : 0 < E := Real.exp_pos _
  have hy0 : 0 < y := Real.exp_pos _
  have hy1 : y ≤ 10 / 11 := by
    have := Real.add_one_le_exp (1 / 10 : ℝ)
    rw [hy, Real.exp_neg]
    calc (Real.exp (1 / 10))⁻¹ ≤ (1 / 10 + 1 : ℝ)⁻¹ := inv_anti₀ (by norm_num) this
      _ = 10 / 11 := by norm_num
  have hx1 : Real.exp (-1 * (1 / 10000) * (((11315 - 0 : Int) : ℝ) / 365))
      = Real.exp (-(3 / 1000)) * Real.exp (-(1 / 10000)) := by
    rw [← Real.exp_add]; norm_num
  have hx0 : Real.exp (-0 * (1 / 10000) * (((11315 - 0 : Int) : ℝ) / 365)) = 1 := by
    rw [neg_zero, zero_mul, zero_mul, Real.exp_zero]
  have hf1 : Real.exp (1 * (1 / 10000) * (((11315 - 0 : Int) : ℝ) / 365 - ((10950 - 0 : Int) : ℝ) / 365))
      = (Real.exp (-(1 / 10000)))⁻¹ := by
    rw [← Real.exp_neg]; norm_num
  have hf0 : Real.exp (0 * (1 / 10000) * (((11315 - 0 : Int) : ℝ) / 365 - ((10950 - 0 : Int) : ℝ) / 365))
      = 1 := by
    rw [zero_mul, zero_mul, Real.exp_zero]
  rw [hx1, hx0, hf1, hf0]
  set u := Real.exp (-(3 / 1000)) with hu
  set w := Real.exp (-(1 / 10000)) with hw
  have hu0 : 0 < u := Real.exp_pos _
  have hw0 : 0 < w := Real.exp_pos _
  have hu1 : u ≤ 1000 / 1003 := by
    have := Real.add_one_le_exp (3 / 1000 : ℝ)
    rw [hu, Real.exp_neg]
    calc (Real.exp (3 / 1000))⁻¹ ≤ (3 / 1000 + 1 : ℝ)⁻¹ := inv_anti₀ (by norm_num) this
      _ = 1000 / 1003 := by norm_num
  have hw1 : w ≤ 1 := Real.exp_le_one_iff.2 (by norm_num)
  have hw2 : 9999 / 10000 ≤ w := by
    have := Real.add_one_le_exp (-(1 / 10000) : ℝ)
    rw [hw]; linarith
  have hyw : y * w ≤ 10 / 11 := by
    calc y * w ≤ 10 / 11 * 1 := by gcongr
      _ = _ := by norm_num
  have hy2 : 11 / 10 ≤ y⁻¹ := by
    rw [le_inv_comm₀ (by norm_num) hy0]; linarith
  have hyw2 : 11 / 10 ≤ (y * w)⁻¹ := by
    rw [le_inv_comm₀ (by norm_num) (by positivity)]; linarith
  have e1 : (E / (E * y) * w⁻¹ - 1) / 1 = (y * w)⁻¹ - 1 := by field_simp
  have e0 : (E / (E * y) * 1 - 1) / 1 = y⁻¹ - 1 := by field_simp
  rw [e1, e0]
  have b1 := bachelierCall_upper (F := (y * w)⁻¹ - 1) (K := 1 / 100) (V := 3 / 100000) (by linarith)
    (by norm_num)
  have b0 := (le_max_left _ _).trans (C46_intrinsic (F := y⁻¹ - 1) (K := 1 / 100) (V := 3 / 100000)).1
  have hq : √(3 / 100000 : ℝ) * (3 / 100000) / ((y * w)⁻¹ - 1 - 1 / 100) ^ 2 ≤ 1 / 40000 := by
    have hsq : √(3 / 100000 : ℝ) ≤ 6 / 1000 := by
      rw [Real.sqrt_le_left (by norm_num)]; norm_num
    have hden : (9 / 100 : ℝ) ^ 2 ≤ ((y * w)⁻¹ - 1 - 1 / 100) ^ 2 := by
      apply pow_le_pow_left₀ (by norm_num); linarith
    calc _ ≤ 6 / 1000 * (3 / 100000) / (9 / 100 : ℝ) ^ 2 := by gcongr
      _ ≤ 1 / 40000 := by norm_num
  have hq0 : 0 ≤ √(3 / 100000 : ℝ) * (3 / 100000) / ((y * w)⁻¹ - 1 - 1 / 100) ^ 2 := by positivity
  have hb := longDated_bound hy0 hy1 hu0 hu1 hw2 hw1 hq0 hq
  set q := √(3 / 100000 : ℝ) * (3 / 100000) / ((y * w)⁻¹ - 1 - 1 / 100) ^ 2
  have m1 : 1 * 1 * 1 * (E * y * (u * w)) * bachelierCall ((y * w)⁻¹ - 1) (1 / 100) (3 / 100000)
      ≤ 1 * 1 * 1 * (E * y * (u * w)) * ((y * w)⁻¹ - 1 - 1 / 100 + q) := by gcongr
  have m0 : 1 * 1 * 1 * (E * y * 1) * (y⁻¹ - 1 - 1 / 100)
      ≤ 1 * 1 * 1 * (E * y * 1) * bachelierCall (y⁻¹ - 1) (1 / 100) (3 / 100000) := by gcongr
  have r1 : 1 * 1 * 1 * (E * y * (u * w)) * ((y * w)⁻¹ - 1 - 1 / 100 + q)
      = E * (u * (1 - y * w * (1 + 1 / 100)) + u * (y * w * q)) := by
    field_simp; ring
  have r0 : 1 * 1 * 1 * (E * y * 1) * (y⁻¹ - 1 - 1 / 100) = E * (1 - y * (1 + 1 / 100)) := by
    field_simp; ring
  have := mul_lt_mul_of_pos_left hb hE0
  linarith

/-! ### Examples: the two-period cap of C43 on the sample curve, at a volatility of one per cent -/

theorem sampleCap_pv (k : CapKind) (r v : ℝ) :
    ∃ x, (sampleCap.withKind k).pv sampleCurve (flatSurface (1 / 100)) r v = .ok x := by
  obtain ⟨D, hD⟩ := sampleCurve_discounts
  have h0 := (hD 0 (by decide)).1
  have h1 := (hD 20 (by decide)).1
  have h2 := (hD 40 (by decide)).1
  exact ⟨_, pv_ok.2 ⟨_, List.Forall₂.cons (market_of_data (q := ⟨yf365 0 20, _, _, _, _⟩)
    ⟨rfl, h0, h1, h1, flatSurface_vol _ _ _⟩ r v) (List.Forall₂.cons (market_of_data
      (q := ⟨yf365 20 40, _, _, _, _⟩) ⟨rfl, h1, h2, h2, flatSurface_vol _ _ _⟩ r v)
      List.Forall₂.nil), rfl⟩⟩

theorem sampleCap_tau {k : CapKind} : ∀ p ∈ (sampleCap.withKind k).schedule, p.start ≤ p.fin ∧
    sampleCurve.valuation ≤ p.pay ∧
    ∀ t, (sampleCap.withKind k).yearFraction p.start p.fin = .ok t → 0 < t := by
  intro p hp
  simp only [CapFloor.withKind, sampleCap, twoPeriods, List.mem_cons, List.not_mem_nil, or_false] at hp
  rcases hp with rfl | rfl
  · refine ⟨by decide, by simp [sampleCurve], fun t ht => ?_⟩
    rw [← ok.inj ht]; norm_num [yf365]
  · refine ⟨by decide, by simp [sampleCurve], fun t ht => ?_⟩
    rw [← ok.inj ht]; norm_num [yf365]

theorem sampleCap_vol : ∀ p ∈ sampleCap.schedule, ∀ s,
    capletVolatility (flatSurface (1 / 100)) p.start sampleCap.strike = .ok s → 0 < s := by
  intro p _ s hs
  rw [flatSurface_vol] at hs
  rw [← ok.inj hs]; norm_num

theorem sampleCap_variance : ∀ p ∈ sampleCap.schedule,
    0 < capletTotalVariance sampleCap.style (1 / 100) (yf365 sampleCap.valuation p.start)
      (yf365 sampleCap.valuation p.fin) := by
  intro p hp
  simp only [sampleCap, twoPeriods, List.mem_cons, List.not_mem_nil, or_false] at hp
  rcases hp with rfl | rfl <;> norm_num [capletTotalVariance, sampleCap, yf365]

/-- The closed form is the slope of the value in the volatility shift. -/
example : ∃ a f, sampleCap.analyticVega sampleCurve (flatSurface (1 / 100)) = .ok a ∧
    (∀ v, sampleCap.pv sampleCurve (flatSurface (1 / 100)) 0 v = .ok (f v)) ∧ HasDerivAt f a 0 := by
  obtain ⟨x, hx⟩ := sampleCap_pv .cap 0 0
  exact C76_analytic (c := sampleCap) hx sampleCap_vol

/-- The bump of one basis point. -/
example : ∃ a a' b, sampleCap.analyticVega sampleCurve (flatSurface (1 / 100)) = .ok a ∧
    sampleCap.analyticVega sampleCurve (raiseVols (flatSurface (1 / 100)) 1) = .ok a' ∧
    sampleCap.vega sampleCurve (some (flatSurface (1 / 100))) 1 = .ok b ∧ a ≤ b ∧ b ≤ a' := by
  obtain ⟨x, hx⟩ := sampleCap_pv .cap 0 0
  obtain ⟨y, hy⟩ := sampleCap_pv .cap 0 1
  have hv : sampleCap.vega sampleCurve (some (flatSurface (1 / 100))) 1 = .ok (y - x) := by
    change sampleCap.pv _ _ _ _ = _ at hx hy
    unfold CapFloor.vega
    rw [unpack_some, ok_bind, hx, ok_bind, hy, ok_bind]
  obtain ⟨a, a', h1, h2, h3, h4⟩ := C76_bracket (c := sampleCap) rfl (by norm_num [sampleCap])
    (by norm_num) hv (fun p hp t ht => ((sampleCap_tau (k := .cap) p hp).2.2 t ht).le) sampleCap_vol
  exact ⟨a, a', _, h1, h2, hv, by linarith, by linarith⟩

/-- The floor on the same terms loses when rates rise. -/
example : ∃ x, (sampleCap.withKind .floor).dv01 sampleCurve (some (flatSurface (1 / 100))) = .ok x ∧
    x ≤ 0 := by
  obtain ⟨a, ha⟩ := sampleCap_pv .floor 0 0
  obtain ⟨b, hb⟩ := sampleCap_pv .floor 1 0
  have hv : (sampleCap.withKind .floor).dv01 sampleCurve (some (flatSurface (1 / 100))) = .ok (b - a) := by
    unfold CapFloor.dv01
    rw [unpack_some, ok_bind, ha, ok_bind, hb, ok_bind]
  exact ⟨_, hv, C76_floor_dv01 rfl rfl (by norm_num [sampleCap, CapFloor.withKind]) hv sampleCap_tau⟩

/-- The hypotheses of C76_rate_delta and C76_gamma. -/
example : ∃ D : Int → ℝ, ∃ f, (∀ r, sampleCap.pv sampleCurve (flatSurface (1 / 100)) r 0 = .ok (f r)) ∧
    HasDerivAt f (1 * 1000 * (sampleCap.schedule.map fun p => periodDelta .cap 0 D
      (yf365 p.start p.fin) (2 / 100) (capletTotalVariance .backwardCompounded (1 / 100)
        (yf365 0 p.start) (yf365 0 p.fin)) p).sum) 0 := by
  obtain ⟨D, hD⟩ := sampleCurve_discounts
  refine ⟨D, ?_⟩
  refine C76_rate_delta (c := sampleCap) (cv := sampleCurve) (tau := fun p => yf365 p.start p.fin)
    (V := fun p => capletTotalVariance .backwardCompounded (1 / 100) (yf365 0 p.start) (yf365 0 p.fin))
    (fun p hp => ⟨rfl, ?_⟩) (fun p hp => ?_)
    fun p hp => ⟨1 / 100, flatSurface_vol _ _ _, rfl, sampleCap_variance p hp⟩
  · exact ((sampleCap_tau (k := .cap) p hp).2.2 _ rfl).ne'
  · simp only [sampleCap, twoPeriods, List.mem_cons, List.not_mem_nil, or_false] at hp
    rcases hp with rfl | rfl
    · exact ⟨(hD _ (by decide)).1, (hD _ (by decide)).1, (hD _ (by decide)).1⟩
    · exact ⟨(hD _ (by decide)).1, (hD _ (by decide)).1, (hD _ (by decide)).1⟩

example : ∃ f g : ℝ → ℝ, (∀ r, sampleCap.pv sampleCurve (flatSurface (1 / 100)) r 0 = .ok (f r)) ∧
    ContDiff ℝ 2 f ∧
    (∀ d, sampleCap.gamma sampleCurve (some (flatSurface (1 / 100))) d .zeros = .ok (g d)) ∧
    Filter.Tendsto (fun d => g d / d ^ 2) (nhdsWithin 0 {0}ᶜ) (nhds (deriv (deriv f) 0)) := by
  obtain ⟨x, hx⟩ := sampleCap_pv .cap 0 0
  refine C76_gamma (c := sampleCap) hx fun p hp s hs => ?_
  rw [flatSurface_vol] at hs
  rw [← ok.inj hs]
  exact sampleCap_variance p hp

end Verif
