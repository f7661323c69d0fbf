import Verif.Lemmas.DateShift
import Verif.Props.CapRisk

/-!
# C103: only the time between dates matters
-/

namespace Verif

open Classical Outcome

variable {n : Int}

/-- **C103.** A curve moved by `n` days gives the same zero rates, discount factors and shifted discount
factors `n` days later. -/
theorem C103_curve {cv : Curve} {d : Int} (hd : Movable n d) (bp : ℝ) :
    (cv.later n).zeroRate (d + n) = cv.zeroRate d ∧ (cv.later n).discount (d + n) = cv.discount d ∧
      (cv.later n).shiftedDiscount (d + n) bp = cv.shiftedDiscount d bp :=
  ⟨zeroRate_later hd, discount_later hd, shiftedDiscount_later hd bp⟩

/-- Non-vacuity of `C103_curve`: the sample curve a year later. -/
example : ∃ x, 0 < x ∧ sampleCurve.discount 40 = .ok x ∧ (sampleCurve.later 365).discount 405 = .ok x := by
  obtain ⟨x, hx⟩ := (C36_discount_exists (cv := sampleCurve) (d := 40)).2 ⟨by simp [sampleCurve], by decide⟩
  refine ⟨x, C36_discount_pos hx, hx, ?_⟩
  have := (C103_curve (cv := sampleCurve) (n := 365) (d := 40) ⟨by decide, by decide⟩ 0).2.1
  rw [← hx, ← this]
  norm_num

/-- **C103.** Forward rates over a tenor that ends `n` days later as well, such as any number of days or
weeks. -/
theorem C103_forward_rate {cv : Curve} {d e : Int} {tenor : Period} (he : addPeriod d tenor = .ok e)
    (he' : addPeriod (d + n) tenor = .ok (e + n)) (h1 : Movable n d) (h2 : Movable n e) :
    (cv.later n).forwardRate (d + n) tenor = cv.forwardRate d tenor := by
  unfold Curve.forwardRate
  rw [he, he', ok_bind, ok_bind, zeroRate_later h1, zeroRate_later h2,
    show (cv.later n).valuation = cv.valuation + n from rfl, yf365_later, yf365_later]

/-- **C103.** Tenors in days and weeks end `n` days later when they start `n` days later. -/
theorem C103_days {d e k : Int} {tenor : Period} (ht : tenor = .days k ∨ tenor = .weeks k)
    (he : addPeriod d tenor = .ok e) (hv : Valid (e + n)) : addPeriod (d + n) tenor = .ok (e + n) := by
  have key : ∀ j : Int, addDays d j = .ok e → addDays (d + n) j = .ok (e + n) := by
    intro j hj
    obtain ⟨rfl, -⟩ := valid_addDays.1 hj
    exact valid_addDays.2 ⟨by ring, by rw [show d + n + j = d + j + n by ring]; exact hv⟩
  rcases ht with rfl | rfl
  · unfold addPeriod at he ⊢
    rw [bind_eq_ok] at he ⊢
    obtain ⟨j, hj, he⟩ := he
    exact ⟨j, hj, key j he⟩
  · unfold addPeriod at he ⊢
    rw [bind_eq_ok] at he ⊢
    obtain ⟨j, hj, he⟩ := he
    refine ⟨j, hj, ?_⟩
    rw [bind_eq_ok] at he ⊢
    obtain ⟨j', hj', he⟩ := he
    exact ⟨j', hj', key j' he⟩

/-- Non-vacuity of `C103_forward_rate` and `C103_days`: two weeks from day 20 on. -/
example : ∃ f, sampleCurve.forwardRate 20 (.weeks 2) = .ok f ∧
    (sampleCurve.later 365).forwardRate 385 (.weeks 2) = .ok f := by
  have he : addPeriod 20 (.weeks 2) = .ok 34 := by decide
  obtain ⟨f, hf⟩ := C36_forward_exists (cv := sampleCurve) (by simp [sampleCurve]) he (by decide) (by decide)
  refine ⟨f, hf, ?_⟩
  have := C103_forward_rate (cv := sampleCurve) (n := 365) he
    (C103_days (k := 2) (.inr rfl) he (by decide)) ⟨by decide, by decide⟩ ⟨by decide, by decide⟩
  rw [← hf, ← this]
  norm_num

/-- The curve used by `C103_months`: 1% ten days and 10% a hundred days after 1 February 2023. -/
noncomputable def februaryCurve : Curve :=
  ⟨ymd 2023 2 1, [pillarAt (ymd 2023 2 11) (1 / 100) false, pillarAt (ymd 2023 5 12) (1 / 10) false]⟩

theorem februaryCurve_rate {d : Int} (hd : Valid (d + 1)) (h1 : ymd 2023 2 11 < d + 1) (h2 : d + 1 ≤ ymd 2023 5 12) :
    februaryCurve.zeroRate d = .ok (weighted (d + 1) (pillarAt (ymd 2023 2 11) (1 / 100) false)
      (pillarAt (ymd 2023 5 12) (1 / 10) false)) := by
  refine zeroRate_of_ne (cv := februaryCurve) (s := some (pillarAt (ymd 2023 5 12) (1 / 10) false)) rfl hd ?_ ?_
  · rw [scanPillars, if_neg (by rintro ⟨h, -⟩; simp only [pillarAt] at h; omega), scanPillars,
      if_pos ⟨h2, rfl⟩]
  · intro h
    have := congrArg Pillar.zeroRate h
    simp [trueFirst, pillarAt] at this

/-- **C103.** Tenors in months are different: they count calendar months.  The one-month rate of a curve on 1
February 2023, which ends 28 days later, is not the one-month rate of the same curve moved to 1 March, which
ends 31 days later. -/
theorem C103_months : ∃ f f', februaryCurve.forwardRate (ymd 2023 2 1) (.months 1) = .ok f ∧
    (februaryCurve.later 28).forwardRate (ymd 2023 2 1 + 28) (.months 1) = .ok f' ∧ f < f' := by
  have v0 : Movable 28 (ymd 2023 2 1) := ⟨by decide, by decide⟩
  have v1 : Movable 28 (ymd 2023 3 4) := ⟨by decide, by decide⟩
  obtain ⟨x, hx⟩ := (C36_discount_exists (cv := februaryCurve) (d := ymd 2023 2 1)).2
    ⟨by simp [februaryCurve], by decide⟩
  unfold Curve.discount at hx
  rw [bind_eq_ok] at hx
  obtain ⟨z0, hz, -⟩ := hx
  have r1 := februaryCurve_rate (d := ymd 2023 3 1) (by decide) (by decide) (by decide)
  have r2 := februaryCurve_rate (d := ymd 2023 3 4) (by decide) (by decide) (by decide)
  have f1 := forwardRate_spot (cv := februaryCurve) (tenor := .months 1)
    (show addPeriod (ymd 2023 2 1) (.months 1) = .ok (ymd 2023 3 1) by decide +kernel)
    (show ymd 2023 3 1 ≠ ymd 2023 2 1 by decide) hz r1
  have f2 := forwardRate_spot (cv := februaryCurve.later 28) (tenor := .months 1)
    (show addPeriod (ymd 2023 2 1 + 28) (.months 1) = .ok (ymd 2023 3 4 + 28) by decide +kernel)
    (show ymd 2023 3 4 + 28 ≠ ymd 2023 2 1 + 28 by decide) ((zeroRate_later v0).trans hz) ((zeroRate_later v1).trans r2)
  refine ⟨_, _, f1, f2, ?_⟩
  have e1 : ymd 2023 3 1 + 1 - ymd 2023 2 11 = 19 := by decide
  have e2 : ymd 2023 5 12 - (ymd 2023 3 1 + 1) = 71 := by decide
  have e3 : ymd 2023 3 4 + 1 - ymd 2023 2 11 = 22 := by decide
  have e4 : ymd 2023 5 12 - (ymd 2023 3 4 + 1) = 68 := by decide
  simp only [weighted, pillarAt, e1, e2, e3, e4]
  norm_num

/-- **C103.** Forward points whose settlement dates are all `n` days later. -/
theorem C103_points {ops ops' : SliceOps} {h h' : FwdHelper} {c c' : Cal} {l : List (Int × ℝ)}
    (hd : Dated h c l) (hd' : Dated h' c' (quotesLater n l)) (hv : h'.valuation = h.valuation + n)
    (hn : (l.map Prod.fst).Nodup) (t : Int) : getForward ops' h' (t + n) c' = getForward ops h t c :=
  forward_later hd hd' hv hn t

/-- **C103.** An FX volatility surface built from quotes `n` days later is the surface `n` days later, or fails
the same way. -/
theorem C103_surface (val : Int) (ps : List VolPillar) :
    FxVolSurface.new (val + n) (ps.map (VolPillar.later n)) =
      FxVolSurface.later n <$> FxVolSurface.new val ps :=
  surface_later val ps

/-- **C103.** Its volatilities are those of the original surface. -/
theorem C103_vol (ks ks' : KeySearch) {val : Int} {ps : List VolPillar} {s : FxVolSurface}
    (hn : (ps.map VolPillar.expiry).Nodup) (h : FxVolSurface.new val ps = .ok s) :
    ∃ s', FxVolSurface.new (val + n) (ps.map (VolPillar.later n)) = .ok s' ∧
      ∀ e K, s'.volatility ks' (e + n) K = s.volatility ks e K := by
  obtain ⟨-, -, hp, ho, -⟩ := surface_new h
  refine ⟨s.later n, ?_, fun e K => surfaceVol_later ks ks' ho (hp.nodup_iff.2 hn) e K⟩
  rw [C103_surface, h]
  rfl

/-- Non-vacuity of `C103_vol`: a surface with two pillars, a week later. -/
example : ∃ s s', FxVolSurface.new 0 [samplePillar 365, samplePillar 100] = .ok s ∧
    FxVolSurface.new (0 + 7) ([samplePillar 365, samplePillar 100].map (VolPillar.later 7)) = .ok s' ∧
    ∀ e K, s'.volatility KeySearch.std (e + 7) K = s.volatility KeySearch.std e K := by
  obtain ⟨s, -, -, h, -⟩ := sampleSurface
  obtain ⟨s', h', hv⟩ := C103_vol (n := 7) KeySearch.std KeySearch.std (by simp [samplePillar]) h
  exact ⟨s, s', h, h', hv⟩

/-- **C103.** The value of an FX forward. -/
theorem C103_fx_forward {ops ops' : SliceOps} {x : FxForward} {m m' : FxMarket}
    (hm : MarketLater n x.asset m m') (he : Movable n x.expiry) : (x.later n).mtm ops' m' = x.mtm ops m := by
  unfold FxForward.mtm
  rw [show (x.later n).asset = x.asset from rfl, show (x.later n).expiry = x.expiry + n from rfl,
    outright_later (ops := ops) hm, hm.curve, discount_later he]
  rfl

/-- **C103.** The value, delta, gamma and vega of an FX option. -/
theorem C103_fx_option {ops ops' : SliceOps} {x : FxOption} {m m' : FxMarket}
    (hm : MarketLater n x.asset m m') (he : Movable n x.expiry) :
    (x.later n).mtm ops' m' = x.mtm ops m ∧ (x.later n).delta ops' m' = x.delta ops m ∧
      (x.later n).gamma ops' m' = x.gamma ops m ∧ (x.later n).vega ops' m' = x.vega ops m := by
  have hc := optionContext_later (ops := ops) (ops' := ops') hm he
  refine ⟨?_, ?_, ?_, ?_⟩
  · unfold FxOption.mtm; rw [hc]; rfl
  · unfold FxOption.delta; rw [hc]; rfl
  · unfold FxOption.gamma; rw [hc]; rfl
  · unfold FxOption.vega; rw [hc]; rfl

/-- The sample market on the following Monday. -/
noncomputable def nextMonday : FxMarket :=
  ⟨ymd 2023 10 23, 106 / 100, sampleMarket.domestic.later 7,
    FwdHelper.new (ymd 2023 10 23) [⟨.weeks 1, 14⟩, ⟨.spot, 0⟩]⟩

theorem nextMonday_later : MarketLater 7 .eurusd sampleMarket nextMonday where
  valuation := by decide
  spot := rfl
  curve := rfl
  quoted := by decide
  points := by
    refine ⟨_, sampleMarket_dated, ?_, by decide⟩
    refine .cons ⟨?_, rfl⟩ (.cons ⟨?_, rfl⟩ .nil) <;> decide +kernel

/-- Non-vacuity of `C103_points`, `C103_fx_forward` and `C103_fx_option`: the sample trades a week later. -/
example : ∃ v w, FxForward.mtm SliceOps.std ⟨ymd 2023 10 25, .buy, .eurusd, .eur, 100, 105 / 100⟩ sampleMarket = .ok v ∧
    FxForward.mtm SliceOps.std ⟨ymd 2023 11 1, .buy, .eurusd, .eur, 100, 105 / 100⟩ nextMonday = .ok v ∧
    sampleOption.mtm SliceOps.std sampleMarket = .ok w ∧
    (sampleOption.later 7).mtm SliceOps.std nextMonday = .ok w := by
  obtain ⟨D, hD⟩ := sampleMarket_discount
  have hf : outright SliceOps.std sampleOption.asset sampleMarket sampleOption.expiry = .ok (10614 / 10000) :=
    sampleMarket_outright
  have hv := opt_mtm (x := sampleOption) hf hD (show ymd 2023 10 16 ≤ ymd 2023 10 25 by decide)
  have hw := fwd_mtm (x := ⟨ymd 2023 10 25, .buy, .eurusd, .eur, 100, 105 / 100⟩) sampleMarket_outright hD
  have e : ymd 2023 11 1 = ymd 2023 10 25 + 7 := by decide
  refine ⟨_, _, hw, ?_, hv, ?_⟩
  · rw [e, ← hw]
    exact C103_fx_forward (x := ⟨ymd 2023 10 25, .buy, .eurusd, .eur, 100, 105 / 100⟩) nextMonday_later
      ⟨by decide, by decide⟩
  · rw [← hv]
    exact (C103_fx_option (x := sampleOption) nextMonday_later ⟨by decide, by decide⟩).1

/-- **C103.** Caplet volatilities. -/
theorem C103_caplet_vol (ps : List CapletPillar) (e : Int) (K : ℝ) :
    capletVolatility (ps.map (CapletPillar.later n)) (e + n) K = capletVolatility ps e K :=
  capletVolatility_later ps e K

/-- **C103.** The value of a cap or floor under any shift of rates and volatilities, if the day counter of the
trade counts the moved periods like the original ones. -/
theorem C103_cap {c : CapFloor} {cv : Curve} {vs : List CapletPillar}
    (hy : ∀ p ∈ c.schedule, c.yearFraction (p.start + n) (p.fin + n) = c.yearFraction p.start p.fin)
    (hd : ∀ p ∈ c.schedule, Movable n p.start ∧ Movable n p.fin ∧ Movable n p.pay) (r v : ℝ) :
    (c.later n).pv (cv.later n) (vs.map (CapletPillar.later n)) r v = c.pv cv vs r v :=
  addCaplets_later r v c.schedule 0 hy hd

/-- **C103.** Hence value, dv01, gamma and vega. -/
theorem C103_cap_risk {c : CapFloor} {cv : Curve} {vs : List CapletPillar}
    (hy : ∀ p ∈ c.schedule, c.yearFraction (p.start + n) (p.fin + n) = c.yearFraction p.start p.fin)
    (hd : ∀ p ∈ c.schedule, Movable n p.start ∧ Movable n p.fin ∧ Movable n p.pay) (bp : ℝ) (mode : RateShiftMode) :
    (c.later n).mtm (cv.later n) (some (vs.map (CapletPillar.later n))) = c.mtm cv (some vs) ∧
    (c.later n).dv01 (cv.later n) (some (vs.map (CapletPillar.later n))) = c.dv01 cv (some vs) ∧
    (c.later n).gamma (cv.later n) (some (vs.map (CapletPillar.later n))) bp mode = c.gamma cv (some vs) bp mode ∧
    (c.later n).vega (cv.later n) (some (vs.map (CapletPillar.later n))) bp = c.vega cv (some vs) bp := by
  have hp := fun r v => C103_cap (cv := cv) (vs := vs) hy hd r v
  refine ⟨?_, ?_, ?_, ?_⟩
  · simp only [CapFloor.mtm, unpackSurface, ok_bind, hp]
    rfl
  · simp only [CapFloor.dv01, unpackSurface, ok_bind, hp]
  · cases mode <;> simp only [CapFloor.gamma, unpackSurface, ok_bind, hp]
  · simp only [CapFloor.vega, unpackSurface, ok_bind, hp]

/-- Non-vacuity of `C103_cap` and `C103_cap_risk`: the sample cap a year later. -/
example : ∃ x, sampleCap.pv sampleCurve (flatSurface (1 / 100)) 0 0 = .ok x ∧
    (sampleCap.later 365).pv (sampleCurve.later 365) ((flatSurface (1 / 100)).map (CapletPillar.later 365)) 0 0 = .ok x := by
  obtain ⟨x, hx⟩ := sampleCap_pv .cap 0 0
  have hx' : sampleCap.pv sampleCurve (flatSurface (1 / 100)) 0 0 = .ok x := hx
  refine ⟨x, hx', ?_⟩
  rw [← hx']
  refine C103_cap (fun p _ => ?_) ?_ 0 0
  · show Outcome.ok (yf365 (p.start + 365) (p.fin + 365)) = .ok (yf365 p.start p.fin)
    rw [yf365_later]
  · intro p hp
    have hp' : p ∈ twoPeriods := hp
    simp only [twoPeriods, List.mem_cons, List.not_mem_nil, or_false] at hp'
    rcases hp' with rfl | rfl <;> refine ⟨⟨?_, ?_⟩, ⟨?_, ?_⟩, ⟨?_, ?_⟩⟩ <;> decide

/-- **C103.** The value of a swap that carries its schedules, plain and under any shift of the curve. -/
theorem C103_swap {s : Swap} {val : Int} {cv : Curve} (hl : ∀ l ∈ s.legs, LegMovable n l) (bp : ℝ) :
    (s.later n).npv (val + n) (cv.later n) = s.npv val cv ∧
      (s.later n).pvUnderShift (val + n) (cv.later n) bp = s.pvUnderShift val cv bp :=
  ⟨npvLegs_later s.legs 0 hl, shiftedLegs_later bp s.legs 0 hl⟩

/-- **C103.** Hence its market value, dv01 and gamma. -/
theorem C103_swap_risk {s : Swap} {val : Int} {cv : Curve} (hl : ∀ l ∈ s.legs, LegMovable n l) (bp : ℝ)
    (mode : RateShiftMode) :
    (s.later n).mtm (val + n) (cv.later n) = s.mtm val cv ∧
    (s.later n).dv01 (val + n) (cv.later n) = s.dv01 val cv ∧
    (s.later n).gamma (val + n) (cv.later n) bp mode = s.gamma val cv bp mode := by
  have hp := fun b => (C103_swap (cv := cv) (val := val) hl b).2
  have hc : (s.later n).currency = s.currency := by
    obtain ⟨ls⟩ := s
    cases ls <;> rfl
  refine ⟨?_, ?_, ?_⟩
  · simp only [Swap.mtm, hp, hc]
  · simp only [Swap.dv01, hp]
  · cases mode <;> simp only [Swap.gamma, hp]

/-- Non-vacuity of `C103_swap` and `C103_swap_risk`: the two-period swap of C42 a year later. -/
example : ∃ x, (⟨[givenLeg (.float 0) .buy, givenLeg (.fixed (3 / 100)) .sell]⟩ : Swap).npv 0 sampleCurve = .ok x ∧
    (Swap.later 365 ⟨[givenLeg (.float 0) .buy, givenLeg (.fixed (3 / 100)) .sell]⟩).npv (0 + 365)
      (sampleCurve.later 365) = .ok x := by
  obtain ⟨D, hD⟩ := sampleCurve_discounts
  have h0 := (hD 0 (by decide)).1
  have h1 := (hD 20 (by decide)).1
  have h2 := (hD 40 (by decide)).1
  have hx : ∃ x, (⟨[givenLeg (.float 0) .buy, givenLeg (.fixed (3 / 100)) .sell]⟩ : Swap).npv 0 sampleCurve = .ok x := by
    unfold Swap.npv
    simp only [npvLegs, givenLeg_sched, ok_bind]
    simp only [ok_bind, twoPeriods, SwapLeg.addCashflows, SwapLeg.cashflow, givenLeg,
      sampleLeg, h0, h1, h2, List.getLast?_cons_cons, List.getLast?_singleton]
    exact ⟨_, rfl⟩
  obtain ⟨x, hx⟩ := hx
  refine ⟨x, hx, ?_⟩
  rw [← hx]
  refine (C103_swap ?_ 0).1
  have key : ∀ k dir, LegMovable 365 (givenLeg k dir) := by
    refine fun k dir => ⟨by simp [givenLeg, twoPeriods], fun p hp => ⟨?_, ?_, ?_⟩⟩
    · have hp' : p ∈ twoPeriods := hp
      simp only [twoPeriods, List.mem_cons, List.not_mem_nil, or_false] at hp'
      rcases hp' with rfl | rfl <;> refine ⟨⟨?_, ?_⟩, ⟨?_, ?_⟩, ⟨?_, ?_⟩⟩ <;> decide
    · show Outcome.ok (yf365 (p.start + 365) (p.fin + 365)) = .ok (yf365 p.start p.fin)
      rw [yf365_later]
    · show Outcome.ok (p.fin + 365 - (p.start + 365)) = .ok (p.fin - p.start)
      congr 1
      ring
  intro l hl
  simp only [List.mem_cons, List.not_mem_nil, or_false] at hl
  rcases hl with rfl | rfl <;> exact key _ _

end Verif
