import Verif.Lemmas.Sensitivity
import Verif.Props.Cap

/-!
# C98: small errors in the inputs cause proportionally small errors in the results
-/

namespace Verif

open Outcome

/-- **C98.** The Black price moves by at most the discounted change of forward and strike plus
`min(F, K) / √(2π)` times the change of the standard deviation. -/
theorem C98_black {F F' K K' D : ℝ} (hF : 0 < F) (hF' : 0 < F') (hK : 0 < K) (hK' : 0 < K') (hD : 0 ≤ D)
    (V V' : ℝ) (ot : OptionType) :
    |blackScholes F' K' V' D ot - blackScholes F K V D ot|
      ≤ D * (|F' - F| + |K' - K| + min F K * (|√V' - √V| / √(2 * Real.pi))) := by
  have h1 := black_level_lip hF hF' hK hK' hD V' ot
  have h2 := black_vol_lip hF hK hD V V' ot
  rw [mul_add]
  rw [show blackScholes F' K' V' D ot - blackScholes F K V D ot =
    (blackScholes F' K' V' D ot - blackScholes F K V' D ot) + (blackScholes F K V' D ot - blackScholes F K V D ot) by
      ring]
  exact (abs_add_le _ _).trans (add_le_add h1 h2)

/-- **C98.** The same for the Bachelier prices, for every forward and strike. -/
theorem C98_bachelier (F F' K K' V V' : ℝ) :
    |bachelierCall F' K' V' - bachelierCall F K V| ≤ |F' - F| + |K' - K| + |√V' - √V| / √(2 * Real.pi) ∧
    |bachelierPut F' K' V' - bachelierPut F K V| ≤ |F' - F| + |K' - K| + |√V' - √V| / √(2 * Real.pi) := by
  obtain ⟨a1, a2⟩ := bachelier_level_lip F F' K K' V'
  obtain ⟨b1, b2⟩ := bach_vol_lip F K V V'
  constructor
  · rw [show bachelierCall F' K' V' - bachelierCall F K V = (bachelierCall F' K' V' - bachelierCall F K V') +
      (bachelierCall F K V' - bachelierCall F K V) by ring]
    exact (abs_add_le _ _).trans (add_le_add a1 b1)
  · rw [show bachelierPut F' K' V' - bachelierPut F K V = (bachelierPut F' K' V' - bachelierPut F K V') +
      (bachelierPut F K V' - bachelierPut F K V) by ring]
    exact (abs_add_le _ _).trans (add_le_add a2 b2)

/-- Non-vacuity of `C98_black` and `C98_bachelier`: forward 100 against 101, strike 100, same variance. -/
example : |blackScholes 101 100 (1 / 25) 1 .call - blackScholes 100 100 (1 / 25) 1 .call| ≤ 1 ∧
    |bachelierCall 101 100 4 - bachelierCall 100 100 1| ≤ 1 + 1 / √(2 * Real.pi) := by
  have h1 := C98_black (F := 100) (F' := 101) (K := 100) (K' := 100) (D := 1) (by norm_num) (by norm_num)
    (by norm_num) (by norm_num) (by norm_num) (1 / 25) (1 / 25) .call
  have h2 := (C98_bachelier 100 101 100 100 1 4).1
  rw [sub_self (√_), abs_zero, zero_div, mul_zero] at h1
  rw [Real.sqrt_one, show √(4 : ℝ) = 2 by
    rw [show (4 : ℝ) = 2 ^ 2 by norm_num]; exact Real.sqrt_sq (by norm_num)] at h2
  norm_num at h1 h2 ⊢
  exact ⟨h1, h2⟩

/-- **C98.** If no pillar of a curve moves by more than `ε`, no zero rate does. -/
theorem C98_zero_rate {ε : ℝ} {val : Int} {ps ps' : List Pillar} (hn : List.Forall₂ (PillarNear ε) ps ps')
    (ho : ps.Pairwise fun a b => a.date < b.date) {d : Int} {z : ℝ}
    (h : (Curve.mk val ps).zeroRate d = .ok z) :
    ∃ z', (Curve.mk val ps').zeroRate d = .ok z' ∧ |z' - z| ≤ ε :=
  zeroRate_step hn ho h

/-- **C98.** No discount factor changes by more than the factor `e^(ε t)`. -/
theorem C98_discount {ε : ℝ} {val : Int} {ps ps' : List Pillar} (hn : List.Forall₂ (PillarNear ε) ps ps')
    (ho : ps.Pairwise fun a b => a.date < b.date) {d : Int} {x : ℝ}
    (h : (Curve.mk val ps).discount d = .ok x) :
    ∃ x', (Curve.mk val ps').discount d = .ok x' ∧ x * Real.exp (-(ε * |yf365 val d|)) ≤ x' ∧
      x' ≤ x * Real.exp (ε * |yf365 val d|) := by
  obtain ⟨x', h', hb⟩ := discount_near hn ho h
  have p := C36_discount_pos h
  have p' := C36_discount_pos h'
  obtain ⟨b1, b2⟩ := abs_le.1 hb
  refine ⟨x', h', ?_, ?_⟩
  · rw [← Real.log_le_log_iff (by positivity) p', Real.log_mul p.ne' (Real.exp_ne_zero _), Real.log_exp]
    linarith
  · rw [← Real.log_le_log_iff p' (by positivity), Real.log_mul p.ne' (Real.exp_ne_zero _), Real.log_exp]
    linarith

/-- **C98.** A forward rate moves by at most `ε (t₁ + t₂) / (t₂ - t₁)`: the shorter the period against its
distance, the larger the amplification. -/
theorem C98_forward_rate {ε : ℝ} {val : Int} {ps ps' : List Pillar} (hn : List.Forall₂ (PillarNear ε) ps ps')
    (ho : ps.Pairwise fun a b => a.date < b.date) {d e : Int} {p : Period} {f : ℝ}
    (he : addPeriod d p = .ok e) (h1 : val ≤ d) (h2 : d < e) (h : (Curve.mk val ps).forwardRate d p = .ok f) :
    ∃ f', (Curve.mk val ps').forwardRate d p = .ok f' ∧
      |f' - f| ≤ ε * ((yf365 val d + yf365 val e) / (yf365 val e - yf365 val d)) := by
  have t1 : 0 ≤ yf365 val d := by
    unfold yf365
    refine div_nonneg ?_ (by norm_num)
    exact_mod_cast (by omega)
  have t2 : yf365 val d < yf365 val e := by
    unfold yf365
    refine div_lt_div_of_pos_right ?_ (by norm_num)
    exact_mod_cast (by omega)
  obtain ⟨f', h', hb⟩ := forwardRate_near hn ho he h
  refine ⟨f', h', ?_⟩
  rwa [abs_of_nonneg t1, abs_of_nonneg (t1.trans t2.le), abs_of_pos (sub_pos.2 t2)] at hb

theorem pillarPair_near {a b a' b' ε : ℝ} (ha : |a' - a| ≤ ε) (hb : |b' - b| ≤ ε) :
    List.Forall₂ (PillarNear ε) [pillarAt 30 a false, pillarAt 60 b false]
      [pillarAt 30 a' false, pillarAt 60 b' false] :=
  .cons ⟨rfl, rfl, rfl, ha⟩ (.cons ⟨rfl, rfl, rfl, hb⟩ .nil)

theorem pillarPair_order (a b : ℝ) :
    [pillarAt 30 a false, pillarAt 60 b false].Pairwise fun p q => p.date < q.date := by
  simp [pillarAt]

theorem pillarPair_rate (a b : ℝ) {d : Int} (h1 : 30 ≤ d) (h2 : d < 60) :
    (Curve.mk 0 [pillarAt 30 a false, pillarAt 60 b false]).zeroRate d =
      .ok ((((d + 1 - 30 : Int) : ℝ) * b + ((60 - (d + 1) : Int) : ℝ) * a) / 30) := by
  have m1 : minDay ≤ 0 := by decide
  have m2 : 100 ≤ maxDay := by decide
  have hs : scanPillars (d + 1) (pillarAt 30 a false) [pillarAt 30 a false, pillarAt 60 b false] =
      (pillarAt 30 a false, some (pillarAt 60 b false)) := by
    have e1 : ¬ d + 1 ≤ 30 := by omega
    have e2 : d + 1 ≤ 60 := by omega
    simp [scanPillars, pillarAt, e1, e2]
  rw [zeroRate_of_ne (p0 := pillarAt 30 a false) rfl ⟨by omega, by omega⟩ hs]
  · simp only [weighted, pillarAt, Option.getD_some]
    congr 2
    push_cast
    ring
  · simp [trueFirst, pillarAt]

/-- Non-vacuity of `C98_zero_rate`, `C98_discount` and `C98_forward_rate`. -/
example : ∃ z x f : ℝ, sampleCurve.zeroRate 40 = .ok z ∧ sampleCurve.discount 40 = .ok x ∧
    sampleCurve.forwardRate 40 (.days 10) = .ok f ∧ addPeriod 40 (.days 10) = .ok 50 ∧
    List.Forall₂ (PillarNear (1 / 1000)) sampleCurve.pillars
      [pillarAt 30 (11 / 1000) false, pillarAt 60 (39 / 1000) false] ∧
    sampleCurve.pillars.Pairwise fun a b => a.date < b.date := by
  have hp : addPeriod 40 (.days 10) = .ok 50 := by decide
  have hd : ∃ x, sampleCurve.discount 40 = .ok x := by
    unfold Curve.discount
    rw [sampleCurve_rate, ok_bind]
    exact ⟨_, rfl⟩
  have hf : ∃ f, sampleCurve.forwardRate 40 (.days 10) = .ok f := by
    unfold Curve.forwardRate
    rw [hp, ok_bind, sampleCurve_rate, ok_bind,
      show sampleCurve.zeroRate 50 = _ from pillarPair_rate _ _ (by norm_num) (by norm_num), ok_bind]
    exact ⟨_, rfl⟩
  obtain ⟨x, hx⟩ := hd
  obtain ⟨f, hf⟩ := hf
  exact ⟨_, x, f, sampleCurve_rate, hx, hf, hp, pillarPair_near (by norm_num) (by norm_num),
    pillarPair_order _ _⟩

/-- A forward rate can move by more than twice as much as the pillars do. -/
theorem C98_forward_rate_false {ε : ℝ} (hε : 0 < ε) : ∃ ps ps' : List Pillar,
    List.Forall₂ (PillarNear ε) ps ps' ∧ (ps.Pairwise fun a b => a.date < b.date) ∧ ∃ f f' : ℝ,
      (Curve.mk 0 ps).forwardRate 30 (.days 19) = .ok f ∧ (Curve.mk 0 ps').forwardRate 30 (.days 19) = .ok f' ∧
      2 * ε < |f' - f| := by
  refine ⟨_, _, pillarPair_near (a := 0) (b := 0) (a' := -ε) (b' := ε) (by simp [abs_of_pos hε])
    (by simp [abs_of_pos hε]), pillarPair_order _ _, 0, 7 / 3 * ε, ?_, ?_, ?_⟩
  · unfold Curve.forwardRate
    rw [show addPeriod 30 (.days 19) = .ok 49 by decide, ok_bind, pillarPair_rate _ _ (by norm_num) (by norm_num), ok_bind,
      pillarPair_rate _ _ (by norm_num) (by norm_num), ok_bind]
    simp
  · unfold Curve.forwardRate
    rw [show addPeriod 30 (.days 19) = .ok 49 by decide, ok_bind, pillarPair_rate _ _ (by norm_num) (by norm_num), ok_bind,
      pillarPair_rate _ _ (by norm_num) (by norm_num), ok_bind]
    dsimp only
    rw [Real.log_div (Real.exp_ne_zero _) (Real.exp_ne_zero _), Real.log_exp, Real.log_exp]
    congr 1
    unfold yf365
    push_cast
    ring
  · rw [sub_zero, abs_of_pos (by positivity)]
    linarith

/-- **C98.** If no node of a caplet surface moves by more than `ε`, no interpolated volatility does. -/
theorem C98_caplet_vol {ε k v : ℝ} {vs vs' : List CapletPillar} {d : Int}
    (hn : List.Forall₂ (CapletNear ε) vs vs') (ho : ∀ p ∈ vs, StrikesIncrease p.nodes)
    (h : capletVolatility vs d k = .ok v) : ∃ v', capletVolatility vs' d k = .ok v' ∧ |v' - v| ≤ ε :=
  capletVolatility_near hn ho h

/-- **C98.** The value of a cap or floor then moves by at most the notional times `ε / √(2π)` times the sum
over the caplets of accrual, discount factor and square root of the effective time; `w` bounds the terms. -/
theorem C98_cap {c : CapFloor} {cv : Curve} {vs vs' : List CapletPillar} {r v x ε : ℝ} {w : SchedPeriod → ℝ}
    (hn : List.Forall₂ (CapletNear ε) vs vs') (ho : ∀ p ∈ vs, StrikesIncrease p.nodes)
    (hw : ∀ p ∈ c.schedule, ∀ tau dp, c.yearFraction p.start p.fin = .ok tau →
      cv.shiftedDiscount p.pay r = .ok dp →
      |tau| * |dp| * √(capletTotalVariance c.style 1 (yf365 c.valuation p.start) (yf365 c.valuation p.fin)) ≤ w p)
    (h : c.pv cv vs r v = .ok x) :
    ∃ x', c.pv cv vs' r v = .ok x' ∧
      |x' - x| ≤ |c.notional| * (c.schedule.map w).sum * (ε / √(2 * Real.pi)) :=
  capPv_near hn ho hw h

theorem flatSurface_near (s s' : ℝ) : List.Forall₂ (CapletNear |s' - s|) (flatSurface s) (flatSurface s') :=
  .cons ⟨rfl, .cons ⟨rfl, le_rfl⟩ .nil⟩ .nil

/-- Non-vacuity of `C98_caplet_vol`: strike 2 lies halfway between two nodes that both moved. -/
example : capletVolatility [⟨200, [(1, 2), (3, 6)]⟩] 150 2 = .ok 4 ∧
    List.Forall₂ (CapletNear 1) [⟨200, [(1, 2), (3, 6)]⟩] [⟨200, [(1, 3), (3, 5)]⟩] ∧
    StrikesIncrease [(1, 2), (3, 6)] := by
  refine ⟨?_, .cons ⟨rfl, .cons ⟨rfl, by norm_num⟩ (.cons ⟨rfl, by norm_num⟩ .nil)⟩ .nil,
    by simp [StrikesIncrease]⟩
  unfold capletVolatility pickPillar
  simp [interpolateNodes, scanNodes]
  norm_num

/-- Non-vacuity of `C98_cap`: the sample cap, its surface raised from 1% to 1.1%. -/
example : ∃ (x x' : ℝ) (w : SchedPeriod → ℝ), sampleCap.pv sampleCurve (flatSurface (1 / 100)) 0 0 = .ok x ∧
    sampleCap.pv sampleCurve (flatSurface (11 / 1000)) 0 0 = .ok x' ∧
    |x' - x| ≤ 1000 * (sampleCap.schedule.map w).sum * (1 / 1000 / √(2 * Real.pi)) := by
  obtain ⟨D, hD⟩ := sampleCurve_discounts
  have hd : ∀ q ∈ twoPeriods, sampleCurve.shiftedDiscount q.start 0 = .ok (D q.start) ∧
      sampleCurve.shiftedDiscount q.fin 0 = .ok (D q.fin) ∧
      sampleCurve.shiftedDiscount q.pay 0 = .ok (D q.pay) := by
    intro q hq
    simp only [C38_zero_shift]
    simp only [twoPeriods, List.mem_cons, List.not_mem_nil, or_false] at hq
    rcases hq with rfl | rfl <;>
      exact ⟨(hD _ (by decide)).1, (hD _ (by decide)).1, (hD _ (by decide)).1⟩
  have hex : ∃ x, sampleCap.pv sampleCurve (flatSurface (1 / 100)) 0 0 = .ok x := by
    have h1 := hd ⟨0, 20, 20, 0, 0, 1000⟩ (by simp [twoPeriods])
    have h2 := hd ⟨20, 40, 40, 20, 0, 1000⟩ (by simp [twoPeriods])
    exact ⟨_, pv_ok.2 ⟨_, List.Forall₂.cons (market_ok.2 ⟨_, _, _, _, _, rfl, h1.1, h1.2.1, h1.2.2,
      flatSurface_vol _ _ _, rfl⟩) (List.Forall₂.cons (market_ok.2 ⟨_, _, _, _, _, rfl, h2.1, h2.2.1,
      h2.2.2, flatSurface_vol _ _ _, rfl⟩) List.Forall₂.nil), rfl⟩⟩
  obtain ⟨x, hx⟩ := hex
  set w : SchedPeriod → ℝ := fun p => |yf365 p.start p.fin| * |D p.pay| *
    √(capletTotalVariance sampleCap.style 1 (yf365 sampleCap.valuation p.start) (yf365 sampleCap.valuation p.fin))
    with hwdef
  obtain ⟨x', hx', hb⟩ := C98_cap (w := w) (flatSurface_near (1 / 100) (11 / 1000))
    (by simp [flatSurface, StrikesIncrease]) (by
      intro p hp tau dp h1 h2
      obtain rfl : yf365 p.start p.fin = tau := ok.inj h1
      obtain rfl : D p.pay = dp := ok.inj ((hd p hp).2.2.symm.trans h2)
      exact le_rfl) hx
  refine ⟨x, x', w, hx, hx', ?_⟩
  rw [show |sampleCap.notional| = 1000 by simp [sampleCap], show |(11 : ℝ) / 1000 - 1 / 100| = 1 / 1000 by norm_num] at hb
  exact hb

/-- **C98.** If at some strike no smile of an FX surface moves by more than `ε`, no volatility at that
strike does, on and between the expiries. -/
theorem C98_fx_vol (ks : KeySearch) {val : Int} {ps ps' : List VolPillar} {s s' : FxVolSurface} {e : Int}
    {K ε v : ℝ} (h : FxVolSurface.new val ps = .ok s) (h' : FxVolSurface.new val ps' = .ok s')
    (hs : List.Forall₂ (fun sm sm' : Smile => sm'.expiry = sm.expiry ∧ |sm'.volatility K - sm.volatility K| ≤ ε)
      s.smiles s'.smiles)
    (hv : s.volatility ks e K = .ok v) : ∃ v', s'.volatility ks e K = .ok v' ∧ |v' - v| ≤ ε := by
  obtain ⟨v1, -, -, o1, y1⟩ := surface_new h
  obtain ⟨v2, -, -, -, y2⟩ := surface_new h'
  refine volatility_near ks (by rw [v1, v2]) o1 (by rw [v1]; exact y1) (fun sm hm => ?_) hs hv
  rw [v1]
  exact (y2 sm hm).2

/-- Non-vacuity of `C98_fx_vol`: the forward of the later of two pillars moved from 1.1 to 1.2. -/
example : ∃ (p' : VolPillar) (s s' : FxVolSurface) (ε : ℝ), p' ≠ samplePillar 365 ∧
    FxVolSurface.new 0 [samplePillar 365, samplePillar 100] = .ok s ∧
    FxVolSurface.new 0 [p', samplePillar 100] = .ok s' ∧
    List.Forall₂ (fun sm sm' : Smile => sm'.expiry = sm.expiry ∧ |sm'.volatility 1 - sm.volatility 1| ≤ ε)
      s.smiles s'.smiles := by
  obtain ⟨a0, ha0⟩ := samplePillar_built 365 (T := yf365 0 365) (yf365_after (by norm_num))
  obtain ⟨b, hb⟩ := samplePillar_built 100 (T := yf365 0 100) (yf365_after (by norm_num))
  set p' : VolPillar := ⟨365, 6 / 5, (samplePillar 365).quotes⟩ with hp'
  have hn : normaliseQuotes p'.quotes = _ := samplePillar_normalised 365
  obtain ⟨a, ha⟩ := fromPillar_single (T := yf365 0 365) hn (yf365_after (by norm_num))
    (by norm_num) (by norm_num) (by norm_num) (by norm_num) (by norm_num) (by norm_num) (by norm_num)
  have ea0 : a0.expiry = 365 := (fromPillar_dates ha0).2.1
  have ea : a.expiry = 365 := (fromPillar_dates ha).2.1
  have eb : b.expiry = 100 := (fromPillar_dates hb).2.1
  have sort2 : ∀ x : Smile, x.expiry = 365 → ([x, b].mergeSort fun y z => decide (y.expiry ≤ z.expiry)) = [b, x] := by
    intro x hx
    simp [List.mergeSort, List.MergeSort.Internal.splitInTwo, hx, eb]
  have built : ∀ (p : VolPillar) (x : Smile), p.expiry = 365 → Smile.fromPillar p (yf365 0 365) = .ok x →
      x.expiry = 365 → FxVolSurface.new 0 [p, samplePillar 100] = .ok ⟨0, [b, x]⟩ := by
    intro p x hp hx ex
    have hbuild : buildSmiles 0 [p, samplePillar 100] = .ok [x, b] := by
      rw [buildSmiles, hp, hx, ok_bind, buildSmiles, show (samplePillar 100).expiry = 100 from rfl, hb, ok_bind,
        buildSmiles]
      rfl
    unfold FxVolSurface.new
    dsimp only
    rw [hbuild, ok_bind, sort2 x ex]
  have s1 := built (samplePillar 365) a0 rfl ha0 ea0
  have s2 := built p' a rfl ha ea
  refine ⟨p', _, _, |a.volatility 1 - a0.volatility 1|, ?_, s1, s2,
    .cons ⟨rfl, by simp⟩ (.cons ⟨by rw [ea, ea0], le_rfl⟩ .nil)⟩
  intro e
  have := congrArg VolPillar.forward e
  norm_num [hp', samplePillar] at this

/-- **C98.** If no forward-point quote moves by more than `ε`, no interpolated forward point does, and the
dates with an answer are the same. -/
theorem C98_forward_points {ops : SliceOps} {h h' : FwdHelper} {c : Cal} {t : Int} {ε : ℝ}
    {l l' : List (Int × ℝ)} (hd : Dated h c l) (hd' : Dated h' c l') (hv : h'.valuation = h.valuation)
    (hn : (l.map Prod.fst).Nodup) (hl : List.Forall₂ (ValueNear ε) l l') :
    QuoteNear ε (getForward ops h t c) (getForward ops h' t c) :=
  forward_near hd hd' hv hn hl

/-- Non-vacuity of `C98_forward_points`: the one-week quote moved from 14 to 15. -/
example : QuoteNear 1 (getForward SliceOps.std sampleHelper (ymd 2023 10 21) weekendsOnly)
    (getForward SliceOps.std (FwdHelper.new (ymd 2023 10 16) [⟨.weeks 1, 15⟩, ⟨.spot, 0⟩]) (ymd 2023 10 21)
      weekendsOnly) := by
  have v1 := (List.forall₂_cons.1 sampleHelper_dated).1.1
  have v2 := (List.forall₂_cons.1 (List.forall₂_cons.1 sampleHelper_dated).2).1.1
  have hd' : Dated (FwdHelper.new (ymd 2023 10 16) [⟨.weeks 1, 15⟩, ⟨.spot, 0⟩]) weekendsOnly
      [(ymd 2023 10 25, 15), (ymd 2023 10 18, 0)] :=
    List.Forall₂.cons ⟨v1, rfl⟩ (List.Forall₂.cons ⟨v2, rfl⟩ List.Forall₂.nil)
  have hn : ([(ymd 2023 10 25, (14 : ℝ)), (ymd 2023 10 18, 0)].map Prod.fst).Nodup := by
    simp [ymd, yearStart, monthStart, leap]
  have hl : List.Forall₂ (ValueNear 1) [(ymd 2023 10 25, (14 : ℝ)), (ymd 2023 10 18, 0)]
      [(ymd 2023 10 25, 15), (ymd 2023 10 18, 0)] :=
    .cons ⟨rfl, by norm_num⟩ (.cons ⟨rfl, by norm_num⟩ .nil)
  exact C98_forward_points (ops := SliceOps.std) (t := ymd 2023 10 21) sampleHelper_dated hd' rfl hn hl

end Verif
