import Verif.Lemmas.Cap
import Verif.Props.SwapValue

/-!
# C43-C44: caps, floors and caplet variance
-/

namespace Verif

open Outcome

/-! ## C44: caplet total variance -/

/-- C44: before the period ends, the backward-looking variance is the variance accumulated
by a volatility that decays linearly over the accrual period. -/
theorem C44_backward_integral {sigma ts te t : ℝ} (h : ts < te) (h2 : t ≤ te) :
    capletTotalVariance .backwardCompounded sigma (ts - t) (te - t) =
      accumulatedVariance sigma ts te t := backward_eq_integral h h2

/-- C44: the forward-looking variance is that accumulated by a constant volatility up to
the start of the period. -/
theorem C44_forward {sigma ts te t : ℝ} (h : ts ≤ te) :
    capletTotalVariance .forwardLooking sigma (ts - t) (te - t) = sigma ^ 2 * max (ts - t) 0 := by
  unfold capletTotalVariance
  split
  · rw [max_eq_right (by linarith), mul_zero]
  · simp only; ring

/-- C44: variance is never negative, whatever the inputs. -/
theorem C44_nonneg (style : CapStyle) (sigma s e : ℝ) : 0 ≤ capletTotalVariance style sigma s e := by
  unfold capletTotalVariance
  split
  · exact le_rfl
  · rename_i he
    push Not at he
    have h2 := mul_self_nonneg sigma
    cases style with
    | forwardLooking => exact mul_nonneg h2 (le_max_right _ _)
    | backwardCompounded =>
      dsimp only
      split
      · exact mul_nonneg h2 (by linarith)
      · rename_i hs
        push Not at hs
        have hd : 0 < e - s := by linarith
        positivity

/-- C44: variance is non-decreasing in the volatility. -/
theorem C44_monotone_sigma (style : CapStyle) {sigma sigma' : ℝ} (s e : ℝ) (h0 : 0 ≤ sigma)
    (h : sigma ≤ sigma') :
    capletTotalVariance style sigma s e ≤ capletTotalVariance style sigma' s e := by
  have h2 : sigma * sigma ≤ sigma' * sigma' := mul_self_le_mul_self h0 h
  unfold capletTotalVariance
  split
  · exact le_rfl
  · rename_i he
    push Not at he
    cases style with
    | forwardLooking => exact mul_le_mul_of_nonneg_right h2 (le_max_right _ _)
    | backwardCompounded =>
      dsimp only
      split
      · exact mul_le_mul_of_nonneg_right h2 (by linarith)
      · rename_i hs
        push Not at hs
        have hd : 0 < e - s := by linarith
        gcongr

/-- C44: variance is non-increasing as the valuation time passes. -/
theorem C44_antitone_time (style : CapStyle) (sigma : ℝ) {ts te : ℝ} (h : ts < te) :
    Antitone fun t => capletTotalVariance style sigma (ts - t) (te - t) := by
  intro t t' ht
  dsimp only
  cases style with
  | forwardLooking =>
    rw [C44_forward h.le, C44_forward h.le]
    exact mul_le_mul_of_nonneg_left (max_le_max (by linarith) le_rfl) (sq_nonneg _)
  | backwardCompounded =>
    rcases le_or_gt t' te with h2 | h2
    · rw [backward_eq_integral h h2, backward_eq_integral h (ht.trans h2)]
      have hc : Continuous fun u => decayVol sigma ts te u ^ 2 := by
        unfold decayVol; fun_prop
      unfold accumulatedVariance
      rw [← intervalIntegral.integral_add_adjacent_intervals
        (hc.intervalIntegrable (μ := MeasureTheory.volume) t t') (hc.intervalIntegrable t' te)]
      have := intervalIntegral.integral_nonneg (μ := MeasureTheory.volume) ht
        (fun u _ => sq_nonneg (decayVol sigma ts te u))
      linarith
    · have : capletTotalVariance .backwardCompounded sigma (ts - t') (te - t') = 0 := by
        unfold capletTotalVariance; rw [if_pos (by linarith)]
      rw [this]
      exact C44_nonneg _ _ _ _

/-- C44: a backward-looking caplet carries at least the variance of the forward-looking
one and at most that of one fixing at the end of the period. -/
theorem C44_between (sigma : ℝ) {s e : ℝ} (h : s ≤ e) :
    capletTotalVariance .forwardLooking sigma s e ≤ capletTotalVariance .backwardCompounded sigma s e ∧
      capletTotalVariance .backwardCompounded sigma s e ≤ sigma ^ 2 * max e 0 := by
  have h2 := mul_self_nonneg sigma
  unfold capletTotalVariance
  by_cases he : e ≤ 0
  · rw [if_pos he, if_pos he]
    exact ⟨le_rfl, by positivity⟩
  · rw [if_neg he, if_neg he]
    push Not at he
    dsimp only
    rw [max_eq_left he.le]
    by_cases hs : 0 ≤ s
    · rw [if_pos hs, max_eq_left hs]
      constructor
      · exact mul_le_mul_of_nonneg_left (by linarith) h2
      · rw [sq]; exact mul_le_mul_of_nonneg_left (by linarith) h2
    · rw [if_neg hs]
      push Not at hs
      have hd : 0 < e - s := by linarith
      rw [max_eq_right hs.le]
      constructor
      · rw [mul_zero]; positivity
      · rw [div_le_iff₀ (by positivity), sq, mul_assoc (sigma * sigma)]
        refine mul_le_mul_of_nonneg_left ?_ h2
        have h3 : e * e ≤ (e - s) * (e - s) := by nlinarith
        nlinarith [mul_nonneg he.le (mul_self_nonneg e)]

/-- C44: through the start and the end of the accrual period, variance is continuous in the
valuation time. -/
theorem C44_continuous (style : CapStyle) (sigma : ℝ) {ts te : ℝ} (h : ts < te) :
    Continuous fun t => capletTotalVariance style sigma (ts - t) (te - t) := by
  cases style with
  | forwardLooking =>
    simp only [C44_forward h.le]
    fun_prop
  | backwardCompounded =>
    unfold capletTotalVariance
    dsimp only
    refine continuous_if_le (by fun_prop) (by fun_prop) continuousOn_const ?_ ?_
    · have : Continuous fun t : ℝ => if 0 ≤ ts - t then sigma * sigma * (ts - t + (te - t - (ts - t)) / 3)
          else sigma * sigma * (te - t) ^ 3 / (3 * (te - t - (ts - t)) * (te - t - (ts - t))) := by
        refine continuous_if_le continuous_const (by fun_prop) (by fun_prop) ?_ ?_
        · refine Continuous.continuousOn ?_
          simp only [sub_sub_sub_cancel_right]
          fun_prop
        · intro t ht
          have hL : te - ts ≠ 0 := by linarith
          have e : ts = t := by linarith
          subst e
          simp only [sub_sub_sub_cancel_right]
          field_simp
          ring
      exact this.continuousOn
    · intro t ht
      have e : te = t := by linarith
      subst e
      rw [if_neg (by linarith)]
      simp

/-- C44: after the period ends there is no variance left. -/
theorem C44_expired (style : CapStyle) (sigma s : ℝ) {e : ℝ} (h : e ≤ 0) :
    capletTotalVariance style sigma s e = 0 := by
  unfold capletTotalVariance; rw [if_pos h]

/-- Non-vacuity of C44: halfway through a half-year period an eighth of the variance over
the period is left. -/
example : capletTotalVariance .backwardCompounded (1 / 100) (1 - 5 / 4) (3 / 2 - 5 / 4) =
    1 / 480000 := by
  unfold capletTotalVariance; norm_num

example : capletTotalVariance .backwardCompounded (1 / 100) (1 - 0) (3 / 2 - 0) = 7 / 60000 ∧
    capletTotalVariance .forwardLooking (1 / 100) (1 - 0) (3 / 2 - 0) = 1 / 10000 := by
  unfold capletTotalVariance; norm_num

/-! ## C43: caps and floors -/

variable {c : CapFloor} {cv : Curve} {vs : List CapletPillar} {r v x y : ℝ}

/-- C43: cap minus floor is the discounted forward swap, under any rate and volatility
shift, and neither depends on the volatility. -/
theorem C43_parity {tau : Int → Int → ℝ} {D : Int → ℝ}
    (hc : (c.withKind .cap).pv cv vs r v = .ok x) (hf : (c.withKind .floor).pv cv vs r v = .ok y)
    (hy : ∀ p ∈ c.schedule, c.yearFraction p.start p.fin = .ok (tau p.start p.fin))
    (hD : ∀ p ∈ c.schedule, cv.shiftedDiscount p.start r = .ok (D p.start) ∧
      cv.shiftedDiscount p.fin r = .ok (D p.fin) ∧ cv.shiftedDiscount p.pay r = .ok (D p.pay)) :
    x - y = c.direction.sign * c.notional * forwardSwap tau D c.strike c.schedule := by
  obtain ⟨ms, h1, rfl⟩ := pv_ok.1 hc
  obtain ⟨ms', h2, rfl⟩ := pv_ok.1 hf
  have h1 : List.Forall₂ (fun p m => c.market p cv vs r v = .ok m) c.schedule ms := h1
  have h2 : List.Forall₂ (fun p m => c.market p cv vs r v = .ok m) c.schedule ms' := h2
  obtain rfl := forall2_unique h1 h2
  simp only [CapFloor.withKind, optionValue]
  rw [sum_map_sub', forwardSwap, ← List.sum_map_mul_left]
  refine forall2_sum h1 fun p hp m hm => ?_
  obtain ⟨t, ds, de, dp, s, g1, g2, g3, g4, -, rfl⟩ := market_ok.1 hm
  rw [hy p hp] at g1
  obtain ⟨d1, d2, d3⟩ := hD p hp
  rw [d1] at g2
  rw [d2] at g3
  rw [d3] at g4
  obtain rfl := ok.inj g1
  obtain rfl := ok.inj g2
  obtain rfl := ok.inj g3
  obtain rfl := ok.inj g4
  rw [← mul_sub, C46_parity]
  ring

/-- C43: cap and floor fail in the same cases. -/
theorem C43_same_failures (h : ∃ x, (c.withKind .cap).pv cv vs r v = .ok x) :
    ∃ y, (c.withKind .floor).pv cv vs r v = .ok y := by
  obtain ⟨x, hx⟩ := h
  obtain ⟨ms, h1, -⟩ := pv_ok.1 hx
  exact ⟨_, pv_ok.2 ⟨ms, h1, rfl⟩⟩

/-- C43: with a contiguous schedule paid at period ends, cap minus floor is the value of
paying `strike` against the floating rate: `D(start) - D(end) - strike * annuity`. -/
theorem C43_parity_swap {tau : Int → Int → ℝ} {D : Int → ℝ} {p last : SchedPeriod}
    {ps : List SchedPeriod} (hs : c.schedule = p :: ps) (hl : (p :: ps).getLast? = some last)
    (hcon : Contiguous (p :: ps)) (hpay : ∀ q ∈ p :: ps, q.pay = q.fin ∧ tau q.start q.fin ≠ 0)
    (hc : (c.withKind .cap).pv cv vs r v = .ok x) (hf : (c.withKind .floor).pv cv vs r v = .ok y)
    (hy : ∀ p ∈ c.schedule, c.yearFraction p.start p.fin = .ok (tau p.start p.fin))
    (hD : ∀ p ∈ c.schedule, cv.shiftedDiscount p.start r = .ok (D p.start) ∧
      cv.shiftedDiscount p.fin r = .ok (D p.fin) ∧ cv.shiftedDiscount p.pay r = .ok (D p.pay)) :
    x - y = c.direction.sign * c.notional *
      (D p.start - D last.fin - c.strike * annuity tau D (p :: ps)) := by
  rw [C43_parity hc hf hy hD, hs]
  rw [hs] at hD
  congr 1
  clear hc hf hy hs
  induction ps generalizing p with
  | nil =>
    simp only [List.getLast?_singleton, Option.some.injEq] at hl
    subst hl
    obtain ⟨h1, h2⟩ := hpay p (by simp)
    have h3 := shifted_pos (hD p (by simp)).2.1
    simp only [forwardSwap, annuity, List.map_cons, List.map_nil, List.sum_cons, List.sum_nil, h1]
    field_simp
    ring
  | cons q qs ih =>
    obtain ⟨h1, h2⟩ := hpay p (by simp)
    have h3 := shifted_pos (hD p (by simp)).2.1
    have hc' := List.isChain_cons_cons.1 hcon
    have hi := ih (by rwa [List.getLast?_cons_cons] at hl) hc'.2
      (fun a ha => hpay a (List.mem_cons_of_mem _ ha)) (fun a ha => hD a (List.mem_cons_of_mem _ ha))
    rw [hc'.1] at hi
    simp only [forwardSwap, annuity, List.map_cons, List.sum_cons, h1] at hi ⊢
    rw [hi]
    field_simp
    ring

/-- C43: a long cap is worth at least its discounted intrinsic value, in particular it is
not negative. -/
theorem C43_cap_intrinsic {tau : Int → Int → ℝ} {D : Int → ℝ} (hb : c.direction = .buy)
    (hN : 0 ≤ c.notional) (hc : (c.withKind .cap).pv cv vs r v = .ok x)
    (hy : ∀ p ∈ c.schedule, c.yearFraction p.start p.fin = .ok (tau p.start p.fin) ∧
      0 ≤ tau p.start p.fin)
    (hD : ∀ p ∈ c.schedule, cv.shiftedDiscount p.start r = .ok (D p.start) ∧
      cv.shiftedDiscount p.fin r = .ok (D p.fin) ∧ cv.shiftedDiscount p.pay r = .ok (D p.pay)) :
    c.notional * capIntrinsic tau D c.strike c.schedule ≤ x ∧ 0 ≤ x := by
  obtain ⟨ms, h1, rfl⟩ := pv_ok.1 hc
  have h1 : List.Forall₂ (fun p m => c.market p cv vs r v = .ok m) c.schedule ms := h1
  have key : c.notional * capIntrinsic tau D c.strike c.schedule ≤
      (ms.map fun m => c.direction.sign * c.notional * m.tau * m.dfPay *
        optionValue .cap c.strike m).sum := by
    rw [capIntrinsic, ← List.sum_map_mul_left]
    refine forall2_sum_le h1 fun p hp m hm => ?_
    obtain ⟨t, ds, de, dp, s, g1, g2, g3, g4, -, rfl⟩ := market_ok.1 hm
    rw [(hy p hp).1] at g1
    obtain ⟨d1, d2, d3⟩ := hD p hp
    have hpos := shifted_pos d3
    rw [d1] at g2
    rw [d2] at g3
    rw [d3] at g4
    obtain rfl := ok.inj g1
    obtain rfl := ok.inj g2
    obtain rfl := ok.inj g3
    obtain rfl := ok.inj g4
    rw [hb]
    simp only [Direction.sign, optionValue, one_mul]
    rw [← mul_assoc, ← mul_assoc]
    exact mul_le_mul_of_nonneg_left (C46_intrinsic.1)
      (mul_nonneg (mul_nonneg hN (hy p hp).2) hpos.le)
  refine ⟨key, le_trans ?_ key⟩
  refine mul_nonneg hN (List.sum_nonneg fun a ha => ?_)
  obtain ⟨p, hp, rfl⟩ := List.mem_map.1 ha
  exact mul_nonneg (mul_nonneg (hy p hp).2 (shifted_pos (hD p hp).2.2).le) (le_max_right _ _)

/-- C43: every caplet and floorlet of a long deal is worth something non-negative. -/
theorem C43_nonneg (hb : c.direction = .buy) (hN : 0 ≤ c.notional) (hc : c.pv cv vs r v = .ok x)
    (hy : ∀ p ∈ c.schedule, ∀ t, c.yearFraction p.start p.fin = .ok t → 0 ≤ t) : 0 ≤ x := by
  obtain ⟨ms, h1, rfl⟩ := pv_ok.1 hc
  have := forall2_sum_le (F := fun _ => 0) (f := fun m => c.direction.sign * c.notional * m.tau *
      m.dfPay * optionValue c.kind c.strike m) h1 fun p hp m hm => by
    obtain ⟨t, ds, de, dp, s, g1, g2, g3, g4, -, rfl⟩ := market_ok.1 hm
    have ho : 0 ≤ optionValue c.kind c.strike ⟨t, dp, (ds / de - 1) / t, capletTotalVariance c.style
        (s + v * (1 / 10000)) (yf365 c.valuation p.start) (yf365 c.valuation p.fin)⟩ := by
      unfold optionValue
      cases c.kind
      · exact (le_max_right _ _).trans C46_intrinsic.1
      · exact (le_max_right _ _).trans C46_intrinsic.2
    rw [hb]
    simp only [Direction.sign, one_mul]
    exact mul_nonneg (mul_nonneg (mul_nonneg hN (hy p hp t g1)) (shifted_pos g4).le) ho
  simpa using this

/-- C43: flipping the side flips the value. -/
theorem C43_flip : c.flip.pv cv vs r v = (fun x => -x) <$> c.pv cv vs r v := by
  unfold CapFloor.pv
  rw [addCaplets_eq, addCaplets_eq,
    marketList_congr (c := c) (c' := c.flip) cv vs r v rfl rfl rfl rfl,
    show c.flip.schedule = c.schedule from rfl]
  rcases marketList c cv vs r v c.schedule with ms | e | _
  · simp only [map_ok, zero_add, ok.injEq]
    rw [sum_map_neg']
    congr 1
    refine List.map_congr_left fun m _ => ?_
    rw [show c.flip.direction = c.direction.flip from rfl, sign_flip]
    simp only [CapFloor.flip]
    ring
  · rfl
  · rfl

/-- C43: the value of a long cap or floor is non-decreasing in the volatilities: a surface
whose volatilities (after the parallel shifts) are nowhere lower gives no lower value. -/
theorem C43_monotone_vol {vs' : List CapletPillar} {v' : ℝ} (hb : c.direction = .buy)
    (hN : 0 ≤ c.notional) (hc : c.pv cv vs r v = .ok x) (hc' : c.pv cv vs' r v' = .ok y)
    (hy : ∀ p ∈ c.schedule, ∀ t, c.yearFraction p.start p.fin = .ok t → 0 ≤ t)
    (hv : ∀ p ∈ c.schedule, ∀ s s', capletVolatility vs p.start c.strike = .ok s →
      capletVolatility vs' p.start c.strike = .ok s' →
      0 ≤ s + v * (1 / 10000) ∧ s + v * (1 / 10000) ≤ s' + v' * (1 / 10000)) : x ≤ y := by
  obtain ⟨ms, h1, rfl⟩ := pv_ok.1 hc
  obtain ⟨ms', h2, rfl⟩ := pv_ok.1 hc'
  refine forall2_sum_le2 h1 h2 fun p hp m m' hm hm' => ?_
  obtain ⟨t, ds, de, dp, s, g1, g2, g3, g4, g5, rfl⟩ := market_ok.1 hm
  obtain ⟨t', ds', de', dp', s', g1', g2', g3', g4', g5', rfl⟩ := market_ok.1 hm'
  rw [g1] at g1'
  rw [g2] at g2'
  rw [g3] at g3'
  rw [g4] at g4'
  obtain rfl := ok.inj g1'
  obtain rfl := ok.inj g2'
  obtain rfl := ok.inj g3'
  obtain rfl := ok.inj g4'
  obtain ⟨hv0, hv1⟩ := hv p hp s s' g5 g5'
  rw [hb]
  simp only [Direction.sign, one_mul]
  refine mul_le_mul_of_nonneg_left ?_ (mul_nonneg (mul_nonneg hN (hy p hp t g1)) (shifted_pos g4).le)
  have hV := C44_monotone_sigma c.style (yf365 c.valuation p.start) (yf365 c.valuation p.fin) hv0 hv1
  unfold optionValue
  cases c.kind
  · exact (C46_monotone hV).1
  · exact (C46_monotone hV).2

/-- C43: hence the vega of a long deal is non-negative. -/
theorem C43_vega_nonneg {vol : ℝ} (hb : c.direction = .buy) (hN : 0 ≤ c.notional) (h0 : 0 ≤ vol)
    (h : c.vega cv (some vs) vol = .ok x)
    (hy : ∀ p ∈ c.schedule, ∀ t, c.yearFraction p.start p.fin = .ok t → 0 ≤ t)
    (hv : ∀ p ∈ c.schedule, ∀ s, capletVolatility vs p.start c.strike = .ok s → 0 ≤ s) : 0 ≤ x := by
  unfold CapFloor.vega unpackSurface at h
  simp only [ok_bind, bind_eq_ok, ok.injEq] at h
  obtain ⟨a, ha, b, hb', rfl⟩ := h
  have := C43_monotone_vol hb hN ha hb' hy fun p hp s s' g g' => by
    rw [g] at g'
    obtain rfl := ok.inj g'
    have := hv p hp s g
    constructor <;> linarith
  linarith

/-- C43: `mtm` is the unshifted value; without a volatility surface it is refused; `dv01`
and `gamma` are differences of values on bumped curves. -/
theorem C43_mtm : c.mtm cv (some vs) = (fun x => ⟨c.currency, x⟩) <$> c.pv cv vs 0 0 ∧
    c.mtm cv none = .fail .invalidData := by
  refine ⟨?_, rfl⟩
  unfold CapFloor.mtm
  rw [unpack_some, ok_bind]
  rcases c.pv cv vs 0 0 with x | e | _ <;> rfl

/-- C43: shifting the rates is revaluing on the bumped curve. -/
theorem C43_shift (hnd : (cv.pillars.map Pillar.date).Nodup) :
    c.pv cv vs r v = c.pv (bumped cv r) vs 0 v := by
  refine pv_congr (fun d => ?_) c vs v
  rw [C38_shift_eq_bump cv r d hnd, C38_zero_shift]

/-- C43: `dv01` is the change of value when the curve is raised by one basis point. -/
theorem C43_dv01 (hnd : (cv.pillars.map Pillar.date).Nodup)
    (h0 : c.pv cv vs 0 0 = .ok x) (h1 : c.pv (bumped cv 1) vs 0 0 = .ok y) :
    c.dv01 cv (some vs) = .ok (y - x) := by
  unfold CapFloor.dv01
  rw [unpack_some, ok_bind, C43_shift (r := 1) hnd, h1]
  simp only [ok_bind, h0]

/-- C43: `gamma` is the second difference, other shift modes are refused. -/
theorem C43_gamma {z bp : ℝ} (hnd : (cv.pillars.map Pillar.date).Nodup)
    (h0 : c.pv cv vs 0 0 = .ok x) (hu : c.pv (bumped cv bp) vs 0 0 = .ok y)
    (hd : c.pv (bumped cv (-bp)) vs 0 0 = .ok z) {mode : RateShiftMode} :
    c.gamma cv (some vs) bp mode = if mode = .zeros then .ok ((y - x) - (x - z)) else .fail .invalidData := by
  cases mode
  · simp only [if_true]
    unfold CapFloor.gamma
    dsimp only
    rw [unpack_some, ok_bind, C43_shift (r := bp) hnd, C43_shift (r := -bp) hnd, hu, hd]
    simp only [ok_bind, h0, ok.injEq]
    ring
  all_goals simp [CapFloor.gamma]

/-! ### Example -/

/-- A flat volatility surface. -/
noncomputable def flatSurface (sigma : ℝ) : List CapletPillar := [⟨1000, [(0, sigma)]⟩]

theorem flatSurface_vol (sigma : ℝ) (d : Int) (k : ℝ) :
    capletVolatility (flatSurface sigma) d k = .ok sigma := by
  unfold capletVolatility flatSurface pickPillar
  by_cases h : d ≤ 1000
  · simp [List.find?_cons, h, interpolateNodes]
  · simp [List.find?_cons, h, interpolateNodes]

/-- A long cap over the two periods of C42's example. -/
noncomputable def sampleCap : CapFloor where
  direction := .buy
  kind := .cap
  style := .backwardCompounded
  currency := .usd
  notional := 1000
  strike := 2 / 100
  valuation := 0
  schedule := twoPeriods
  yearFraction := fun a b => .ok (yf365 a b)

/-- Non-vacuity of C43: the sample cap and floor have values, are non-negative, and their
difference is the forward swap. -/
example : ∃ (D : Int → ℝ) (x y : ℝ),
    (sampleCap.withKind .cap).pv sampleCurve (flatSurface (1 / 100)) 0 0 = .ok x ∧
    (sampleCap.withKind .floor).pv sampleCurve (flatSurface (1 / 100)) 0 0 = .ok y ∧
    0 ≤ x ∧ 0 ≤ y ∧
    x - y = 1 * 1000 * (D 0 - D 40 - 2 / 100 * annuity yf365 D twoPeriods) := by
  obtain ⟨D, hD⟩ := sampleCurve_discounts
  have hd : ∀ q ∈ twoPeriods, sampleCurve.shiftedDiscount q.start 0 = .ok (D q.start) ∧
      sampleCurve.shiftedDiscount q.fin 0 = .ok (D q.fin) ∧
      sampleCurve.shiftedDiscount q.pay 0 = .ok (D q.pay) := by
    intro q hq
    simp only [C38_zero_shift]
    simp only [twoPeriods, List.mem_cons, List.not_mem_nil, or_false] at hq
    rcases hq with rfl | rfl <;>
      exact ⟨(hD _ (by decide)).1, (hD _ (by decide)).1, (hD _ (by decide)).1⟩
  have hex : ∃ x, (sampleCap.withKind .cap).pv sampleCurve (flatSurface (1 / 100)) 0 0 = .ok x := by
    have h1 := hd ⟨0, 20, 20, 0, 0, 1000⟩ (by simp [twoPeriods])
    have h2 := hd ⟨20, 40, 40, 20, 0, 1000⟩ (by simp [twoPeriods])
    exact ⟨_, pv_ok.2 ⟨_, List.Forall₂.cons (market_ok.2 ⟨_, _, _, _, _, rfl, h1.1, h1.2.1, h1.2.2,
      flatSurface_vol _ _ _, rfl⟩) (List.Forall₂.cons (market_ok.2 ⟨_, _, _, _, _, rfl, h2.1, h2.2.1,
      h2.2.2, flatSurface_vol _ _ _, rfl⟩) List.Forall₂.nil), rfl⟩⟩
  obtain ⟨x, hx⟩ := hex
  obtain ⟨y, hy⟩ := C43_same_failures ⟨x, hx⟩
  have hpos : ∀ p ∈ twoPeriods, 0 < yf365 p.start p.fin := by
    intro q hq
    simp only [twoPeriods, List.mem_cons, List.not_mem_nil, or_false] at hq
    rcases hq with rfl | rfl <;> norm_num [yf365]
  have hnn : ∀ k, ∀ p ∈ (sampleCap.withKind k).schedule, ∀ t,
      (sampleCap.withKind k).yearFraction p.start p.fin = .ok t → 0 ≤ t := by
    intro k p hp t ht
    have : t = yf365 p.start p.fin := (ok.inj ht).symm
    rw [this]
    exact (hpos p hp).le
  refine ⟨D, x, y, hx, hy, C43_nonneg rfl (by norm_num [sampleCap, CapFloor.withKind]) hx (hnn _),
    C43_nonneg rfl (by norm_num [sampleCap, CapFloor.withKind]) hy (hnn _), ?_⟩
  exact C43_parity_swap (c := sampleCap) (tau := yf365) (last := ⟨20, 40, 40, 20, 0, 1000⟩) rfl rfl
    (by simp [Contiguous]) (fun q hq => ⟨by revert q; simp, (hpos q hq).ne'⟩) hx hy
    (fun p _ => rfl) hd

end Verif
