import Verif.Props.Swap

/-!
# C41-C42: values of interest-rate swaps
-/

namespace Verif

open Outcome

variable {l : SwapLeg} {val : Int} {ps : List SchedPeriod} {cv : Curve}

/-! ## C41: structure of the value -/

/-- C41: the value of two groups of legs together is the sum of their values (and fails,
or panics, exactly as the first of them does). -/
theorem C41_additive (ls ms : List SwapLeg) :
    (Swap.mk (ls ++ ms)).npv val cv =
      ((Swap.mk ls).npv val cv >>= fun a => (Swap.mk ms).npv val cv >>= fun b => .ok (a + b)) :=
  npv_append val cv ls ms

/-- C41: the value of a swap is the sum of the values of its legs. -/
theorem C41_sum (ls : List SwapLeg) (f : SwapLeg → ℝ)
    (h : ∀ l ∈ ls, (Swap.mk [l]).npv val cv = .ok (f l)) :
    (Swap.mk ls).npv val cv = .ok (ls.map f).sum := by
  induction ls with
  | nil => rfl
  | cons l ls ih =>
    rw [← List.singleton_append, npv_append, h l (by simp),
      ih fun m hm => h m (List.mem_cons_of_mem _ hm)]
    simp

/-- C41: flipping the direction of every leg flips the value. -/
theorem C41_flip (ls : List SwapLeg) :
    (Swap.mk (ls.map SwapLeg.flip)).npv val cv = (fun v => -v) <$> (Swap.mk ls).npv val cv := by
  have := npvLegs_scale (a := -1) SwapLeg.flip ls (fun l _ => ⟨id, scalesBy_flip l⟩) val cv
  unfold Swap.npv
  rw [this]
  simp

/-- C41: the value is linear in the notional. -/
theorem C41_scale (ls : List SwapLeg) (a : ℝ) :
    (Swap.mk (ls.map (SwapLeg.scale a))).npv val cv = (fun v => a * v) <$> (Swap.mk ls).npv val cv :=
  npvLegs_scale (a := a) (SwapLeg.scale a) ls (fun l _ => ⟨scalePeriod a, scalesBy_scale a l⟩) val cv

/-- C41: the value is affine in the coupon of a fixed leg. -/
theorem C41_coupon {c c' v v' : ℝ} (t : ℝ)
    (h : (Swap.mk [l.withCoupon c]).npv val cv = .ok v)
    (h' : (Swap.mk [l.withCoupon c']).npv val cv = .ok v') :
    (Swap.mk [l.withCoupon ((1 - t) * c + t * c')]).npv val cv = .ok ((1 - t) * v + t * v') := by
  rw [npv_single] at h h' ⊢
  unfold legNpv at h h' ⊢
  rw [generate_withCoupon] at h h' ⊢
  rw [bind_eq_ok] at h h'
  obtain ⟨sch, hs, h⟩ := h
  obtain ⟨sch', hs', h'⟩ := h'
  rw [hs] at hs'
  obtain rfl := ok.inj hs'
  rw [hs, ok_bind]
  rw [bind_eq_ok] at h h'
  obtain ⟨a, ha, h⟩ := h
  obtain ⟨a', ha', h'⟩ := h'
  have key := addCashflows_coupon t ha ha'
  rw [mul_zero, mul_zero, add_zero] at key
  rw [key, ok_bind]
  cases hl : sch.getLast? with
  | none =>
    rw [hl] at h h'
    simp only [ok.injEq] at h h'
    subst h h'
    rfl
  | some last =>
    rw [hl] at h h'
    simp only [bind_eq_ok, ok.injEq] at h h'
    obtain ⟨d, hd, rfl⟩ := h
    obtain ⟨d', hd', rfl⟩ := h'
    rw [hd] at hd'
    obtain rfl := ok.inj hd'
    simp only [hd, ok_bind, ok.injEq]
    rw [show (l.withCoupon c).direction = l.direction from rfl,
      show (l.withCoupon c').direction = l.direction from rfl,
      show (l.withCoupon ((1 - t) * c + t * c')).direction = l.direction from rfl]
    ring

/-- C41: `mtm` reports the value of `npv` in the currency of the first leg (`npv`
additionally evaluates day counts, so these must exist where year fractions do). -/
theorem C41_mtm (ls : List SwapLeg)
    (hd : ∀ l ∈ ls, ∀ a b y, l.yearFraction a b = .ok y → ∃ n, l.dayCount a b = .ok n)
    (v : CurrencyValue) :
    (Swap.mk (l :: ls)).mtm val cv = .ok v → (∀ a b y, l.yearFraction a b = .ok y → ∃ n, l.dayCount a b = .ok n) →
      (Swap.mk (l :: ls)).npv val cv = .ok v.value ∧ v.currency = l.currency := by
  intro h h0
  unfold Swap.mtm at h
  simp only [bind_eq_ok, Swap.currency, ok.injEq] at h
  obtain ⟨pv, hp, _, rfl, rfl⟩ := h
  refine ⟨?_, rfl⟩
  refine (shiftedLegs_zero val cv (l :: ls) ?_).1 hp
  intro m hm
  rcases List.mem_cons.1 hm with rfl | hm
  · exact h0
  · exact hd m hm

/-- C41: conversely a swap with an `npv` has that `mtm`. -/
theorem C41_npv (ls : List SwapLeg) {v : ℝ} (h : (Swap.mk (l :: ls)).npv val cv = .ok v) :
    (Swap.mk (l :: ls)).mtm val cv = .ok ⟨l.currency, v⟩ := by
  unfold Swap.mtm
  rw [show (Swap.mk (l :: ls)).pvUnderShift val cv 0 = .ok v from npvLegs_shifted h]
  rfl

/-- C41: the value under a shift is the value on the curve with every pillar's zero rate
raised by the shift. -/
theorem C41_shift (s : Swap) (bp : ℝ) (hnd : (cv.pillars.map Pillar.date).Nodup) :
    s.pvUnderShift val cv bp = s.pvUnderShift val (bumped cv bp) 0 := by
  refine pvUnderShift_congr (fun d => ?_) s val
  rw [C38_shift_eq_bump cv bp d hnd, C38_zero_shift]

/-- C41: `dv01` is the change of `npv` when the curve is raised by one basis point. -/
theorem C41_dv01 (ls : List SwapLeg) {v v1 : ℝ} (hnd : (cv.pillars.map Pillar.date).Nodup)
    (h0 : (Swap.mk ls).npv val cv = .ok v) (h1 : (Swap.mk ls).npv val (bumped cv 1) = .ok v1) :
    (Swap.mk ls).dv01 val cv = .ok (v1 - v) := by
  unfold Swap.dv01
  rw [C41_shift _ 1 hnd, show (Swap.mk ls).pvUnderShift val cv 0 = .ok v from npvLegs_shifted h0,
    show (Swap.mk ls).pvUnderShift val (bumped cv 1) 0 = .ok v1 from npvLegs_shifted h1]
  rfl

/-- C41: `gamma` is the second difference of `npv` over curves raised and lowered by the
bump. -/
theorem C41_gamma (ls : List SwapLeg) {v u d bp : ℝ} (hnd : (cv.pillars.map Pillar.date).Nodup)
    (h0 : (Swap.mk ls).npv val cv = .ok v) (hu : (Swap.mk ls).npv val (bumped cv bp) = .ok u)
    (hd : (Swap.mk ls).npv val (bumped cv (-bp)) = .ok d) :
    (Swap.mk ls).gamma val cv bp .zeros = .ok ((u - v) - (v - d)) := by
  unfold Swap.gamma
  rw [C41_shift _ bp hnd, C41_shift _ (-bp) hnd,
    show (Swap.mk ls).pvUnderShift val cv 0 = .ok v from npvLegs_shifted h0,
    show (Swap.mk ls).pvUnderShift val (bumped cv bp) 0 = .ok u from npvLegs_shifted hu,
    show (Swap.mk ls).pvUnderShift val (bumped cv (-bp)) 0 = .ok d from npvLegs_shifted hd]
  simp only [ok_bind, ok.injEq]
  ring

/-- C41: every other shift mode is refused, and vega is zero. -/
theorem C41_gamma_modes (s : Swap) (bp : ℝ) {mode : RateShiftMode} (h : mode ≠ .zeros) :
    s.gamma val cv bp mode = .fail .invalidData ∧ s.vega val cv bp = .ok 0 := by
  cases mode
  · exact absurd rfl h
  all_goals exact ⟨rfl, rfl⟩

/-! ## C42: the floating leg and the par coupon -/

/-- C42: a floating leg without spread, paid at the end of each of its contiguous periods,
is worth its notional times the discount factor at its start. -/
theorem C42_float {N : ℝ} {D : Int → ℝ} {p : SchedPeriod} (hk : l.kind = .float 0)
    (hs : l.generateSchedule val = .ok (p :: ps)) (hc : Contiguous (p :: ps))
    (hp : ∀ q ∈ p :: ps, q.pay = q.fin ∧ q.balance = N)
    (hy : ∀ q ∈ p :: ps, (∃ n, l.dayCount q.start q.fin = .ok n) ∧
      ∃ y, y ≠ 0 ∧ l.yearFraction q.start q.fin = .ok y)
    (hD : ∀ q ∈ p :: ps, cv.discount q.start = .ok (D q.start) ∧ cv.discount q.fin = .ok (D q.fin)) :
    (Swap.mk [l]).npv val cv = .ok (l.direction.sign * (N * D p.start)) := by
  obtain ⟨last, hl⟩ : ∃ last, (p :: ps).getLast? = some last := ⟨_, List.getLast?_eq_some_getLast (by simp)⟩
  have hm := List.mem_of_getLast? hl
  rw [npv_single, legNpv, hs]
  simp only [ok_bind]
  rw [float_telescopes hk hc hp hy hD hl, ok_bind, hl]
  dsimp only
  rw [(hp last hm).1, (hD last hm).2, (hp last hm).2]
  simp only [ok_bind, ok.injEq]
  ring

/-- C42: in particular for a generated schedule with no pay delay, on business-day ends. -/
theorem C42_float_generated {D : Int → ℝ} {p : SchedPeriod} {k : Nat} (hk : l.kind = .float 0)
    (he : l.schedule = []) (hs : l.generateSchedule val = .ok (p :: ps)) (hd : l.payDelay = 0)
    (hf : couponMonths l.frequency = some k) (heom : l.index.endOfMonth = false)
    (h1 : l.convention ≠ .unadjusted) (h2 : l.convention ≠ .nearest)
    (hv : ∀ q ∈ p :: ps, Valid q.fin)
    (hy : ∀ q ∈ p :: ps, (∃ n, l.dayCount q.start q.fin = .ok n) ∧
      ∃ y, y ≠ 0 ∧ l.yearFraction q.start q.fin = .ok y)
    (hD : ∀ q ∈ p :: ps, cv.discount q.start = .ok (D q.start) ∧ cv.discount q.fin = .ok (D q.fin)) :
    ∃ eff, l.effectiveDate val = .ok eff ∧
      (Swap.mk [l]).npv val cv = .ok (l.direction.sign * (l.notional * D eff)) := by
  obtain ⟨eff, g1, g2, g3, g4⟩ := C40_contiguous he hs
  refine ⟨eff, g1, ?_⟩
  rw [← g2 p rfl]
  refine C42_float hk hs g3 (fun q hq => ⟨?_, g4 q hq⟩) hy hD
  obtain ⟨i, hi⟩ := List.mem_iff_getElem?.1 hq
  exact C40_pay_zero he hs hq (hv q hq) hd (C40_end_open he hs hf heom h1 h2 hi)

/-- C42: a fixed leg on a constant notional is worth coupon times annuity plus the
repayment of the notional at the last pay date. -/
theorem C42_fixed {c N : ℝ} {D : Int → ℝ} {tau : Int → Int → ℝ} {last : SchedPeriod}
    (hs : l.generateSchedule val = .ok ps) (hl : ps.getLast? = some last)
    (hN : ∀ q ∈ ps, q.balance = N)
    (hy : ∀ q ∈ ps, (∃ n, l.dayCount q.start q.fin = .ok n) ∧
      l.yearFraction q.start q.fin = .ok (tau q.start q.fin))
    (hD : ∀ q ∈ ps, cv.discount q.pay = .ok (D q.pay)) :
    (Swap.mk [l.withCoupon c]).npv val cv =
      .ok (l.direction.sign * (N * (c * annuity tau D ps + D last.pay))) := by
  have hm := List.mem_of_getLast? hl
  rw [npv_single, legNpv, generate_withCoupon, hs]
  simp only [ok_bind]
  rw [fixed_annuity hN hy hD, ok_bind, hl]
  dsimp only
  rw [hD last hm, hN last hm]
  simp only [ok_bind, ok.injEq]
  rw [show (l.withCoupon c).direction = l.direction from rfl]
  ring

/-- C42: a fixed leg against a spread-free floating leg on the same schedule (paid at
period ends) is worth nothing exactly when the coupon is `(D(start) - D(end)) / annuity`. -/
theorem C42_par {c N : ℝ} {D : Int → ℝ} {tau : Int → Int → ℝ} {p last : SchedPeriod} {fl : SwapLeg}
    (hk : fl.kind = .float 0) (hdir : fl.direction = l.direction.flip)
    (hs : l.generateSchedule val = .ok (p :: ps)) (hs' : fl.generateSchedule val = .ok (p :: ps))
    (hl : (p :: ps).getLast? = some last) (hc : Contiguous (p :: ps))
    (hp : ∀ q ∈ p :: ps, q.pay = q.fin ∧ q.balance = N)
    (hy : ∀ q ∈ p :: ps, (∃ n, l.dayCount q.start q.fin = .ok n) ∧
      l.yearFraction q.start q.fin = .ok (tau q.start q.fin))
    (hy' : ∀ q ∈ p :: ps, (∃ n, fl.dayCount q.start q.fin = .ok n) ∧
      ∃ y, y ≠ 0 ∧ fl.yearFraction q.start q.fin = .ok y)
    (hD : ∀ q ∈ p :: ps, cv.discount q.start = .ok (D q.start) ∧ cv.discount q.fin = .ok (D q.fin))
    (hN : N ≠ 0) (hA : annuity tau D (p :: ps) ≠ 0) :
    (Swap.mk [l.withCoupon c, fl]).npv val cv = .ok 0 ↔
      c = (D p.start - D last.fin) / annuity tau D (p :: ps) := by
  have e : ([l.withCoupon c, fl] : List SwapLeg) = [l.withCoupon c] ++ [fl] := rfl
  have hm := List.mem_of_getLast? hl
  rw [e, npv_append, C42_fixed hs hl (fun q hq => (hp q hq).2) hy
      (fun q hq => by rw [(hp q hq).1]; exact (hD q hq).2),
    C42_float hk hs' hc hp hy' hD]
  simp only [ok_bind, ok.injEq]
  rw [hdir, sign_flip, (hp last hm).1, eq_div_iff hA]
  have hsg : l.direction.sign ≠ 0 := by cases l.direction <;> simp [Direction.sign]
  constructor
  · intro h
    have : l.direction.sign * N * (c * annuity tau D (p :: ps) + D last.fin - D p.start) = 0 := by
      linear_combination h
    have := (mul_eq_zero.1 this).resolve_left (mul_ne_zero hsg hN)
    linarith
  · intro h
    linear_combination l.direction.sign * N * h

/-! ### Examples -/

/-- Two contiguous periods on a given schedule, paid at their ends. -/
noncomputable def twoPeriods : List SchedPeriod :=
  [⟨0, 20, 20, 0, 0, 1000⟩, ⟨20, 40, 40, 20, 0, 1000⟩]

/-- A leg with that schedule. -/
noncomputable def givenLeg (k : LegKind) (dir : Direction) : SwapLeg :=
  { sampleLeg .monthly (.months 1) (.months 2) with kind := k, direction := dir, schedule := twoPeriods }

theorem givenLeg_sched (k : LegKind) (dir : Direction) (val : Int) :
    (givenLeg k dir).generateSchedule val = .ok twoPeriods := rfl

/-- The discount factors of the sample curve. -/
theorem sampleCurve_discounts : ∃ D : Int → ℝ, ∀ d, Valid (d + 1) →
    sampleCurve.discount d = .ok (D d) ∧ 0 < D d := by
  classical
  refine ⟨fun d => match sampleCurve.discount d with | .ok x => x | _ => 0, fun d hd => ?_⟩
  obtain ⟨x, hx⟩ := (C36_discount_exists (cv := sampleCurve) (d := d)).2 ⟨by simp [sampleCurve], hd⟩
  have e : (match sampleCurve.discount d with | .ok x => x | _ => (0 : ℝ)) = x := by rw [hx]
  dsimp only
  rw [e]
  exact ⟨hx, C36_discount_pos hx⟩

/-- Non-vacuity of C42 (and of the hypotheses of C41): the par coupon of the two-period
swap on the sample curve. -/
example : ∃ (D : Int → ℝ) (c : ℝ), c = (D 0 - D 40) / annuity yf365 D twoPeriods ∧
    (Swap.mk [(givenLeg (.float 0) .sell)]).npv 0 sampleCurve = .ok (-1 * (1000 * D 0)) ∧
    (Swap.mk [(givenLeg (.float 0) .buy).withCoupon c, givenLeg (.float 0) .sell]).npv 0 sampleCurve =
      .ok 0 := by
  obtain ⟨D, hD⟩ := sampleCurve_discounts
  have hc : Contiguous twoPeriods := by simp [Contiguous, twoPeriods]
  have hp : ∀ q ∈ twoPeriods, q.pay = q.fin ∧ q.balance = 1000 := by simp [twoPeriods]
  have hy : ∀ dir, ∀ q ∈ twoPeriods, (∃ n, (givenLeg (.float 0) dir).dayCount q.start q.fin = .ok n) ∧
      (givenLeg (.float 0) dir).yearFraction q.start q.fin = .ok (yf365 q.start q.fin) :=
    fun dir q _ => ⟨⟨_, rfl⟩, rfl⟩
  have hy' : ∀ dir, ∀ q ∈ twoPeriods, (∃ n, (givenLeg (.float 0) dir).dayCount q.start q.fin = .ok n) ∧
      ∃ y, y ≠ 0 ∧ (givenLeg (.float 0) dir).yearFraction q.start q.fin = .ok y := by
    intro dir q hq
    refine ⟨⟨_, rfl⟩, yf365 q.start q.fin, ?_, rfl⟩
    simp only [twoPeriods, List.mem_cons, List.not_mem_nil, or_false] at hq
    rcases hq with rfl | rfl <;> norm_num [yf365]
  have hd : ∀ q ∈ twoPeriods, sampleCurve.discount q.start = .ok (D q.start) ∧
      sampleCurve.discount q.fin = .ok (D q.fin) := by
    intro q hq
    simp only [twoPeriods, List.mem_cons, List.not_mem_nil, or_false] at hq
    rcases hq with rfl | rfl <;> exact ⟨(hD _ (by decide)).1, (hD _ (by decide)).1⟩
  have hA : annuity yf365 D twoPeriods ≠ 0 := by
    have h1 := (hD 20 (by decide)).2
    have h2 := (hD 40 (by decide)).2
    simp only [annuity, twoPeriods, List.map_cons, List.map_nil, List.sum_cons, List.sum_nil, yf365]
    norm_num
    positivity
  refine ⟨D, _, rfl, ?_, ?_⟩
  · exact C42_float (D := D) (N := 1000) rfl (givenLeg_sched _ _ _) hc hp (hy' _) hd
  · exact (C42_par (l := givenLeg (.float 0) .buy) (tau := yf365) (N := 1000) (D := D)
      (last := ⟨20, 40, 40, 20, 0, 1000⟩) rfl rfl (givenLeg_sched _ _ _) (givenLeg_sched _ _ _) rfl hc hp
      (hy _) (hy' _) hd (by norm_num) hA).2 rfl

/-- Non-vacuity of C41: the legs have values, also on the raised curve, and the hypothesis
on day counts holds. -/
example : ∃ v v1, (Swap.mk [givenLeg (.fixed (3 / 100)) .buy]).npv 0 sampleCurve = .ok v ∧
    (Swap.mk [givenLeg (.fixed (3 / 100)) .buy]).npv 0 (bumped sampleCurve 1) = .ok v1 := by
  have key : ∀ cv : Curve, cv.pillars ≠ [] →
      ∃ v, (Swap.mk [givenLeg (.fixed (3 / 100)) .buy]).npv 0 cv = .ok v := by
    intro cv hcv
    obtain ⟨x, hx⟩ := (C36_discount_exists (cv := cv) (d := 20)).2 ⟨hcv, by decide⟩
    obtain ⟨y, hy⟩ := (C36_discount_exists (cv := cv) (d := 40)).2 ⟨hcv, by decide⟩
    refine ⟨_, C42_fixed (l := givenLeg (.fixed (3 / 100)) .buy) (c := 3 / 100) (N := 1000)
      (D := fun d => if d = 20 then x else y) (tau := yf365) (last := ⟨20, 40, 40, 20, 0, 1000⟩)
      (givenLeg_sched _ _ _) rfl (by simp [twoPeriods]) (fun q _ => ⟨⟨_, rfl⟩, rfl⟩) ?_⟩
    intro q hq
    simp only [twoPeriods, List.mem_cons, List.not_mem_nil, or_false] at hq
    rcases hq with rfl | rfl
    · simpa using hx
    · simpa using hy
  obtain ⟨v, hv⟩ := key sampleCurve (by simp [sampleCurve])
  obtain ⟨v1, hv1⟩ := key (bumped sampleCurve 1) (by simp [sampleCurve, bumped])
  exact ⟨v, v1, hv, hv1⟩

end Verif
