import Verif.Lemmas.Swap

/-!
# C40-C42: interest-rate swaps
-/

namespace Verif

open Outcome

variable {l : SwapLeg} {val : Int} {ps : List SchedPeriod}

/-! ## C40: schedules -/

/-- C40: a generated schedule starts at the effective date, its periods are contiguous, and
every period carries the leg's notional. -/
theorem C40_contiguous (he : l.schedule = []) (h : l.generateSchedule val = .ok ps) :
    ∃ eff, l.effectiveDate val = .ok eff ∧ (∀ p, ps.head? = some p → p.start = eff) ∧
      Contiguous ps ∧ ∀ p ∈ ps, p.balance = l.notional := by
  obtain ⟨eff, h1, -, h⟩ := generate_ok he h
  obtain ⟨-, g2, g3, g4⟩ := genPeriods_ok h
  refine ⟨eff, h1, g3, g2, ?_⟩
  intro p hp
  obtain ⟨i, hi⟩ := List.mem_iff_getElem?.1 hp
  obtain ⟨_, _, _, _, _, _, _, _, _, hb⟩ := nthPeriod_ok (g4 i p hi)
  exact hb

/-- C40: the effective date is `settlement_days` business days after the valuation date. -/
theorem C40_effective {eff : Int} (hv : Valid val) (hs : 0 < l.index.settlementDays) :
    l.effectiveDate val = .ok eff ↔
      eff ≤ maxDay ∧ val < eff ∧ l.calendar eff = .ok true ∧
      ClassifiedOn l.calendar (val + 1) eff ∧
      (openCount l.calendar (Finset.Ioc val eff) : Int) = l.index.settlementDays :=
  C09_advance_forward_iff hs _ _ hv

/-- C40 (partial: tenor and duration in the same unit): a leg of `d` units with coupons
every `t` units has `d / t` periods. -/
theorem C40_count_partial {d t : Nat} (he : l.schedule = [])
    (hu : (l.tenor = .months t ∧ l.duration = .months d) ∨ (l.tenor = .years t ∧ l.duration = .years d))
    (h : l.generateSchedule val = .ok ps) : 0 < t ∧ ps.length = d / t := by
  obtain ⟨eff, -, ht, h⟩ := generate_ok he h
  obtain ⟨g1, -⟩ := genPeriods_ok h
  rcases hu with ⟨a, b⟩ | ⟨a, b⟩ <;> rw [a] at ht g1 <;> rw [b] at g1 <;>
    exact ⟨Nat.pos_of_ne_zero ht, g1⟩

/-- C40, monthly-type frequencies: period `i + 1` ends at the effective date plus `i + 1`
coupon periods (day of month clamped), adjusted by the leg's convention; with the index's
end-of-month flag it is then moved to the last business day of that month. -/
theorem C40_end_months {eff : Int} {k i : Nat} {p : SchedPeriod} (he : l.schedule = [])
    (h : l.generateSchedule val = .ok ps) (heff : l.effectiveDate val = .ok eff)
    (hk : couponMonths l.frequency = some k) (hp : ps[i]? = some p) :
    ∃ u a, MonthsLater eff (k * (i + 1)) u ∧ Valid u ∧ adjust l.calendar u l.convention = .ok a ∧
      (if l.index.endOfMonth then endOfMonth l.calendar a else .ok a) = .ok p.fin := by
  obtain ⟨eff', h1, -, h⟩ := generate_ok he h
  rw [heff] at h1
  cases h1
  obtain ⟨-, -, -, g4⟩ := genPeriods_ok h
  obtain ⟨q, m, hq, hm, ha, -⟩ := nthPeriod_ok (g4 i p hp)
  have hu : ∀ {x y}, checkU32 x = .ok y → y = x := by
    intro x y h; unfold checkU32 at h; split at h <;> simp at h; exact h.symm
  have key : ∀ c : Nat, m = .months c → c = k * (i + 1) →
      ∃ u a, MonthsLater eff (k * (i + 1)) u ∧ Valid u ∧ adjust l.calendar u l.convention = .ok a ∧
        (if l.index.endOfMonth then endOfMonth l.calendar a else .ok a) = .ok p.fin := by
    intro c hc hck
    subst hc
    simp only [advance, addPeriod, bind_eq_ok] at ha
    obtain ⟨u, hu', a, ha', hf⟩ := ha
    obtain ⟨h1, h2⟩ := addMonths_ok.1 hu'
    refine ⟨u, a, ?_, h2, ha', hf⟩
    rw [hck] at h1
    exact_mod_cast h1
  cases hfr : l.frequency <;> rw [hfr] at hk hq <;>
    simp only [couponMonths, Frequency.period, Option.some.injEq, reduceCtorEq] at hk hq
  case annual =>
    subst hk hq
    simp only [mulPeriod, bind_eq_ok, ok.injEq] at hm
    obtain ⟨c, hc, rfl⟩ := hm
    obtain rfl := hu hc
    simp only [advance, addPeriod, bind_eq_ok] at ha
    obtain ⟨u, ⟨y, hy, hu'⟩, a, ha', hf⟩ := ha
    obtain rfl := hu hy
    obtain ⟨h1, h2⟩ := addMonths_ok.1 hu'
    refine ⟨u, a, ?_, h2, ha', hf⟩
    have e : ((1 * (1 + i) * 12 : Nat) : Int) = ((12 : Nat) : Int) * (i + 1) := by push_cast; ring
    rw [← e]; exact h1
  all_goals
    subst hk hq
    simp only [mulPeriod, bind_eq_ok, ok.injEq] at hm
    obtain ⟨c, hc, rfl⟩ := hm
    exact key c rfl (by rw [hu hc]; ring)

/-- C40, weekly-type frequencies. -/
theorem C40_end_weeks {eff : Int} {w i : Nat} {p : SchedPeriod} (he : l.schedule = [])
    (h : l.generateSchedule val = .ok ps) (heff : l.effectiveDate val = .ok eff)
    (hw : couponWeeks l.frequency = some w) (hp : ps[i]? = some p) :
    Valid (eff + 7 * (w * (i + 1))) ∧
      adjust l.calendar (eff + 7 * (w * (i + 1))) l.convention = .ok p.fin := by
  obtain ⟨eff', h1, -, h⟩ := generate_ok he h
  rw [heff] at h1
  cases h1
  obtain ⟨-, -, -, g4⟩ := genPeriods_ok h
  obtain ⟨q, m, hq, hm, ha, -⟩ := nthPeriod_ok (g4 i p hp)
  cases hfr : l.frequency <;> rw [hfr] at hw hq <;>
    simp only [couponWeeks, Frequency.period, Option.some.injEq, reduceCtorEq] at hw hq
  all_goals
    subst hw hq
    have hm' := (C17_mul_correct _ _ _ hm).2.1 _ rfl
    subst hm'
    simp only [advance, bind_eq_ok] at ha
    obtain ⟨u, hu, ha⟩ := ha
    simp only [addPeriod, bind_eq_ok] at hu
    obtain ⟨a, ha1, b, hb, hu⟩ := hu
    have ea := ha1
    unfold checkI64 at ea
    split at ea <;> simp only [ok.injEq, reduceCtorEq] at ea
    have eb := hb
    unfold tryDays at eb
    split at eb <;> simp only [ok.injEq, reduceCtorEq] at eb
    obtain ⟨rfl, hv⟩ := valid_addDays.1 hu
    rw [← eb, ← ea] at hv ha
    push_cast at hv ha ⊢
    first
      | (rw [show eff + 7 * (4 * ((i : Int) + 1)) = eff + 4 * (1 + i) * 7 by ring]; exact ⟨hv, ha⟩)
      | (rw [show eff + 7 * (2 * ((i : Int) + 1)) = eff + 2 * (1 + i) * 7 by ring]; exact ⟨hv, ha⟩)
      | (rw [show eff + 7 * (1 * ((i : Int) + 1)) = eff + 1 * (1 + i) * 7 by ring]; exact ⟨hv, ha⟩)

/-- C40: without the end-of-month flag, end dates are business days (for every convention
but `Unadjusted` and the defective `Nearest`, see C07). -/
theorem C40_end_open {k i : Nat} {p : SchedPeriod} (he : l.schedule = [])
    (h : l.generateSchedule val = .ok ps) (hk : couponMonths l.frequency = some k)
    (heom : l.index.endOfMonth = false) (h1 : l.convention ≠ .unadjusted)
    (h2 : l.convention ≠ .nearest) (hp : ps[i]? = some p) : l.calendar p.fin = .ok true := by
  obtain ⟨eff, heff, -⟩ := C40_contiguous he h
  obtain ⟨u, a, -, -, ha, hf⟩ := C40_end_months he h heff hk hp
  rw [heom] at hf
  simp only [Bool.false_eq_true, if_false, ok.injEq] at hf
  subst hf
  exact C05_result_open _ h1 h2 ha

/-- C40: a positive pay delay puts the pay date exactly that many business days after the
end of the period. -/
theorem C40_pay {p : SchedPeriod} (he : l.schedule = []) (h : l.generateSchedule val = .ok ps)
    (hp : p ∈ ps) (hv : Valid p.fin) (hd : 0 < l.payDelay) :
    p.fin < p.pay ∧ l.calendar p.pay = .ok true ∧
      (openCount l.calendar (Finset.Ioc p.fin p.pay) : Int) = l.payDelay := by
  obtain ⟨eff, -, -, h⟩ := generate_ok he h
  obtain ⟨-, -, -, g4⟩ := genPeriods_ok h
  obtain ⟨i, hi⟩ := List.mem_iff_getElem?.1 hp
  obtain ⟨_, _, _, _, _, hpay, -⟩ := nthPeriod_ok (g4 i p hi)
  obtain ⟨-, a, b, -, c⟩ := (C09_advance_forward_iff hd _ _ hv).1 hpay
  exact ⟨a, b, c⟩

/-- C40: with no pay delay, a period that ends on a business day is paid that day. -/
theorem C40_pay_zero {p : SchedPeriod} (he : l.schedule = []) (h : l.generateSchedule val = .ok ps)
    (hp : p ∈ ps) (hv : Valid p.fin) (hd : l.payDelay = 0) (ho : l.calendar p.fin = .ok true) :
    p.pay = p.fin := by
  obtain ⟨eff, -, -, h⟩ := generate_ok he h
  obtain ⟨-, -, -, g4⟩ := genPeriods_ok h
  obtain ⟨i, hi⟩ := List.mem_iff_getElem?.1 hp
  obtain ⟨_, _, _, _, _, hpay, -⟩ := nthPeriod_ok (g4 i p hi)
  rw [hd, advance, if_pos rfl, C05_business_day_fixed hv ho] at hpay
  injection hpay with hpay
  exact hpay.symm

/-- C40: the reset date is `days_before_accrual` business days before the accrual start. -/
theorem C40_reset {p : SchedPeriod} (he : l.schedule = []) (h : l.generateSchedule val = .ok ps)
    (hp : p ∈ ps) (hv : Valid p.start) (hd : 0 < l.daysBefore) :
    p.reset < p.start ∧ l.calendar p.reset = .ok true ∧
      (openCount l.calendar (Finset.Ico p.reset p.start) : Int) = l.daysBefore := by
  obtain ⟨eff, -, -, h⟩ := generate_ok he h
  obtain ⟨-, -, -, g4⟩ := genPeriods_ok h
  obtain ⟨i, hi⟩ := List.mem_iff_getElem?.1 hp
  obtain ⟨_, _, _, _, _, _, hr, -⟩ := nthPeriod_ok (g4 i p hi)
  obtain ⟨-, a, b, -, c⟩ := (C09_advance_backward_iff (by omega) _ _ hv).1 hr
  exact ⟨a, b, by omega⟩

/-- C40: a schedule given with the leg is used as it is. -/
theorem C40_given (h : l.schedule ≠ []) : l.generateSchedule val = .ok l.schedule := by
  unfold SwapLeg.generateSchedule
  cases hs : l.schedule with
  | nil => exact absurd hs h
  | cons a b => rfl

/-- A quarterly fixed leg on a weekday calendar, two settlement days, pay delay of two. -/
noncomputable def sampleLeg (frequency : Frequency) (tenor duration : Period) : SwapLeg where
  kind := .fixed (3 / 100)
  direction := .buy
  index := ⟨.months 3, 2, weekendsOnly, .modifiedFollowing, fun a b => .ok (yf365 a b), false⟩
  currency := .usd
  notional := 1000
  frequency := frequency
  tenor := tenor
  duration := duration
  dayCount := fun a b => .ok (b - a)
  yearFraction := fun a b => .ok (yf365 a b)
  calendar := weekendsOnly
  convention := .modifiedFollowing
  payDelay := 2
  daysBefore := 1
  schedule := []

/-- The dates of a schedule. -/
def schedDates (ps : List SchedPeriod) : List (Int × Int × Int × Int) :=
  ps.map fun p => (p.start, p.fin, p.pay, p.reset)

/-- Non-vacuity of C40: two quarters from Thursday 27 June 2024 (effective 1 July).  The
first ends on Tuesday 1 October, the second on Wednesday 1 January (the weekday calendar
knows no New Year). -/
example : schedDates <$> (sampleLeg .quarterly (.months 3) (.months 6)).generateSchedule
      (ymd 2024 6 27) =
    .ok [(ymd 2024 7 1, ymd 2024 10 1, ymd 2024 10 3, ymd 2024 6 28),
      (ymd 2024 10 1, ymd 2025 1 1, ymd 2025 1 3, ymd 2024 9 30)] := by
  decide +kernel

/-- C40 is false across units: a two-year leg with a six-month tenor has no periods at
all (2 / 6 = 0) ... -/
theorem C40_units_false :
    (sampleLeg .semiannual (.months 6) (.years 2)).generateSchedule (ymd 2024 6 27) = .ok [] := by
  unfold SwapLeg.generateSchedule
  have : (sampleLeg .semiannual (.months 6) (.years 2)).effectiveDate (ymd 2024 6 27) =
      .ok (ymd 2024 7 1) := by decide +kernel
  simp only [sampleLeg] at this ⊢
  rw [this]
  rfl

/-- ... and a leg of twelve months with an annual tenor has twelve annual periods. -/
theorem C40_units_years_false :
    (List.length <$> (sampleLeg .annual (.years 1) (.months 12)).generateSchedule (ymd 2024 6 27)) =
      .ok 12 := by
  decide +kernel

/-- A leg whose generated schedule is empty makes `maturity_date` panic. -/
theorem C40_maturity_panic_false :
    (Swap.mk [sampleLeg .semiannual (.months 6) (.years 2)]).maturityDate (ymd 2024 6 27) = .panic := by
  simp only [Swap.maturityDate, lastEnds, C40_units_false, ok_bind, List.getLast?_nil]
  rfl

/-- C40: the maturity of a swap is the latest end of its legs' last periods: no leg ends later, and
some leg ends then. -/
theorem C40_maturity {s : Swap} {d : Int} (hl : s.legs ≠ []) (h : s.maturityDate val = .ok d) :
    (∀ l ∈ s.legs, ∃ ps p, l.generateSchedule val = .ok ps ∧ ps.getLast? = some p ∧ p.fin ≤ d) ∧
    ∃ l ∈ s.legs, ∃ ps p, l.generateSchedule val = .ok ps ∧ ps.getLast? = some p ∧ p.fin = d := by
  have key : ∀ (ls : List SwapLeg) (ends : List Int), lastEnds val ls = .ok ends →
      ends.length = ls.length ∧
      (∀ l ∈ ls, ∃ ps p, l.generateSchedule val = .ok ps ∧ ps.getLast? = some p ∧ p.fin ∈ ends) ∧
      ∀ e ∈ ends, ∃ l ∈ ls, ∃ ps p, l.generateSchedule val = .ok ps ∧ ps.getLast? = some p ∧ p.fin = e := by
    intro ls
    induction ls with
    | nil => intro ends h; simp only [lastEnds, ok.injEq] at h; subst h; simp
    | cons l ls ih =>
      intro ends h
      simp only [lastEnds, bind_eq_ok] at h
      obtain ⟨ps, h1, h2⟩ := h
      cases hg : ps.getLast? with
      | none => rw [hg] at h2; simp at h2
      | some p =>
        rw [hg] at h2
        simp only [bind_eq_ok, ok.injEq] at h2
        obtain ⟨rest, h3, rfl⟩ := h2
        obtain ⟨i0, i1, i2⟩ := ih rest h3
        refine ⟨by simp [i0], ?_, ?_⟩
        · intro x hx
          rcases List.mem_cons.1 hx with rfl | hx
          · exact ⟨ps, p, h1, hg, by simp⟩
          · obtain ⟨a, b, c, d, e⟩ := i1 x hx
            exact ⟨a, b, c, d, List.mem_cons_of_mem _ e⟩
        · intro e he
          rcases List.mem_cons.1 he with rfl | he
          · exact ⟨l, by simp, ps, p, h1, hg, rfl⟩
          · obtain ⟨a, b, c⟩ := i2 e he
            exact ⟨a, List.mem_cons_of_mem _ b, c⟩
  have hmax : ∀ (es : List Int) (e : Int), (∀ x ∈ e :: es, x ≤ es.foldl max e) ∧ es.foldl max e ∈ e :: es := by
    intro es
    induction es with
    | nil => intro e; simp
    | cons a es ih =>
      intro e
      obtain ⟨j1, j2⟩ := ih (max e a)
      simp only [List.foldl_cons]
      refine ⟨?_, ?_⟩
      · intro x hx
        have hm := j1 (max e a) (by simp)
        simp only [List.mem_cons] at hx
        rcases hx with rfl | rfl | hx
        · exact le_trans (le_max_left _ _) hm
        · exact le_trans (le_max_right _ _) hm
        · exact j1 x (List.mem_cons_of_mem _ hx)
      · rcases List.mem_cons.1 j2 with h | h
        · rw [h]
          rcases max_choice e a with hc | hc <;> rw [hc] <;> simp
        · exact List.mem_cons_of_mem _ (List.mem_cons_of_mem _ h)
  unfold Swap.maturityDate at h
  simp only [bind_eq_ok, ok.injEq] at h
  obtain ⟨ends, h1, h2⟩ := h
  obtain ⟨k0, k1, k2⟩ := key _ _ h1
  cases ends with
  | nil =>
    exact absurd (List.length_eq_zero_iff.1 (by simpa using k0.symm)) hl
  | cons e es =>
    dsimp only at h2
    obtain ⟨j1, j2⟩ := hmax es e
    rw [h2] at j1 j2
    refine ⟨?_, k2 d j2⟩
    intro l hl
    obtain ⟨ps, p, a, b, c⟩ := k1 l hl
    exact ⟨ps, p, a, b, j1 _ c⟩

/-- Two legs of different lengths: the maturity is the end of the longer one. -/
example : (Swap.mk [sampleLeg .quarterly (.months 3) (.months 6),
      sampleLeg .quarterly (.months 3) (.months 3)]).maturityDate (ymd 2024 6 27) = .ok (ymd 2025 1 1) := by
  decide +kernel

/-- A tenor of zero panics. -/
theorem C40_zero_tenor_panics {eff : Int} (he : l.schedule = []) (h : l.effectiveDate val = .ok eff)
    (ht : l.tenor = .months 0) : l.generateSchedule val = .panic := by
  unfold SwapLeg.generateSchedule
  rw [he, ht]
  simp only [h, ok_bind, periodNum, if_true]

example : (sampleLeg .monthly (.months 0) (.months 12)).generateSchedule (ymd 2024 6 27) = .panic :=
  C40_zero_tenor_panics (eff := ymd 2024 7 1) rfl (by decide +kernel) rfl

end Verif
