import Verif.Props.YfToDate
import Verif.Props.DayCount

/-! # C75 for the 30/360 counters

The 30/360 counters run at a nearly constant speed: over any range of dates the days of the
calendar and 365.25/360 times the count differ by a bounded number of days.  The date obtained from
the year fraction of a date is therefore close to it, and never more than two days away. -/

namespace Verif
open Outcome

/-! ## The count of an end date -/

/-- Counted from a fixed date, every variant is the plain position of the end date up to a
correction: nothing on most days, one day less on some 31sts, up to two days more at the end of
February. -/
theorem thirty_end (m : ThirtyMarket) (ref : Int) :
    ∃ c : Int, ∀ x, ∃ δ : Int, thirty360 m ref x = plainIndex x + δ - c ∧
      (δ = 0 ∨ (dayOf x = 31 ∧ δ = -1) ∨
        (monthOf x = 2 ∧ 28 ≤ dayOf x ∧ 0 ≤ δ ∧ dayOf x + δ ≤ 30)) := by
  have b1 := dayOf_le_31 ref
  have l1 := leap_cases (yearOf ref)
  have key : ∀ x, isLastOfFeb x = true → monthOf x = 2 ∧ 28 ≤ dayOf x ∧ dayOf x ≤ 29 := by
    intro x
    have := leap_cases (yearOf x)
    simp only [isLastOfFeb, Bool.and_eq_true, beq_iff_eq]; omega
  have f1 := key ref
  have go : ∀ (A : Int → Int) (k : Int), (∀ x, A x - plainIndex x + k = 0 ∨
      (dayOf x = 31 ∧ A x - plainIndex x + k = -1) ∨
      (monthOf x = 2 ∧ 28 ≤ dayOf x ∧ 0 ≤ A x - plainIndex x + k ∧
        dayOf x + (A x - plainIndex x + k) ≤ 30)) →
      ∃ c : Int, ∀ x, ∃ δ : Int, A x = plainIndex x + δ - c ∧
      (δ = 0 ∨ (dayOf x = 31 ∧ δ = -1) ∨
        (monthOf x = 2 ∧ 28 ≤ dayOf x ∧ 0 ≤ δ ∧ dayOf x + δ ≤ 30)) :=
    fun A k h => ⟨k, fun x => ⟨A x - plainIndex x + k, by ring, h x⟩⟩
  have d2 : ∀ x, 1 ≤ dayOf x ∧ dayOf x ≤ 31 := dayOf_le_31
  cases m with
  | usa =>
    refine go _ (360 * yearOf ref + 30 * monthOf ref +
      (if isLastOfFeb ref then 30 else min (dayOf ref) 30)) fun x => ?_
    have := d2 x; have f2 := key x
    rcases Bool.eq_false_or_eq_true (isLastOfFeb ref) with e1 | e1 <;>
    rcases Bool.eq_false_or_eq_true (isLastOfFeb x) with e2 | e2 <;>
    simp only [e1, e2, Bool.false_eq_true, false_implies, true_implies] at f1 f2 <;>
    simp only [thirty360, thirtyUS, thirtyFormula, plainIndex, e1, e2, Bool.false_eq_true,
      if_false, if_true] <;> omega
  | european =>
    refine go _ (360 * yearOf ref + 30 * monthOf ref + min (dayOf ref) 30) fun x => ?_
    have := d2 x
    simp only [thirty360, thirtyEU, thirtyFormula, plainIndex]
    omega
  | isma =>
    refine go _ (360 * yearOf ref + 30 * monthOf ref + min (dayOf ref) 30) fun x => ?_
    have := d2 x
    simp only [thirty360, thirtyISMA, thirtyFormula, plainIndex]
    omega
  | nasd =>
    refine go _ (360 * yearOf ref + 30 * monthOf ref + min (dayOf ref) 30) fun x => ?_
    have := d2 x
    simp only [thirty360, thirtyNASD, thirtyFormula, plainIndex]
    omega
  | italian =>
    refine go _ (360 * yearOf ref + 30 * monthOf ref +
      (if monthOf ref = 2 ∧ 28 ≤ dayOf ref then 30 else min (dayOf ref) 30)) fun x => ?_
    have := d2 x
    have hf : ∀ y, monthOf y = 2 → dayOf y ≤ 29 := fun y hy => by
      have := (dayOf_bounds y).2
      have := leap_cases (yearOf y)
      rw [hy] at *
      unfold monthLen at *
      omega
    have := hf x
    simp only [thirty360, thirtyItaly, thirtyFormula, plainIndex]
    omega
  | isda t =>
    refine go _ (360 * yearOf ref + 30 * monthOf ref +
      (if isLastOfFeb ref then 30 else min (dayOf ref) 30)) fun x => ?_
    have := d2 x; have f2 := key x
    rcases Bool.eq_false_or_eq_true (isLastOfFeb ref) with e1 | e1 <;>
    rcases Bool.eq_false_or_eq_true (isLastOfFeb x) with e2 | e2 <;>
    simp only [e1, e2, Bool.false_eq_true, false_implies, true_implies] at f1 f2 <;>
    simp only [thirty360, thirtyISDA, thirtyFormula, plainIndex, e1, e2, Bool.false_eq_true,
      if_false, if_true, and_false, and_true] <;> omega
  | german t =>
    refine go _ (360 * yearOf ref + 30 * monthOf ref +
      (if isLastOfFeb ref then 30 else min (dayOf ref) 30)) fun x => ?_
    have := d2 x; have f2 := key x
    rcases Bool.eq_false_or_eq_true (isLastOfFeb ref) with e1 | e1 <;>
    rcases Bool.eq_false_or_eq_true (isLastOfFeb x) with e2 | e2 <;>
    simp only [e1, e2, Bool.false_eq_true, false_implies, true_implies] at f1 f2 <;>
    simp only [thirty360, thirtyISDA, thirtyFormula, plainIndex, e1, e2, Bool.false_eq_true,
      if_false, if_true, and_false, and_true] <;> omega

/-! ## The speed of the count -/

/-- Days of the calendar against the plain position, in the unit of 1/1440 of a day; the century
years make the difference drift. -/
theorem plain_speed (x : Int) :
    ∃ c : Int, c = (yearOf x - 1) / 100 - (yearOf x - 1) / 400 ∧
      525600 + 1440 * c + 41000 ≤ 1461 * plainIndex x - 1440 * x ∧
      1461 * plainIndex x - 1440 * x ≤ 525600 + 1440 * c + 51000 := by
  refine ⟨_, rfl, ?_⟩
  have h := ymd_yearOf x
  have m := monthOf_bounds x
  have d := dayOf_le_31 x
  have l := leap_cases (yearOf x)
  unfold ymd yearStart at h
  unfold plainIndex
  unfold monthStart at h
  constructor <;> omega

/-- A date at most 20 days later is in the same month, or early in the next one. -/
theorem near_next {x y : Int} (h1 : x ≤ y) (h2 : y ≤ x + 20) :
    (yearOf y = yearOf x ∧ monthOf y = monthOf x ∧ dayOf y = dayOf x + (y - x)) ∨
    (12 * yearOf y + monthOf y = 12 * yearOf x + monthOf x + 1 ∧ dayOf y ≤ 20 ∧
      dayOf y + monthLen (yearOf x) (monthOf x) = dayOf x + (y - x)) := by
  have hx := ymd_yearOf x
  have m := monthOf_bounds x
  have d := dayOf_bounds x
  have len := monthLen_pos (yearOf x) (monthOf x)
  by_cases hc : dayOf x + (y - x) ≤ monthLen (yearOf x) (monthOf x)
  · left
    have hy : y = ymd (yearOf x) (monthOf x) (dayOf x + (y - x)) := by unfold ymd at hx ⊢; omega
    have a := yearOf_ymd m.1 m.2 (by omega) hc
    have b := monthOf_ymd m.1 m.2 (by omega) hc
    have c := dayOf_ymd m.1 m.2 (by omega) hc
    rw [← hy] at a b c
    exact ⟨a, b, c⟩
  · right
    have s := monthStart_succ (yearOf x) (monthOf x) m.1 m.2
    have e : ∃ Y M, 1 ≤ M ∧ M ≤ 12 ∧ 12 * Y + M = 12 * yearOf x + monthOf x + 1 ∧
        y = ymd Y M (dayOf x + (y - x) - monthLen (yearOf x) (monthOf x)) := by
      rcases eq_or_lt_of_le m.2 with h12 | h12
      · refine ⟨yearOf x + 1, 1, le_refl _, by omega, by omega, ?_⟩
        have s13 : monthStart (leap (yearOf x)) (12 + 1) = 365 + leap (yearOf x) := by
          simp [monthStart]
        rw [h12] at s hx ⊢
        have s0 : monthStart (leap (yearOf x + 1)) 1 = 0 := by simp [monthStart]
        unfold ymd at hx ⊢
        rw [yearStart_succ, s0]
        omega
      · refine ⟨yearOf x, monthOf x + 1, by omega, by omega, by omega, ?_⟩
        unfold ymd at hx ⊢
        omega
    obtain ⟨Y, M, hM1, hM2, hI, hy⟩ := e
    have l2 := monthLen_pos Y M
    have hd1 : 1 ≤ dayOf x + (y - x) - monthLen (yearOf x) (monthOf x) := by omega
    have hd2 : dayOf x + (y - x) - monthLen (yearOf x) (monthOf x) ≤ monthLen Y M := by omega
    have a := yearOf_ymd hM1 hM2 hd1 hd2
    have b := monthOf_ymd hM1 hM2 hd1 hd2
    have c := dayOf_ymd hM1 hM2 hd1 hd2
    rw [← hy] at a b c
    omega

/-- Between dates at most 20 days apart the count, in calendar days, is off by less than two and a
half days. -/
theorem thirty_local (m : ThirtyMarket) (ref : Int) {x y : Int} (h : |y - x| ≤ 20) :
    |1461 * (thirty360 m ref y - thirty360 m ref x) - 1440 * (y - x)| < 3600 := by
  obtain ⟨c, hc⟩ := thirty_end m ref
  have key : ∀ x y : Int, x ≤ y → y ≤ x + 20 →
      |1461 * (thirty360 m ref y - thirty360 m ref x) - 1440 * (y - x)| < 3600 := by
    intro x y h1 h2
    obtain ⟨δ, e1, g1⟩ := hc x
    obtain ⟨ε, e2, g2⟩ := hc y
    have dx := dayOf_bounds x
    have lx := leap_cases (yearOf x)
    have dy := dayOf_bounds y
    have ly := leap_cases (yearOf y)
    rw [e1, e2, abs_lt]
    unfold monthLen at dx dy
    rcases near_next h1 h2 with ⟨a, b, d⟩ | ⟨a, b, d⟩
    · rw [a, b] at dy
      rw [b] at g2
      unfold plainIndex
      rw [a, b]
      omega
    · unfold monthLen at d
      unfold plainIndex
      have mx := monthOf_bounds x
      have my := monthOf_bounds y
      split_ifs at d dx <;> omega
  rw [abs_le] at h
  rcases le_total x y with hxy | hxy
  · exact key x y hxy (by omega)
  · have := key y x hxy (by omega)
    rw [abs_lt] at this ⊢
    omega

/-- Over a thousand years the count, in calendar days, is off by at most 19 days. -/
theorem thirty_global (m : ThirtyMarket) {ref d : Int} (h : |d - ref| ≤ 365000) :
    |1461 * thirty360 m ref d - 1440 * (d - ref)| ≤ 1440 * 19 := by
  have b := C25_bounds m ref d
  obtain ⟨c, hc, h1, h2⟩ := plain_speed ref
  obtain ⟨c', hc', h3, h4⟩ := plain_speed d
  have hy : |yearOf d - yearOf ref| ≤ 1001 := by
    have s := yearOf_spec ref
    have s' := yearOf_spec d
    rw [abs_le] at h ⊢
    unfold yearStart at s s'
    omega
  rw [abs_le] at *
  omega

/-! ## The theorems -/

/-- For every 30/360 variant the date obtained from the year fraction of a date is at most two days
from that date, however many of a thousand years the two dates are apart. -/
theorem C75_thirty360 (m : ThirtyMarket) {ref d : Int}
    (h1 : minDay + 30 ≤ d) (h2 : d ≤ maxDay - 30) (h : |d - ref| ≤ 365000) :
    ∃ t r, DayCounter.yearFraction (.thirty360 m) ref d = .ok t ∧
      yearFractionToDate (.thirty360 m) ref t = .ok r ∧ |r - d| ≤ 2 := by
  have hmin : (-100000000 : Int) ≤ minDay := by decide +kernel
  have hmax : maxDay ≤ (100000000 : Int) := by decide +kernel
  have q1 : maxDurDays = 106751991167 := rfl
  have g := thirty_global m h
  set n := thirty360 m ref d with hn
  have e1 : ((n : ℚ) / 360) * (1461 / 4) = ((1461 * n : Int) : ℚ) / 1440 := by push_cast; ring
  have r1 := roundAway_near (((1461 * n : Int) : ℚ) / 1440)
  generalize hk : roundAway (((1461 * n : Int) : ℚ) / 1440) = k at r1
  have hk' : |1440 * k - 1461 * n| ≤ 720 := by
    rw [abs_le] at r1 ⊢
    have a : (-720 : ℚ) ≤ 1440 * k - ((1461 * n : Int) : ℚ) := by linarith [r1.1]
    have b : 1440 * k - ((1461 * n : Int) : ℚ) ≤ 720 := by linarith [r1.2]
    exact ⟨by exact_mod_cast a, by exact_mod_cast b⟩
  have near : |d - (ref + k)| ≤ 20 := by
    rw [abs_le] at hk' g ⊢
    omega
  have loc := thirty_local m ref near
  rw [← hn] at loc
  set n' := thirty360 m ref (ref + k) with hn'
  have e2 : ((n : ℚ) / 360 - (n' : ℚ) / 360) * (1461 / 4) = ((1461 * (n - n') : Int) : ℚ) / 1440 := by
    push_cast; ring
  have r2 := roundAway_near (((1461 * (n - n') : Int) : ℚ) / 1440)
  generalize hj : roundAway (((1461 * (n - n') : Int) : ℚ) / 1440) = j at r2
  have hj' : |1440 * j - 1461 * (n - n')| ≤ 720 := by
    rw [abs_le] at r2 ⊢
    have a : (-720 : ℚ) ≤ 1440 * j - ((1461 * (n - n') : Int) : ℚ) := by linarith [r2.1]
    have b : 1440 * j - ((1461 * (n - n') : Int) : ℚ) ≤ 720 := by linarith [r2.2]
    exact ⟨by exact_mod_cast a, by exact_mod_cast b⟩
  have fin : |ref + k + j - d| ≤ 2 := by
    rw [abs_le] at hj' ⊢
    rw [abs_lt] at loc
    omega
  refine ⟨(n : ℚ) / 360, ref + k + j, rfl, ?_, fin⟩
  rw [abs_le] at near fin h
  unfold yearFractionToDate
  rw [e1, hk, addPeriod_days_ok (by omega) (by unfold Valid; omega), ok_bind]
  change addPeriod (ref + k) (.days (roundAway (((n : ℚ) / 360 - (n' : ℚ) / 360) * (1461 / 4)))) = _
  rw [e2, hj, addPeriod_days_ok (by omega) (by unfold Valid; omega)]

/-- A five-year point, which comes back exactly. -/
example : minDay + 30 ≤ ymd 2028 11 4 ∧ ymd 2028 11 4 ≤ maxDay - 30 ∧
    |ymd 2028 11 4 - ymd 2023 11 4| ≤ 365000 ∧
    DayCounter.yearFraction (.thirty360 .usa) (ymd 2023 11 4) (ymd 2028 11 4) = .ok 5 ∧
    yearFractionToDate (.thirty360 .usa) (ymd 2023 11 4) 5 = .ok (ymd 2028 11 4) := by
  decide +kernel

/-- Two days are reached: in every variant but the three that move the end of February, the year
fraction of 1 March 2025 counted from 21 March 2022 leads to 3 March. -/
theorem C75_thirty360_two_days : ∀ m ∈ [ThirtyMarket.usa, .european, .isma, .nasd],
    ∃ t, DayCounter.yearFraction (.thirty360 m) (ymd 2022 3 21) (ymd 2025 3 1) = .ok t ∧
      yearFractionToDate (.thirty360 m) (ymd 2022 3 21) t = .ok (ymd 2025 3 3) := by
  intro m hm
  refine ⟨106 / 36, ?_⟩
  revert m
  decide +kernel

/-- The round trip already fails after one month: by the bond rule the year fraction from 1 January
to 1 February 2021 leads to 31 January. -/
theorem C75_thirty360_false :
    DayCounter.yearFraction (.thirty360 .usa) (ymd 2021 1 1) (ymd 2021 2 1) = .ok (1 / 12) ∧
    yearFractionToDate (.thirty360 .usa) (ymd 2021 1 1) (1 / 12) = .ok (ymd 2021 1 31) := by
  decide +kernel

/-- Thirty/365: ten years come back one day early, thirty years three days. -/
theorem C75_thirty365_false :
    DayCounter.yearFraction .thirty365 (ymd 2023 11 4) (ymd 2033 11 4) = .ok (720 / 73) ∧
    yearFractionToDate .thirty365 (ymd 2023 11 4) (720 / 73) = .ok (ymd 2033 11 3) ∧
    DayCounter.yearFraction .thirty365 (ymd 2023 11 4) (ymd 2053 11 4) = .ok (2160 / 73) ∧
    yearFractionToDate .thirty365 (ymd 2023 11 4) (2160 / 73) = .ok (ymd 2053 11 1) := by
  decide +kernel

/-- Business/252: the year fraction of three months leads to a date before the reference date.  The
count runs to the end date once per month (C28), so the correction overshoots. -/
theorem C75_business252_false :
    DayCounter.yearFraction (.business252 weekendsOnly) (ymd 2023 11 6) (ymd 2024 2 6)
      = .ok (13 / 36) ∧
    yearFractionToDate (.business252 weekendsOnly) (ymd 2023 11 6) (13 / 36)
      = .ok (ymd 2023 10 28) := by
  decide +kernel

end Verif
