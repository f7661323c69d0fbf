import Verif.Model.DayCount
import Verif.Props.Period
import Mathlib.Tactic.FieldSimp
import Mathlib.Tactic.NormNum
import Mathlib.Tactic.Positivity
import Mathlib.Algebra.BigOperators.Intervals

/-! # C24-C28: day counters -/

namespace Verif
open Outcome

variable {a b d d1 d2 : Int}

/-! ## C24 Actual/x -/

/-- The count is the number of days of the interval. -/
theorem C24_count_eq_card (h : d1 ≤ d2) :
    actualDays d1 d2 = ((Finset.Ico d1 d2).card : Int) := by
  unfold actualDays; rw [Int.card_Ico]; omega

/-- Additive, antisymmetric, monotone in the end date (for a positive
denominator). -/
theorem C24_actual (den : ℚ) (hden : 0 < den) (a b d : Int) :
    actualYf den a b + actualYf den b d = actualYf den a d ∧
    actualYf den b a = - actualYf den a b ∧
    actualYf den a a = 0 ∧
    (b ≤ d → actualYf den a b ≤ actualYf den a d) ∧
    (a < b → 0 < actualYf den a b) := by
  unfold actualYf actualDays
  refine ⟨by push_cast; ring, by push_cast; ring, by simp, fun h => ?_, fun h => ?_⟩
  · have : ((b - a : Int) : ℚ) ≤ ((d - a : Int) : ℚ) := by exact_mod_cast (by omega)
    gcongr
  · have : (0 : ℚ) < ((b - a : Int) : ℚ) := by exact_mod_cast (by omega)
    positivity

/-- A 90-day period in Act/360 is a quarter of a year. -/
example : actualYf 360 (ymd 2024 1 1) (ymd 2024 3 31) = 1 / 4 ∧
    actualDays (ymd 2024 1 1) (ymd 2025 1 1) = 366 := by
  constructor
  · have : actualDays (ymd 2024 1 1) (ymd 2024 3 31) = 90 := by decide +kernel
    unfold actualYf; rw [this]; norm_num
  · decide +kernel

/-- The number of days that make a year, by the name of the counter; none for Actual/Actual. -/
def yearBasis : DayCounter → Option ℚ
  | .actual360 => some 360
  | .actual364 => some 364
  | .actual365 _ => some 365
  | .actual366 => some 366
  | .thirty360 _ => some 360
  | .thirty365 => some 365
  | .business252 _ => some 252
  | .actualActual _ => none

/-- Every counter except Actual/Actual returns its day count over the basis in its name. -/
theorem C24_fraction {c : DayCounter} {basis : ℚ} (h : yearBasis c = some basis) (a b : Int) :
    c.yearFraction a b = (fun n : Int => (n : ℚ) / basis) <$> c.dayCount a b := by
  cases c with
  | actual365 m =>
    simp only [yearBasis, Option.some.injEq] at h; subst h
    rcases m with _ | m
    · rfl
    · cases m <;> rfl
  | actualActual m => simp [yearBasis] at h
  | _ => simp only [yearBasis, Option.some.injEq] at h; subst h; rfl

/-- The Actual counters, including Actual/Actual, count calendar days. -/
theorem C24_counts (h : d1 ≤ d2) :
    ∀ c ∈ [DayCounter.actual360, .actual364, .actual365 none, .actual365 (some .standard), .actual366,
        .actualActual none, .actualActual (some .isda), .actualActual (some .euro)],
      c.dayCount d1 d2 = .ok ((Finset.Ico d1 d2).card : Int) := by
  intro c hc
  rw [← C24_count_eq_card h]
  simp only [List.mem_cons, List.not_mem_nil, or_false] at hc
  rcases hc with rfl | rfl | rfl | rfl | rfl | rfl | rfl | rfl <;> rfl

example : DayCounter.yearFraction .actual360 (ymd 2024 1 1) (ymd 2024 3 31) = .ok (1 / 4) ∧
    DayCounter.yearFraction .thirty365 (ymd 2024 1 1) (ymd 2025 1 1) = .ok (72 / 73) ∧
    DayCounter.yearFraction (.business252 weekendsOnly) (ymd 2023 10 2) (ymd 2023 10 20) = .ok (13 / 252) := by
  decide +kernel

/-! ## C25 30/360 -/

/-- Position of a date in a calendar of twelve 30-day months, the 31st counting as
the 30th. -/
def euroIndex (d : Int) : Int := 360 * yearOf d + 30 * monthOf d + min (dayOf d) 30

/-- Position for the Italian rule: additionally 28 and 29 February count as 30. -/
def italyIndex (d : Int) : Int :=
  360 * yearOf d + 30 * monthOf d +
    if monthOf d = 2 ∧ 28 ≤ dayOf d then 30 else min (dayOf d) 30

/-- Plain position, no adjustment. -/
def plainIndex (d : Int) : Int := 360 * yearOf d + 30 * monthOf d + dayOf d

theorem dayOf_le_31 (d : Int) : 1 ≤ dayOf d ∧ dayOf d ≤ 31 :=
  ⟨(dayOf_bounds d).1, le_trans (dayOf_bounds d).2 (monthLen_pos _ _).2⟩

/-- The European count is the difference of positions, hence additive,
antisymmetric and zero on equal dates. -/
theorem C25_european (d1 d2 : Int) :
    thirty360 .european d1 d2 = euroIndex d2 - euroIndex d1 := by
  have := dayOf_le_31 d1
  have := dayOf_le_31 d2
  simp only [thirty360, thirtyEU, thirtyFormula, euroIndex]
  split <;> split <;> omega

theorem C25_italian (d1 d2 : Int) :
    thirty360 .italian d1 d2 = italyIndex d2 - italyIndex d1 := by
  have := dayOf_le_31 d1
  have := dayOf_le_31 d2
  simp only [thirty360, thirtyItaly, thirtyFormula, italyIndex]
  omega

theorem C25_thirty365 (d1 d2 : Int) : thirty365 d1 d2 = plainIndex d2 - plainIndex d1 := by
  simp only [thirty365, thirtyFormula, plainIndex]; omega

theorem C25_additive (a b d : Int) :
    thirty360 .european a b + thirty360 .european b d = thirty360 .european a d ∧
    thirty360 .italian a b + thirty360 .italian b d = thirty360 .italian a d ∧
    thirty360 .european b a = - thirty360 .european a b ∧
    thirty360 .italian b a = - thirty360 .italian a b := by
  simp only [C25_european, C25_italian]; omega

theorem euroIndex_mono (h : a ≤ b) : euroIndex a ≤ euroIndex b := by
  have m := monthIndex_mono h
  have ba := monthOf_bounds a
  have bb := monthOf_bounds b
  have da := dayOf_le_31 a
  have db := dayOf_le_31 b
  unfold euroIndex
  rcases eq_or_lt_of_le m with m | m
  · have := dayOf_sub m
    unfold monthIndex at m
    omega
  · unfold monthIndex at m
    omega

/-- A later end date never gives a smaller European count. -/
theorem C25_european_mono (h : b ≤ d) :
    thirty360 .european a b ≤ thirty360 .european a d := by
  have := euroIndex_mono h
  simp only [C25_european]; omega

/-- Every variant gives the plain count when both days are at most 27. -/
theorem C25_plain (m : ThirtyMarket) (h1 : dayOf d1 ≤ 27) (h2 : dayOf d2 ≤ 27) :
    thirty360 m d1 d2 = plainIndex d2 - plainIndex d1 := by
  have l1 := leap_cases (yearOf d1)
  have l2 := leap_cases (yearOf d2)
  have f1 : isLastOfFeb d1 = false := by
    simp only [isLastOfFeb, Bool.and_eq_false_iff, beq_eq_false_iff_ne]; omega
  have f2 : isLastOfFeb d2 = false := by
    simp only [isLastOfFeb, Bool.and_eq_false_iff, beq_eq_false_iff_ne]; omega
  cases m <;>
    simp only [thirty360, thirtyUS, thirtyEU, thirtyItaly, thirtyISMA, thirtyISDA, thirtyNASD,
      thirtyFormula, plainIndex, f1, f2, Bool.false_eq_true, if_false, and_false] <;> omega

/-- Whole years count 360 in every variant when the day is at most 27, and outside
February for any day. -/
theorem C25_whole_years (m : ThirtyMarket) (k : Int) (hm : monthOf d1 = monthOf d2)
    (hd : dayOf d1 = dayOf d2) (hy : yearOf d2 = yearOf d1 + k) (hf : monthOf d1 ≠ 2) :
    thirty360 m d1 d2 = 360 * k := by
  have b1 := dayOf_le_31 d1
  have f1 : isLastOfFeb d1 = false := by
    simp only [isLastOfFeb, Bool.and_eq_false_iff, beq_eq_false_iff_ne]; omega
  have f2 : isLastOfFeb d2 = false := by
    simp only [isLastOfFeb, Bool.and_eq_false_iff, beq_eq_false_iff_ne]; omega
  cases m <;>
    simp only [thirty360, thirtyUS, thirtyEU, thirtyItaly, thirtyISMA, thirtyISDA, thirtyNASD,
      thirtyFormula, f1, f2, Bool.false_eq_true, if_false, and_false] <;> omega

/-- No variant differs from the plain count by more than three days. -/
theorem C25_bounds (m : ThirtyMarket) (d1 d2 : Int) :
    |thirty360 m d1 d2 - (plainIndex d2 - plainIndex d1)| ≤ 3 := by
  have b1 := dayOf_le_31 d1
  have b2 := dayOf_le_31 d2
  have l1 := leap_cases (yearOf d1)
  have l2 := leap_cases (yearOf d2)
  have f1 : isLastOfFeb d1 = true → 28 ≤ dayOf d1 ∧ dayOf d1 ≤ 29 := by
    simp only [isLastOfFeb, Bool.and_eq_true, beq_iff_eq]; omega
  have f2 : isLastOfFeb d2 = true → 28 ≤ dayOf d2 ∧ dayOf d2 ≤ 29 := by
    simp only [isLastOfFeb, Bool.and_eq_true, beq_iff_eq]; omega
  rw [abs_le]
  rcases Bool.eq_false_or_eq_true (isLastOfFeb d1) with e1 | e1 <;>
  rcases Bool.eq_false_or_eq_true (isLastOfFeb d2) with e2 | e2 <;>
  simp only [e1, e2, Bool.false_eq_true, false_implies, true_implies] at f1 f2 <;>
  cases m <;>
    simp only [thirty360, thirtyUS, thirtyEU, thirtyItaly, thirtyISMA, thirtyISDA, thirtyNASD,
      thirtyFormula, plainIndex, e1, e2, Bool.false_eq_true, if_false, if_true, and_false,
      and_true] <;>
    omega

/-- Published bond-basis rule (ISMA): the end day 31 becomes 30 only if the start
day is 30 or 31. -/
theorem C25_isma_rule (d1 d2 : Int) :
    thirty360 .isma d1 d2 = 360 * (yearOf d2 - yearOf d1) + 30 * (monthOf d2 - monthOf d1) +
      ((if dayOf d1 ≥ 30 then min (dayOf d2) 30 else dayOf d2) - min (dayOf d1) 30) := by
  have b1 := dayOf_le_31 d1
  have b2 := dayOf_le_31 d2
  simp only [thirty360, thirtyISMA, thirtyFormula]; omega

/-- The bond-basis count is not additive (so the additivity of the European count
is not automatic): 15 to 31 January to 15 February. -/
theorem C25_isma_not_additive_false :
    thirty360 .isma (ymd 2023 1 15) (ymd 2023 1 31) +
      thirty360 .isma (ymd 2023 1 31) (ymd 2023 2 15) ≠
    thirty360 .isma (ymd 2023 1 15) (ymd 2023 2 15) := by
  decide +kernel

/-- NASD never loses a day: an end day 31 after a start day below 30 counts as the
first of the next month, which is the plain count. -/
theorem C25_nasd_rule (d1 d2 : Int) :
    thirty360 .nasd d1 d2 = 360 * (yearOf d2 - yearOf d1) + 30 * (monthOf d2 - monthOf d1) +
      ((if dayOf d1 ≥ 30 then min (dayOf d2) 30 else dayOf d2) - min (dayOf d1) 30) := by
  have b1 := dayOf_le_31 d1
  have b2 := dayOf_le_31 d2
  simp only [thirty360, thirtyNASD, thirtyFormula]; omega

/-- The ISDA/German count: last days of months (31st and end of February) count as
30, except that a February end which is the termination date keeps its day. -/
theorem C25_isda_rule (t d1 d2 : Int) :
    thirty360 (.isda t) d1 d2 = 360 * (yearOf d2 - yearOf d1) + 30 * (monthOf d2 - monthOf d1) +
      ((if isLastOfFeb d2 ∧ d2 ≠ t then 30 else min (dayOf d2) 30)
        - (if isLastOfFeb d1 then 30 else min (dayOf d1) 30)) := by
  have b1 := dayOf_le_31 d1
  have b2 := dayOf_le_31 d2
  rcases Bool.eq_false_or_eq_true (isLastOfFeb d1) with e1 | e1 <;>
  rcases Bool.eq_false_or_eq_true (isLastOfFeb d2) with e2 | e2 <;>
  simp only [thirty360, thirtyISDA, thirtyFormula, e1, e2, Bool.false_eq_true, if_true, if_false,
    and_true, true_and, false_and, and_false] <;> omega

/-- 30U/360: the US rule in closed form. -/
theorem C25_us_rule (d1 d2 : Int) :
    thirty360 .usa d1 d2 = 360 * (yearOf d2 - yearOf d1) + 30 * (monthOf d2 - monthOf d1) +
      ((if isLastOfFeb d1 ∧ isLastOfFeb d2 then 30
        else if isLastOfFeb d1 ∨ dayOf d1 ≥ 30 then min (dayOf d2) 30 else dayOf d2)
        - (if isLastOfFeb d1 then 30 else min (dayOf d1) 30)) := by
  have b1 := dayOf_le_31 d1
  have b2 := dayOf_le_31 d2
  rcases Bool.eq_false_or_eq_true (isLastOfFeb d1) with e1 | e1 <;>
  rcases Bool.eq_false_or_eq_true (isLastOfFeb d2) with e2 | e2 <;>
  simp only [thirty360, thirtyUS, thirtyFormula, e1, e2, Bool.false_eq_true, if_true, if_false,
    and_true, true_and, false_and, and_false, or_false, true_or, false_or, and_self] <;> omega

/-- Counts of 31 January - 28 February 2023 in all variants. -/
example : thirty360 .usa (ymd 2023 1 31) (ymd 2023 2 28) = 28 ∧
    thirty360 .european (ymd 2023 1 31) (ymd 2023 2 28) = 28 ∧
    thirty360 .italian (ymd 2023 1 31) (ymd 2023 2 28) = 30 ∧
    thirty360 (.isda (ymd 2030 1 1)) (ymd 2023 1 31) (ymd 2023 2 28) = 30 ∧
    thirty360 (.isda (ymd 2023 2 28)) (ymd 2023 1 31) (ymd 2023 2 28) = 28 ∧
    thirty360 .usa (ymd 2023 2 28) (ymd 2024 2 29) = 360 ∧
    thirty360 .european (ymd 2023 1 15) (ymd 2024 1 15) = 360 := by
  decide +kernel

example : thirty360 .nasd (ymd 2023 1 31) (ymd 2026 1 31) = 1080 :=
  C25_whole_years .nasd 3 (by decide +kernel) (by decide +kernel) (by decide +kernel)
    (by decide +kernel)

/-! ## C26 Actual/365 without leap days -/

/-- 29 February. -/
def IsLeapDay (d : Int) : Prop := monthOf d = 2 ∧ dayOf d = 29

instance (d : Int) : Decidable (IsLeapDay d) :=
  inferInstanceAs (Decidable (monthOf d = 2 ∧ dayOf d = 29))

/-- Number of days in `(d1, d2]` other than 29 February. -/
def noLeapCount (d1 d2 : Int) : Nat := ((Finset.Ioc d1 d2).filter (fun x => ¬ IsLeapDay x)).card

/-- Day number with the leap days before it removed, up to a constant. -/
def noLeapIndex (d : Int) : Int :=
  365 * yearOf d + monthStart 0 (monthOf d) + dayOf d - if IsLeapDay d then 1 else 0

theorem nextDay_cases (d : Int) :
    (yearOf (d + 1) = yearOf d ∧ monthOf (d + 1) = monthOf d ∧ dayOf (d + 1) = dayOf d + 1) ∨
    (dayOf d = monthLen (yearOf d) (monthOf d) ∧ monthOf d < 12 ∧
      yearOf (d + 1) = yearOf d ∧ monthOf (d + 1) = monthOf d + 1 ∧ dayOf (d + 1) = 1) ∨
    (dayOf d = 31 ∧ monthOf d = 12 ∧
      yearOf (d + 1) = yearOf d + 1 ∧ monthOf (d + 1) = 1 ∧ dayOf (d + 1) = 1) := by
  have hb := monthOf_bounds d
  have hd := dayOf_bounds d
  have e := ymd_yearOf d
  by_cases h : dayOf d < monthLen (yearOf d) (monthOf d)
  · left
    have e' : d + 1 = ymd (yearOf d) (monthOf d) (dayOf d + 1) := by unfold ymd at *; omega
    rw [e', yearOf_ymd hb.1 hb.2 (by omega) (by omega), monthOf_ymd hb.1 hb.2 (by omega) (by omega),
      dayOf_ymd hb.1 hb.2 (by omega) (by omega)]
    exact ⟨rfl, rfl, rfl⟩
  · right
    have hlen : dayOf d = monthLen (yearOf d) (monthOf d) := by omega
    rcases eq_or_lt_of_le hb.2 with h12 | h12
    · right
      have hl : monthLen (yearOf d) 12 = 31 := by simp [monthLen]
      have hl1 := monthLen_pos (yearOf d + 1) 1
      have e' : d + 1 = ymd (yearOf d + 1) 1 1 := by
        have := yearStart_succ (yearOf d)
        unfold ymd at *
        rw [h12] at e hlen
        simp [monthStart] at e ⊢
        omega
      rw [e', yearOf_ymd (by omega) (by omega) (by omega) (by omega),
        monthOf_ymd (by omega) (by omega) (by omega) (by omega),
        dayOf_ymd (by omega) (by omega) (by omega) (by omega)]
      rw [h12] at hlen
      exact ⟨by omega, h12, rfl, rfl, rfl⟩
    · left
      have hl1 := monthLen_pos (yearOf d) (monthOf d + 1)
      have e' : d + 1 = ymd (yearOf d) (monthOf d + 1) 1 := by
        have := monthStart_succ (yearOf d) (monthOf d) hb.1 hb.2
        unfold ymd at *
        omega
      rw [e', yearOf_ymd (by omega) (by omega) (by omega) (by omega),
        monthOf_ymd (by omega) (by omega) (by omega) (by omega),
        dayOf_ymd (by omega) (by omega) (by omega) (by omega)]
      exact ⟨hlen, h12, rfl, rfl, rfl⟩

theorem noLeapIndex_succ (d : Int) :
    noLeapIndex (d + 1) = noLeapIndex d + if IsLeapDay (d + 1) then 0 else 1 := by
  have hb := monthOf_bounds d
  have hd := dayOf_bounds d
  have hl := leap_cases (yearOf d)
  have hp := monthLen_pos (yearOf d) (monthOf d)
  have hms := monthStart_succ (yearOf d) (monthOf d) hb.1 hb.2
  rw [monthStart_eq, monthStart_eq (leap _) (monthOf d)] at hms
  have u : ∀ e, (if IsLeapDay e then (1 : Int) else 0) = if monthOf e = 2 ∧ dayOf e = 29 then 1 else 0 :=
    fun e => if_congr Iff.rfl rfl rfl
  have u' : (if IsLeapDay (d + 1) then (0 : Int) else 1) =
      if monthOf (d + 1) = 2 ∧ dayOf (d + 1) = 29 then 0 else 1 := if_congr Iff.rfl rfl rfl
  unfold noLeapIndex
  rw [u, u, u']
  rcases nextDay_cases d with ⟨h1, h2, h3⟩ | ⟨h0, h00, h1, h2, h3⟩ | ⟨h0, h00, h1, h2, h3⟩
  · rw [h1, h2, h3]
    have : dayOf d + 1 ≤ monthLen (yearOf d) (monthOf d) := by
      have := dayOf_bounds (d + 1)
      rw [h1, h2, h3] at this; exact this.2
    by_cases hm : monthOf d = 2
    · rw [hm] at this ⊢
      have hml : monthLen (yearOf d) 2 = 28 + leap (yearOf d) := by simp [monthLen]
      simp only [true_and]
      split <;> split <;> omega
    · simp only [hm, false_and, if_false]; omega
  · rw [h1, h2, h3]
    have hml : monthOf d = 2 → monthLen (yearOf d) (monthOf d) = 28 + leap (yearOf d) := by
      intro h; simp [monthLen, h]
    simp only [show ¬ ((1 : Int) = 29) by omega, and_false, if_false]
    by_cases hm : monthOf d = 2
    · have := hml hm
      rw [hm] at hms
      simp only [hm, true_and]
      simp [monthStart] at hms ⊢
      split <;> omega
    · simp only [hm, false_and, if_false]
      split at hms <;> split at hms <;> omega
  · rw [h1, h2, h3]
    simp only [h00, h0]
    simp [monthStart]
    omega

/-- The index difference counts the days that are not 29 February. -/
theorem noLeapIndex_count (h : d1 ≤ d2) :
    noLeapIndex d2 - noLeapIndex d1 = (noLeapCount d1 d2 : Int) := by
  have key : ∀ n : Nat, noLeapIndex (d1 + n) - noLeapIndex d1 = (noLeapCount d1 (d1 + n) : Int) := by
    intro n
    induction n with
    | zero => simp [noLeapCount]
    | succ n ih =>
      have e : Finset.Ioc d1 (d1 + (n + 1 : Nat)) = insert (d1 + n + 1) (Finset.Ioc d1 (d1 + n)) := by
        ext x; simp only [Finset.mem_Ioc, Finset.mem_insert]; push_cast; omega
      have s := noLeapIndex_succ (d1 + n)
      rw [show d1 + ((n + 1 : Nat) : Int) = d1 + n + 1 by push_cast; omega] at e ⊢
      rw [s]
      unfold noLeapCount at ih ⊢
      rw [e, Finset.filter_insert]
      by_cases hl : IsLeapDay (d1 + n + 1)
      · rw [if_pos hl, if_neg (by simpa using hl)]
        omega
      · rw [if_neg hl, if_pos hl, Finset.card_insert_of_notMem (by simp)]
        push_cast; omega
  have := key (d2 - d1).toNat
  rwa [show d1 + ((d2 - d1).toNat : Int) = d2 by omega] at this

/-- The code's serial is the correct one plus 10 throughout December (the table has
344 instead of 334). -/
theorem nlSerial_eq (d : Int) : nlSerial d = noLeapIndex d + if monthOf d = 12 then 10 else 0 := by
  have hb := monthOf_bounds d
  have hoff : nlMonthOffset (monthOf d) =
      monthStart 0 (monthOf d) + if monthOf d = 12 then 10 else 0 := by
    have : monthOf d = 1 ∨ monthOf d = 2 ∨ monthOf d = 3 ∨ monthOf d = 4 ∨ monthOf d = 5 ∨
      monthOf d = 6 ∨ monthOf d = 7 ∨ monthOf d = 8 ∨ monthOf d = 9 ∨ monthOf d = 10 ∨
      monthOf d = 11 ∨ monthOf d = 12 := by omega
    rcases this with h | h | h | h | h | h | h | h | h | h | h | h <;> rw [h] <;>
      simp [nlMonthOffset, monthStart]
  unfold nlSerial noLeapIndex IsLeapDay
  simp only [hoff]
  split <;> omega

/-- Exact value of the NoLeap count: the correct number of days plus 10 when the end
date is in December, minus 10 when the start date is. -/
theorem C26_exact (h : d1 ≤ d2) :
    nlDayCount d1 d2 = (noLeapCount d1 d2 : Int) + (if monthOf d2 = 12 then 10 else 0)
      - (if monthOf d1 = 12 then 10 else 0) := by
  have := noLeapIndex_count h
  unfold nlDayCount
  rw [nlSerial_eq, nlSerial_eq]; omega

/-- The property holds when both dates or neither are in December.  Missing: the
other dates, for which `C26_exact` shows an error of ten days. -/
theorem C26_noleap_partial (h : d1 ≤ d2) (hm : monthOf d1 = 12 ↔ monthOf d2 = 12) :
    nlDayCount d1 d2 = (noLeapCount d1 d2 : Int) := by
  rw [C26_exact h]
  by_cases h2 : monthOf d2 = 12
  · rw [if_pos h2, if_pos (hm.2 h2)]; omega
  · rw [if_neg h2, if_neg (fun h1 => h2 (hm.1 h1))]; omega

/-- Refutation: 30 November to 1 December 2023 is one day; the code says 11. -/
theorem C26_december_false :
    nlDayCount (ymd 2023 11 30) (ymd 2023 12 1) = 11 ∧
    (noLeapCount (ymd 2023 11 30) (ymd 2023 12 1) : Int) = 1 := by
  decide +kernel

/-- And for every pair of dates with exactly the later one in December the count is
wrong. -/
theorem C26_wrong_into_december_false (h : d1 ≤ d2) (h1 : monthOf d1 ≠ 12) (h2 : monthOf d2 = 12) :
    nlDayCount d1 d2 ≠ (noLeapCount d1 d2 : Int) := by
  rw [C26_exact h, if_pos h2, if_neg h1]; omega

/-- 28 February to 1 March 2024: one day (the 29th does not count). -/
example : nlDayCount (ymd 2024 2 28) (ymd 2024 3 1) = 1 ∧
    actualDays (ymd 2024 2 28) (ymd 2024 3 1) = 2 := by
  decide +kernel

example : nlDayCount (ymd 2024 2 28) (ymd 2024 3 1)
    = (noLeapCount (ymd 2024 2 28) (ymd 2024 3 1) : Int) :=
  C26_noleap_partial (by decide +kernel) (by decide +kernel)

/-! ## C27 Actual/Actual ISDA -/

/-- Specification: every day of the period `[d1, d2)` contributes one over the
length of the year it lies in. -/
def isdaSpec (d1 d2 : Int) : ℚ := ∑ x ∈ Finset.Ico d1 d2, 1 / ((365 + leap (yearOf x) : Int) : ℚ)

/-- Time in years of (the start of) a day. -/
def yearPos (d : Int) : ℚ :=
  (yearOf d : ℚ) + ((d - yearStart (yearOf d) - 1 : Int) : ℚ) / ((365 + leap (yearOf d) : Int) : ℚ)

theorem yearLen_pos (y : Int) : (0 : ℚ) < ((365 + leap y : Int) : ℚ) := by
  have := leap_cases y
  exact_mod_cast (by omega)

theorem yearPos_succ (d : Int) :
    yearPos (d + 1) = yearPos d + 1 / ((365 + leap (yearOf d) : Int) : ℚ) := by
  have hs := yearOf_spec d
  have hL := yearLen_pos (yearOf d)
  have hne := ne_of_gt hL
  by_cases h : d + 1 ≤ yearStart (yearOf d + 1)
  · have hy : yearOf (d + 1) = yearOf d := yearOf_unique (by omega) h
    unfold yearPos
    rw [hy]
    field_simp
    push_cast; ring
  · have hd : d = yearStart (yearOf d + 1) := by omega
    have h2 := yearStart_succ (yearOf d + 1)
    have h3 := yearStart_succ (yearOf d)
    have h4 := leap_cases (yearOf d + 1)
    have hy : yearOf (d + 1) = yearOf d + 1 := by
      apply yearOf_unique
      · omega
      · omega
    have e1 : d + 1 - yearStart (yearOf d + 1) - 1 = 0 := by omega
    have e2 : d - yearStart (yearOf d) - 1 = 365 + leap (yearOf d) - 1 := by omega
    unfold yearPos
    rw [hy, e1, e2]
    field_simp
    push_cast; ring

theorem isdaSpec_eq (h : d1 ≤ d2) : isdaSpec d1 d2 = yearPos d2 - yearPos d1 := by
  have key : ∀ n : Nat, isdaSpec d1 (d1 + n) = yearPos (d1 + n) - yearPos d1 := by
    intro n
    induction n with
    | zero => simp [isdaSpec]
    | succ n ih =>
      have e : Finset.Ico d1 (d1 + (n + 1 : Nat)) = insert (d1 + (n : Int)) (Finset.Ico d1 (d1 + n)) := by
        ext x; simp only [Finset.mem_Ico, Finset.mem_insert]; push_cast; omega
      have s := yearPos_succ (d1 + n)
      unfold isdaSpec at ih ⊢
      rw [e, Finset.sum_insert (by simp), ih,
        show d1 + ((n + 1 : Nat) : Int) = d1 + n + 1 by push_cast; omega, s]
      ring
  have := key (d2 - d1).toNat
  rwa [show d1 + ((d2 - d1).toNat : Int) = d2 by omega] at this

/-- The value of the code for two different dates: twice the number of whole years
between the year ends minus the correct value. -/
theorem C27_exact (hv1 : Valid d1) (hv2 : Valid d2) (hy : yearOf d1 < 262142) (h : d1 < d2) :
    isdaYf d1 d2 =
      .ok (2 * ((yearOf d2 - yearOf d1 - 1 : Int) : ℚ) - isdaSpec d1 d2) := by
  rw [valid_iff_year] at hv1 hv2
  have l1 := monthLen_pos (yearOf d1 + 1) 1
  have l2 := monthLen_pos (yearOf d2) 1
  have e1 : fromYmdOpt (yearOf d1 + 1) 1 1 = some (yearStart (yearOf d1 + 1) + 1) := by
    unfold fromYmdOpt; rw [if_pos (by omega)]; simp [ymd, monthStart]
  have e2 : fromYmdOpt (yearOf d2) 1 1 = some (yearStart (yearOf d2) + 1) := by
    unfold fromYmdOpt; rw [if_pos (by omega)]; simp [ymd, monthStart]
  have hne : d1 ≠ d2 := by omega
  simp only [isdaYf, hne, if_false, e1, e2, unwrap, ok_bind, ok.injEq]
  rw [isdaSpec_eq h.le]
  have p1 := ne_of_gt (yearLen_pos (yearOf d1))
  have p2 := ne_of_gt (yearLen_pos (yearOf d2))
  unfold yearPos
  rw [yearStart_succ]
  push_cast at p1 p2 ⊢
  field_simp
  ring

theorem isdaSpec_pos (h : d1 < d2) : 0 < isdaSpec d1 d2 := by
  unfold isdaSpec
  apply Finset.sum_pos
  · intro x _
    have := yearLen_pos (yearOf x)
    positivity
  · rw [Finset.nonempty_Ico]; exact h

/-- Refutation for *every* pair of different dates: the code never returns the
correct fraction. -/
theorem C27_always_wrong_false (hv1 : Valid d1) (hv2 : Valid d2) (hy : yearOf d1 < 262142)
    (h : d1 < d2) : isdaYf d1 d2 ≠ .ok (isdaSpec d1 d2) := by
  rw [C27_exact hv1 hv2 hy h]
  intro he
  simp only [ok.injEq] at he
  have hval : isdaSpec d1 d2 = ((yearOf d2 - yearOf d1 - 1 : Int) : ℚ) := by linarith
  rw [isdaSpec_eq h.le] at hval
  have p1 := yearLen_pos (yearOf d1)
  have p2 := yearLen_pos (yearOf d2)
  have s1 := yearOf_spec d1
  have s2 := yearOf_spec d2
  rw [yearStart_succ] at s1
  unfold yearPos at hval
  have a1 : ((d1 - yearStart (yearOf d1) - 1 : Int) : ℚ) / ((365 + leap (yearOf d1) : Int) : ℚ) < 1 := by
    rw [div_lt_one p1]
    exact_mod_cast (by omega)
  have a2 : 0 ≤ ((d2 - yearStart (yearOf d2) - 1 : Int) : ℚ) / ((365 + leap (yearOf d2) : Int) : ℚ) := by
    apply div_nonneg _ p2.le
    exact_mod_cast (by omega)
  push_cast at hval a1 a2
  linarith

/-- What holds: equal dates give zero, and the code's value plus the correct value is
twice the number of calendar years strictly between the two dates' years.  Missing:
the correct value itself. -/
theorem C27_isda_partial (hv1 : Valid d1) (hv2 : Valid d2) (hy : yearOf d1 < 262142) :
    isdaYf d1 d1 = .ok 0 ∧
    (d1 < d2 → ∃ f, isdaYf d1 d2 = .ok f ∧
      f + isdaSpec d1 d2 = 2 * ((yearOf d2 - yearOf d1 - 1 : Int) : ℚ)) := by
  refine ⟨by simp [isdaYf], fun h => ⟨_, C27_exact hv1 hv2 hy h, by ring⟩⟩

/-- Witness: the full year 2023 should be 1 and comes out as -1. -/
theorem C27_full_year_false : isdaYf (ymd 2023 1 1) (ymd 2024 1 1) = .ok (-1) := by
  decide +kernel

/-- ... and the specification is indeed 1 there. -/
example : isdaSpec (ymd 2023 1 1) (ymd 2024 1 1) = 1 := by
  rw [isdaSpec_eq (by decide +kernel)]
  have e1 : yearOf (ymd 2024 1 1) = 2024 := by decide +kernel
  have e2 : yearOf (ymd 2023 1 1) = 2023 := by decide +kernel
  have e3 : ymd 2024 1 1 - yearStart 2024 - 1 = 0 := by decide +kernel
  have e4 : ymd 2023 1 1 - yearStart 2023 - 1 = 0 := by decide +kernel
  unfold yearPos
  rw [e1, e2, e3, e4]; norm_num

/-! ## C28 Business/252 -/

/-- Within one month the code counts the business days strictly between the dates:
the first day is lost (see C12).  Missing relative to the property: the first day
itself, equal dates, and periods over a month end. -/
theorem C28_same_month_partial {c : Cal} (hv : minDay ≤ d1) (h : d1 < d2) (hmax : d2 < maxDay)
    (hs : SameMonth d1 d2) (hcl : ClassifiedOn c d1 d2) :
    b252DayCount c d1 d2 =
      .ok ((openCount c (Finset.Ico d1 d2) : Int) - if c d1 = .ok true then 1 else 0) := by
  have e : sameMonthB d1 d2 = true := by simp [sameMonthB, hs.1, hs.2]
  simp only [b252DayCount, e, true_or, if_true]
  rw [C12_count_partial hv h hmax true false hcl]
  simp only [if_true, Bool.false_eq_true, if_false, add_zero, ok.injEq]
  have hs := openCount_Ico_split (c := c) (a := d1) (b := d1 + 1) (e := d2) (by omega) (by omega)
  have h1 : Finset.Ico d1 (d1 + 1) = {d1} := by
    ext x; simp only [Finset.mem_Ico, Finset.mem_singleton]; omega
  rw [h1] at hs
  have hc : openCount c {d1} = if c d1 = .ok true then 1 else 0 := by
    unfold openCount; rw [Finset.filter_singleton]; split <;> simp
  rw [hs, hc]
  split <;> push_cast <;> omega

/-- Refutation within a month: Monday to Tuesday counts 0 instead of 1. -/
theorem C28_one_day_false :
    b252DayCount weekendsOnly (ymd 2023 10 2) (ymd 2023 10 3) = .ok 0 ∧
    openCount weekendsOnly (Finset.Ico (ymd 2023 10 2) (ymd 2023 10 3)) = 1 := by
  decide +kernel

/-- Refutation across months: from 2 October 2023 to 5 February 2024 there are 90
business days; the code counts 158, because it adds the business days up to the end
date once per month. -/
theorem C28_cross_month_false :
    b252DayCount weekendsOnly (ymd 2023 10 2) (ymd 2024 2 5) = .ok 158 ∧
    openCount weekendsOnly (Finset.Ico (ymd 2023 10 2) (ymd 2024 2 5)) = 90 := by
  decide +kernel

example : b252DayCount weekendsOnly (ymd 2023 10 2) (ymd 2023 10 20) = .ok 13 := by
  decide +kernel

end Verif
