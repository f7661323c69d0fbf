import Verif.Lemmas.CalWindow
import Verif.Model.Cal.Russia

/-! # Open days of the calendar `russia` -/

set_option linter.unusedSimpArgs false

namespace Verif

/-- Fixed dates on which a Wednesday can be closed outside 2012-2020. -/
def Russia.settlementIsBusinessDayExcl : List (Int × Int) := [
  (1, 1), (1, 2), (1, 3), (1, 4), (1, 5), (1, 7), (2, 23), (3, 8),
  (5, 1), (5, 9), (6, 12), (11, 4)]

theorem Russia.settlementIsBusinessDay_open (t : DateInfo) (hy : t.y < 2012 ∨ 2020 < t.y) (hd : 1 ≤ t.d) (hw : t.w = .wed)
    (hE : (t.m, t.d) ∉ Russia.settlementIsBusinessDayExcl) : Russia.settlementIsBusinessDay t = true := by
  have hyc : ∀ c : Int, 2012 ≤ c → c ≤ 2020 → (t.y == c) = false := fun c h1 h2 => by
    rw [beq_eq_false_iff_ne]; omega
  have hE0 : 1 ≤ t.d := hd
  rw [← Bool.not_eq_false]
  intro hF
  apply hE
  revert hF
  simp only [Russia.isExtraHolidaySettlement, Russia.isExtraHolidayExchange, Russia.isWorkingWeekend, Russia.settlementIsBusinessDay, Russia.exchangeIsBusinessDay, hyc, hw, Int.reduceLE, excl_rules]
  unfold Russia.settlementIsBusinessDayExcl
  simp only [excl_rules]
  and_intros <;> cal_fin

theorem Russia.settlementIsBusinessDay_weekend (t : DateInfo) (h : t.w.isWeekend = true) : Russia.settlementIsBusinessDay t = false := by
  simp only [Russia.isExtraHolidaySettlement, Russia.isExtraHolidayExchange, Russia.isWorkingWeekend, Russia.settlementIsBusinessDay, Russia.exchangeIsBusinessDay, h, Bool.true_or, Bool.or_true, Bool.and_false, Bool.false_and, Bool.not_true, Bool.not_false, cond_true, cond_false]

theorem Russia.settlementIsBusinessDay_covered : covered 0 Russia.settlementIsBusinessDayExcl = true := by decide +kernel

theorem Russia.settlementIsBusinessDay_half {y : Int} : HalfMonthsOpen (plainCal Russia.settlementIsBusinessDay) y := by
  rcases (show (2012 ≤ y ∧ y < 2012 + (9 : Nat)) ∨ (y < 2012 ∨ 2020 < y) by omega) with h | h
  · have hc : checkYears (plainCal Russia.settlementIsBusinessDay) 2012 9 = true := by decide +kernel
    exact half_of_check hc h.1 h.2
  · exact half_plain Russia.settlementIsBusinessDay_covered (fun t hy hd hw hE => Russia.settlementIsBusinessDay_open t (by omega) hd (hw.resolve_right (by omega)) hE) (by omega)

/-- Fixed dates on which a Wednesday can be closed outside 2012-2020. -/
def Russia.exchangeIsBusinessDayExcl : List (Int × Int) := [
  (2, 23), (3, 8), (5, 1), (5, 9), (6, 12), (11, 4), (12, 31)]

theorem Russia.exchangeIsBusinessDay_open (t : DateInfo) (hy : t.y < 2012 ∨ 2020 < t.y) (hd : 1 ≤ t.d) (hw : t.w = .wed)
    (hE : (t.m, t.d) ∉ Russia.exchangeIsBusinessDayExcl) : Russia.exchangeIsBusinessDay t = true := by
  have hyc : ∀ c : Int, 2012 ≤ c → c ≤ 2020 → (t.y == c) = false := fun c h1 h2 => by
    rw [beq_eq_false_iff_ne]; omega
  have hE0 : 1 ≤ t.d := hd
  rw [← Bool.not_eq_false]
  intro hF
  apply hE
  revert hF
  simp only [Russia.isExtraHolidaySettlement, Russia.isExtraHolidayExchange, Russia.isWorkingWeekend, Russia.settlementIsBusinessDay, Russia.exchangeIsBusinessDay, hyc, hw, Int.reduceLE, excl_rules]
  unfold Russia.exchangeIsBusinessDayExcl
  simp only [excl_rules]
  and_intros <;> cal_fin

theorem Russia.exchangeIsBusinessDay_covered : covered 0 Russia.exchangeIsBusinessDayExcl = true := by decide +kernel

theorem Russia.exchangeIsBusinessDay_half {y : Int} : HalfMonthsOpen (plainCal Russia.exchangeIsBusinessDay) y := by
  rcases (show (2012 ≤ y ∧ y < 2012 + (9 : Nat)) ∨ (y < 2012 ∨ 2020 < y) by omega) with h | h
  · have hc : checkYears (plainCal Russia.exchangeIsBusinessDay) 2012 9 = true := by decide +kernel
    exact half_of_check hc h.1 h.2
  · exact half_plain Russia.exchangeIsBusinessDay_covered (fun t hy hd hw hE => Russia.exchangeIsBusinessDay_open t (by omega) hd (hw.resolve_right (by omega)) hE) (by omega)

end Verif
