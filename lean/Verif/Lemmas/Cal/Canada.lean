import Verif.Lemmas.CalWindow
import Verif.Model.Cal.Canada

/-! # Open days of the calendar `canada` -/

set_option linter.unusedSimpArgs false

namespace Verif

/-- Fixed dates on which a Wednesday can be closed. -/
def Canada.settlementIsBusinessDayExcl : List (Int × Int) := [
  (1, 1), (7, 1), (9, 30), (11, 11), (12, 25), (12, 26)]

theorem Canada.settlementIsBusinessDay_open (t : DateInfo) (em : Int) (hw : t.w = .wed ∧ (t.dd - em) % 7 = 2)
    (hE : (t.m, t.d) ∉ Canada.settlementIsBusinessDayExcl) : Canada.settlementIsBusinessDay t em = true := by
  rw [← Bool.not_eq_false]
  intro hF
  apply hE
  revert hF
  obtain ⟨hw, hdd⟩ := hw
  simp only [Canada.sharedHoliday, Canada.extraHoliday, Canada.settlementIsBusinessDay, Canada.tsxIsBusinessDay, hw, Int.reduceLE, excl_rules]
  unfold Canada.settlementIsBusinessDayExcl
  simp only [excl_rules]
  and_intros <;> cal_fin

theorem Canada.settlementIsBusinessDay_weekend (t : DateInfo) (em : Int) (h : t.w.isWeekend = true) : Canada.settlementIsBusinessDay t em = false := by
  simp only [Canada.sharedHoliday, Canada.extraHoliday, Canada.settlementIsBusinessDay, Canada.tsxIsBusinessDay, h, Bool.true_or, Bool.or_true, Bool.and_false, Bool.false_and, Bool.not_true, Bool.not_false, cond_true, cond_false]

theorem Canada.settlementIsBusinessDay_covered : covered 0 Canada.settlementIsBusinessDayExcl = true := by decide +kernel

theorem Canada.settlementIsBusinessDay_half {y : Int} (h1 : 1901 ≤ y) (h2 : y ≤ 2199) : HalfMonthsOpen (easterCal Canada.settlementIsBusinessDay) y := by
  exact half_easter h1 h2 Canada.settlementIsBusinessDay_covered (fun t em hy _ hw hE => Canada.settlementIsBusinessDay_open t em (hw.resolve_right (by omega)) hE) (by omega)

/-- Fixed dates on which a Wednesday can be closed. -/
def Canada.tsxIsBusinessDayExcl : List (Int × Int) := [
  (1, 1), (7, 1), (9, 30), (12, 25), (12, 26)]

theorem Canada.tsxIsBusinessDay_open (t : DateInfo) (em : Int) (hw : t.w = .wed ∧ (t.dd - em) % 7 = 2)
    (hE : (t.m, t.d) ∉ Canada.tsxIsBusinessDayExcl) : Canada.tsxIsBusinessDay t em = true := by
  rw [← Bool.not_eq_false]
  intro hF
  apply hE
  revert hF
  obtain ⟨hw, hdd⟩ := hw
  simp only [Canada.sharedHoliday, Canada.extraHoliday, Canada.settlementIsBusinessDay, Canada.tsxIsBusinessDay, hw, Int.reduceLE, excl_rules]
  unfold Canada.tsxIsBusinessDayExcl
  simp only [excl_rules]
  and_intros <;> cal_fin

theorem Canada.tsxIsBusinessDay_weekend (t : DateInfo) (em : Int) (h : t.w.isWeekend = true) : Canada.tsxIsBusinessDay t em = false := by
  simp only [Canada.sharedHoliday, Canada.extraHoliday, Canada.settlementIsBusinessDay, Canada.tsxIsBusinessDay, h, Bool.true_or, Bool.or_true, Bool.and_false, Bool.false_and, Bool.not_true, Bool.not_false, cond_true, cond_false]

theorem Canada.tsxIsBusinessDay_covered : covered 0 Canada.tsxIsBusinessDayExcl = true := by decide +kernel

theorem Canada.tsxIsBusinessDay_half {y : Int} (h1 : 1901 ≤ y) (h2 : y ≤ 2199) : HalfMonthsOpen (easterCal Canada.tsxIsBusinessDay) y := by
  exact half_easter h1 h2 Canada.tsxIsBusinessDay_covered (fun t em hy _ hw hE => Canada.tsxIsBusinessDay_open t em (hw.resolve_right (by omega)) hE) (by omega)

end Verif
