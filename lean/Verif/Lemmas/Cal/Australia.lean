import Verif.Lemmas.CalWindow
import Verif.Model.Cal.Australia

/-! # Open days of the calendar `australia` -/

set_option linter.unusedSimpArgs false

namespace Verif

/-- Fixed dates on which a Tuesday or Wednesday can be closed. -/
def Australia.settlementIsBusinessDayExcl : List (Int × Int) := [
  (1, 1), (1, 26), (4, 25), (9, 22), (12, 25), (12, 26), (12, 27), (12, 28)]

theorem Australia.settlementIsBusinessDay_open (t : DateInfo) (em : Int) (hw : t.w = .wed ∧ (t.dd - em) % 7 = 2 ∨ t.w = .tue ∧ (t.dd - em) % 7 = 1)
    (hE : (t.m, t.d) ∉ Australia.settlementIsBusinessDayExcl) : Australia.settlementIsBusinessDay t em = true := by
  rw [← Bool.not_eq_false]
  intro hF
  apply hE
  revert hF
  rcases hw with ⟨hw, hdd⟩ | ⟨hw, hdd⟩
  all_goals
    simp only [Australia.sharedHoliday, Australia.extraHoliday, Australia.settlementIsBusinessDay, Australia.asxIsBusinessDay, hw, Int.reduceLE, excl_rules]
    unfold Australia.settlementIsBusinessDayExcl
    simp only [excl_rules]
    first | done | (and_intros <;> cal_fin)

theorem Australia.settlementIsBusinessDay_weekend (t : DateInfo) (em : Int) (h : t.w.isWeekend = true) : Australia.settlementIsBusinessDay t em = false := by
  simp only [Australia.sharedHoliday, Australia.extraHoliday, Australia.settlementIsBusinessDay, Australia.asxIsBusinessDay, h, Bool.true_or, Bool.or_true, Bool.and_false, Bool.false_and, Bool.not_true, Bool.not_false, cond_true, cond_false]

theorem Australia.settlementIsBusinessDay_covered : covered 1 Australia.settlementIsBusinessDayExcl = true := by decide +kernel

theorem Australia.settlementIsBusinessDay_half {y : Int} (h1 : 1901 ≤ y) (h2 : y ≤ 2199) : HalfMonthsOpen (easterCal Australia.settlementIsBusinessDay) y := by
  exact half_easter h1 h2 Australia.settlementIsBusinessDay_covered (fun t em hy _ hw hE => Australia.settlementIsBusinessDay_open t em (by simpa using hw) hE) (by omega)

/-- Fixed dates on which a Tuesday or Wednesday can be closed. -/
def Australia.asxIsBusinessDayExcl : List (Int × Int) := [
  (1, 1), (1, 26), (4, 25), (9, 22), (12, 25), (12, 26), (12, 27), (12, 28)]

theorem Australia.asxIsBusinessDay_open (t : DateInfo) (em : Int) (hw : t.w = .wed ∧ (t.dd - em) % 7 = 2 ∨ t.w = .tue ∧ (t.dd - em) % 7 = 1)
    (hE : (t.m, t.d) ∉ Australia.asxIsBusinessDayExcl) : Australia.asxIsBusinessDay t em = true := by
  rw [← Bool.not_eq_false]
  intro hF
  apply hE
  revert hF
  rcases hw with ⟨hw, hdd⟩ | ⟨hw, hdd⟩
  all_goals
    simp only [Australia.sharedHoliday, Australia.extraHoliday, Australia.settlementIsBusinessDay, Australia.asxIsBusinessDay, hw, Int.reduceLE, excl_rules]
    unfold Australia.asxIsBusinessDayExcl
    simp only [excl_rules]
    first | done | (and_intros <;> cal_fin)

theorem Australia.asxIsBusinessDay_weekend (t : DateInfo) (em : Int) (h : t.w.isWeekend = true) : Australia.asxIsBusinessDay t em = false := by
  simp only [Australia.sharedHoliday, Australia.extraHoliday, Australia.settlementIsBusinessDay, Australia.asxIsBusinessDay, h, Bool.true_or, Bool.or_true, Bool.and_false, Bool.false_and, Bool.not_true, Bool.not_false, cond_true, cond_false]

theorem Australia.asxIsBusinessDay_covered : covered 1 Australia.asxIsBusinessDayExcl = true := by decide +kernel

theorem Australia.asxIsBusinessDay_half {y : Int} (h1 : 1901 ≤ y) (h2 : y ≤ 2199) : HalfMonthsOpen (easterCal Australia.asxIsBusinessDay) y := by
  exact half_easter h1 h2 Australia.asxIsBusinessDay_covered (fun t em hy _ hw hE => Australia.asxIsBusinessDay_open t em (by simpa using hw) hE) (by omega)

end Verif
