import Verif.Lemmas.CalWindow
import Verif.Model.Cal.France

/-! # Open days of the calendar `france` -/

set_option linter.unusedSimpArgs false

namespace Verif

/-- Fixed dates on which a Wednesday can be closed. -/
def France.settlementIsBusinessDayExcl : List (Int × Int) := [
  (1, 1), (5, 1), (5, 8), (5, 10), (5, 21), (7, 14), (8, 15), (11, 1),
  (11, 11), (12, 25)]

theorem France.settlementIsBusinessDay_open (t : DateInfo) (em : Int) (hw : t.w = .wed ∧ (t.dd - em) % 7 = 2)
    (hE : (t.m, t.d) ∉ France.settlementIsBusinessDayExcl) : France.settlementIsBusinessDay t em = true := by
  rw [← Bool.not_eq_false]
  intro hF
  apply hE
  revert hF
  obtain ⟨hw, hdd⟩ := hw
  simp only [France.settlementIsBusinessDay, France.exchangeIsBusinessDay, hw, Int.reduceLE, excl_rules]
  unfold France.settlementIsBusinessDayExcl
  simp only [excl_rules]
  and_intros <;> cal_fin

theorem France.settlementIsBusinessDay_weekend (t : DateInfo) (em : Int) (h : t.w.isWeekend = true) : France.settlementIsBusinessDay t em = false := by
  simp only [France.settlementIsBusinessDay, France.exchangeIsBusinessDay, h, Bool.true_or, Bool.or_true, Bool.and_false, Bool.false_and, Bool.not_true, Bool.not_false, cond_true, cond_false]

theorem France.settlementIsBusinessDay_covered : covered 0 France.settlementIsBusinessDayExcl = true := by decide +kernel

theorem France.settlementIsBusinessDay_half {y : Int} (h1 : 1901 ≤ y) (h2 : y ≤ 2199) : HalfMonthsOpen (easterCal France.settlementIsBusinessDay) y := by
  exact half_easter h1 h2 France.settlementIsBusinessDay_covered (fun t em hy _ hw hE => France.settlementIsBusinessDay_open t em (hw.resolve_right (by omega)) hE) (by omega)

/-- Fixed dates on which a Wednesday can be closed. -/
def France.exchangeIsBusinessDayExcl : List (Int × Int) := [
  (1, 1), (5, 1), (12, 24), (12, 25), (12, 26), (12, 31)]

theorem France.exchangeIsBusinessDay_open (t : DateInfo) (em : Int) (hw : t.w = .wed ∧ (t.dd - em) % 7 = 2)
    (hE : (t.m, t.d) ∉ France.exchangeIsBusinessDayExcl) : France.exchangeIsBusinessDay t em = true := by
  rw [← Bool.not_eq_false]
  intro hF
  apply hE
  revert hF
  obtain ⟨hw, hdd⟩ := hw
  simp only [France.settlementIsBusinessDay, France.exchangeIsBusinessDay, hw, Int.reduceLE, excl_rules]
  unfold France.exchangeIsBusinessDayExcl
  simp only [excl_rules]
  and_intros <;> cal_fin

theorem France.exchangeIsBusinessDay_weekend (t : DateInfo) (em : Int) (h : t.w.isWeekend = true) : France.exchangeIsBusinessDay t em = false := by
  simp only [France.settlementIsBusinessDay, France.exchangeIsBusinessDay, h, Bool.true_or, Bool.or_true, Bool.and_false, Bool.false_and, Bool.not_true, Bool.not_false, cond_true, cond_false]

theorem France.exchangeIsBusinessDay_covered : covered 0 France.exchangeIsBusinessDayExcl = true := by decide +kernel

theorem France.exchangeIsBusinessDay_half {y : Int} (h1 : 1901 ≤ y) (h2 : y ≤ 2199) : HalfMonthsOpen (easterCal France.exchangeIsBusinessDay) y := by
  exact half_easter h1 h2 France.exchangeIsBusinessDay_covered (fun t em hy _ hw hE => France.exchangeIsBusinessDay_open t em (hw.resolve_right (by omega)) hE) (by omega)

end Verif
