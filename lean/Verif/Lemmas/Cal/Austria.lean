import Verif.Lemmas.CalWindow
import Verif.Model.Cal.Austria

/-! # Open days of the calendar `austria` -/

set_option linter.unusedSimpArgs false

namespace Verif

/-- Fixed dates on which a Wednesday can be closed. -/
def Austria.settlementIsBusinessDayExcl : List (Int × Int) := [
  (1, 1), (1, 6), (5, 1), (8, 15), (10, 26), (11, 1), (11, 12), (12, 8),
  (12, 25), (12, 26)]

theorem Austria.settlementIsBusinessDay_open (t : DateInfo) (em : Int) (hw : t.w = .wed ∧ (t.dd - em) % 7 = 2)
    (hE : (t.m, t.d) ∉ Austria.settlementIsBusinessDayExcl) : Austria.settlementIsBusinessDay t em = true := by
  rw [← Bool.not_eq_false]
  intro hF
  apply hE
  revert hF
  obtain ⟨hw, hdd⟩ := hw
  simp only [Austria.settlementIsBusinessDay, Austria.exchangeIsBusinessDay, hw, Int.reduceLE, excl_rules]
  unfold Austria.settlementIsBusinessDayExcl
  simp only [excl_rules]
  and_intros <;> cal_fin

theorem Austria.settlementIsBusinessDay_weekend (t : DateInfo) (em : Int) (h : t.w.isWeekend = true) : Austria.settlementIsBusinessDay t em = false := by
  simp only [Austria.settlementIsBusinessDay, Austria.exchangeIsBusinessDay, h, Bool.true_or, Bool.or_true, Bool.and_false, Bool.false_and, Bool.not_true, Bool.not_false, cond_true, cond_false]

theorem Austria.settlementIsBusinessDay_covered : covered 0 Austria.settlementIsBusinessDayExcl = true := by decide +kernel

theorem Austria.settlementIsBusinessDay_half {y : Int} (h1 : 1901 ≤ y) (h2 : y ≤ 2199) : HalfMonthsOpen (easterCal Austria.settlementIsBusinessDay) y := by
  exact half_easter h1 h2 Austria.settlementIsBusinessDay_covered (fun t em hy _ hw hE => Austria.settlementIsBusinessDay_open t em (hw.resolve_right (by omega)) hE) (by omega)

/-- Fixed dates on which a Wednesday can be closed. -/
def Austria.exchangeIsBusinessDayExcl : List (Int × Int) := [
  (1, 1), (5, 1), (10, 26), (11, 12), (12, 24), (12, 25), (12, 26), (12, 31)]

theorem Austria.exchangeIsBusinessDay_open (t : DateInfo) (em : Int) (hw : t.w = .wed ∧ (t.dd - em) % 7 = 2)
    (hE : (t.m, t.d) ∉ Austria.exchangeIsBusinessDayExcl) : Austria.exchangeIsBusinessDay t em = true := by
  rw [← Bool.not_eq_false]
  intro hF
  apply hE
  revert hF
  obtain ⟨hw, hdd⟩ := hw
  simp only [Austria.settlementIsBusinessDay, Austria.exchangeIsBusinessDay, hw, Int.reduceLE, excl_rules]
  unfold Austria.exchangeIsBusinessDayExcl
  simp only [excl_rules]
  and_intros <;> cal_fin

theorem Austria.exchangeIsBusinessDay_weekend (t : DateInfo) (em : Int) (h : t.w.isWeekend = true) : Austria.exchangeIsBusinessDay t em = false := by
  simp only [Austria.settlementIsBusinessDay, Austria.exchangeIsBusinessDay, h, Bool.true_or, Bool.or_true, Bool.and_false, Bool.false_and, Bool.not_true, Bool.not_false, cond_true, cond_false]

theorem Austria.exchangeIsBusinessDay_covered : covered 0 Austria.exchangeIsBusinessDayExcl = true := by decide +kernel

theorem Austria.exchangeIsBusinessDay_half {y : Int} (h1 : 1901 ≤ y) (h2 : y ≤ 2199) : HalfMonthsOpen (easterCal Austria.exchangeIsBusinessDay) y := by
  exact half_easter h1 h2 Austria.exchangeIsBusinessDay_covered (fun t em hy _ hw hE => Austria.exchangeIsBusinessDay_open t em (hw.resolve_right (by omega)) hE) (by omega)

end Verif
