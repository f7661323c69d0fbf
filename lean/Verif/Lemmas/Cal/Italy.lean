import Verif.Lemmas.CalWindow
import Verif.Model.Cal.Italy

/-! # Open days of the calendar `italy` -/

set_option linter.unusedSimpArgs false

namespace Verif

/-- Fixed dates on which a Wednesday can be closed. -/
def Italy.settlementIsBusinessDayExcl : List (Int × Int) := [
  (1, 1), (1, 6), (4, 25), (5, 1), (6, 2), (8, 15), (11, 1), (12, 8),
  (12, 25), (12, 26), (12, 31)]

theorem Italy.settlementIsBusinessDay_open (t : DateInfo) (em : Int) (hw : t.w = .wed ∧ (t.dd - em) % 7 = 2)
    (hE : (t.m, t.d) ∉ Italy.settlementIsBusinessDayExcl) : Italy.settlementIsBusinessDay t em = true := by
  rw [← Bool.not_eq_false]
  intro hF
  apply hE
  revert hF
  obtain ⟨hw, hdd⟩ := hw
  simp only [Italy.settlementIsBusinessDay, Italy.exchangeIsBusinessDay, hw, Int.reduceLE, excl_rules]
  unfold Italy.settlementIsBusinessDayExcl
  simp only [excl_rules]
  and_intros <;> cal_fin

theorem Italy.settlementIsBusinessDay_weekend (t : DateInfo) (em : Int) (h : t.w.isWeekend = true) : Italy.settlementIsBusinessDay t em = false := by
  simp only [Italy.settlementIsBusinessDay, Italy.exchangeIsBusinessDay, h, Bool.true_or, Bool.or_true, Bool.and_false, Bool.false_and, Bool.not_true, Bool.not_false, cond_true, cond_false]

theorem Italy.settlementIsBusinessDay_covered : covered 0 Italy.settlementIsBusinessDayExcl = true := by decide +kernel

theorem Italy.settlementIsBusinessDay_half {y : Int} (h1 : 1901 ≤ y) (h2 : y ≤ 2199) : HalfMonthsOpen (easterCal Italy.settlementIsBusinessDay) y := by
  exact half_easter h1 h2 Italy.settlementIsBusinessDay_covered (fun t em hy _ hw hE => Italy.settlementIsBusinessDay_open t em (hw.resolve_right (by omega)) hE) (by omega)

/-- Fixed dates on which a Wednesday can be closed. -/
def Italy.exchangeIsBusinessDayExcl : List (Int × Int) := [
  (1, 1), (5, 1), (8, 15), (12, 24), (12, 25), (12, 26), (12, 31)]

theorem Italy.exchangeIsBusinessDay_open (t : DateInfo) (em : Int) (hw : t.w = .wed ∧ (t.dd - em) % 7 = 2)
    (hE : (t.m, t.d) ∉ Italy.exchangeIsBusinessDayExcl) : Italy.exchangeIsBusinessDay t em = true := by
  rw [← Bool.not_eq_false]
  intro hF
  apply hE
  revert hF
  obtain ⟨hw, hdd⟩ := hw
  simp only [Italy.settlementIsBusinessDay, Italy.exchangeIsBusinessDay, hw, Int.reduceLE, excl_rules]
  unfold Italy.exchangeIsBusinessDayExcl
  simp only [excl_rules]
  and_intros <;> cal_fin

theorem Italy.exchangeIsBusinessDay_weekend (t : DateInfo) (em : Int) (h : t.w.isWeekend = true) : Italy.exchangeIsBusinessDay t em = false := by
  simp only [Italy.settlementIsBusinessDay, Italy.exchangeIsBusinessDay, h, Bool.true_or, Bool.or_true, Bool.and_false, Bool.false_and, Bool.not_true, Bool.not_false, cond_true, cond_false]

theorem Italy.exchangeIsBusinessDay_covered : covered 0 Italy.exchangeIsBusinessDayExcl = true := by decide +kernel

theorem Italy.exchangeIsBusinessDay_half {y : Int} (h1 : 1901 ≤ y) (h2 : y ≤ 2199) : HalfMonthsOpen (easterCal Italy.exchangeIsBusinessDay) y := by
  exact half_easter h1 h2 Italy.exchangeIsBusinessDay_covered (fun t em hy _ hw hE => Italy.exchangeIsBusinessDay_open t em (hw.resolve_right (by omega)) hE) (by omega)

end Verif
