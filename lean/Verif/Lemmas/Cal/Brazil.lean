import Verif.Lemmas.CalWindow
import Verif.Model.Cal.Brazil

/-! # Open days of the calendar `brazil` -/

set_option linter.unusedSimpArgs false

namespace Verif

/-- Fixed dates on which a Wednesday can be closed. -/
def Brazil.settlementIsBusinessDayExcl : List (Int × Int) := [
  (1, 1), (4, 21), (5, 1), (9, 7), (10, 12), (11, 2), (11, 15), (11, 20),
  (12, 25)]

theorem Brazil.settlementIsBusinessDay_open (t : DateInfo) (em : Int) (hw : t.w = .wed ∧ (t.dd - em) % 7 = 2)
    (hE : (t.m, t.d) ∉ Brazil.settlementIsBusinessDayExcl) : Brazil.settlementIsBusinessDay t em = true := by
  rw [← Bool.not_eq_false]
  intro hF
  apply hE
  revert hF
  obtain ⟨hw, hdd⟩ := hw
  simp only [Brazil.settlementIsBusinessDay, Brazil.exchangeIsBusinessDay, hw, Int.reduceLE, excl_rules]
  unfold Brazil.settlementIsBusinessDayExcl
  simp only [excl_rules]
  and_intros <;> cal_fin

theorem Brazil.settlementIsBusinessDay_weekend (t : DateInfo) (em : Int) (h : t.w.isWeekend = true) : Brazil.settlementIsBusinessDay t em = false := by
  simp only [Brazil.settlementIsBusinessDay, Brazil.exchangeIsBusinessDay, h, Bool.true_or, Bool.or_true, Bool.and_false, Bool.false_and, Bool.not_true, Bool.not_false, cond_true, cond_false]

theorem Brazil.settlementIsBusinessDay_covered : covered 0 Brazil.settlementIsBusinessDayExcl = true := by decide +kernel

theorem Brazil.settlementIsBusinessDay_half {y : Int} (h1 : 1901 ≤ y) (h2 : y ≤ 2199) : HalfMonthsOpen (easterCal Brazil.settlementIsBusinessDay) y := by
  exact half_easter h1 h2 Brazil.settlementIsBusinessDay_covered (fun t em hy _ hw hE => Brazil.settlementIsBusinessDay_open t em (hw.resolve_right (by omega)) hE) (by omega)

/-- Fixed dates on which a Wednesday can be closed. -/
def Brazil.exchangeIsBusinessDayExcl : List (Int × Int) := [
  (1, 1), (1, 25), (4, 21), (5, 1), (7, 9), (9, 7), (10, 12), (11, 2),
  (11, 15), (11, 20), (12, 24), (12, 25), (12, 31)]

theorem Brazil.exchangeIsBusinessDay_open (t : DateInfo) (em : Int) (hw : t.w = .wed ∧ (t.dd - em) % 7 = 2)
    (hE : (t.m, t.d) ∉ Brazil.exchangeIsBusinessDayExcl) : Brazil.exchangeIsBusinessDay t em = true := by
  rw [← Bool.not_eq_false]
  intro hF
  apply hE
  revert hF
  obtain ⟨hw, hdd⟩ := hw
  simp only [Brazil.settlementIsBusinessDay, Brazil.exchangeIsBusinessDay, hw, Int.reduceLE, excl_rules]
  unfold Brazil.exchangeIsBusinessDayExcl
  simp only [excl_rules]
  and_intros <;> cal_fin

theorem Brazil.exchangeIsBusinessDay_weekend (t : DateInfo) (em : Int) (h : t.w.isWeekend = true) : Brazil.exchangeIsBusinessDay t em = false := by
  simp only [Brazil.settlementIsBusinessDay, Brazil.exchangeIsBusinessDay, h, Bool.true_or, Bool.or_true, Bool.and_false, Bool.false_and, Bool.not_true, Bool.not_false, cond_true, cond_false]

theorem Brazil.exchangeIsBusinessDay_covered : covered 0 Brazil.exchangeIsBusinessDayExcl = true := by decide +kernel

theorem Brazil.exchangeIsBusinessDay_half {y : Int} (h1 : 1901 ≤ y) (h2 : y ≤ 2199) : HalfMonthsOpen (easterCal Brazil.exchangeIsBusinessDay) y := by
  exact half_easter h1 h2 Brazil.exchangeIsBusinessDay_covered (fun t em hy _ hw hE => Brazil.exchangeIsBusinessDay_open t em (hw.resolve_right (by omega)) hE) (by omega)

end Verif
