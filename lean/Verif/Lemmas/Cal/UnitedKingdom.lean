import Verif.Lemmas.CalWindow
import Verif.Model.Cal.UnitedKingdom

/-! # Open days of the calendar `unitedkingdom` -/

set_option linter.unusedSimpArgs false

namespace Verif

/-- Fixed dates on which a Wednesday can be closed. -/
def UnitedKingdom.settlementIsBusinessDayExcl : List (Int × Int) := [
  (1, 1), (4, 29), (5, 8), (6, 2), (6, 3), (6, 4), (6, 5), (9, 19),
  (12, 25), (12, 26), (12, 31)]

theorem UnitedKingdom.settlementIsBusinessDay_open (t : DateInfo) (em : Int) (hw : t.w = .wed ∧ (t.dd - em) % 7 = 2)
    (hE : (t.m, t.d) ∉ UnitedKingdom.settlementIsBusinessDayExcl) : UnitedKingdom.settlementIsBusinessDay t em = true := by
  rw [← Bool.not_eq_false]
  intro hF
  apply hE
  revert hF
  obtain ⟨hw, hdd⟩ := hw
  simp only [UnitedKingdom.specialBankHoliday, UnitedKingdom.settlementIsBusinessDay, UnitedKingdom.exchangeIsBusinessDay, UnitedKingdom.metalsIsBusinessDay, hw, Int.reduceLE, excl_rules]
  unfold UnitedKingdom.settlementIsBusinessDayExcl
  simp only [excl_rules]
  and_intros <;> cal_fin

theorem UnitedKingdom.settlementIsBusinessDay_weekend (t : DateInfo) (em : Int) (h : t.w.isWeekend = true) : UnitedKingdom.settlementIsBusinessDay t em = false := by
  simp only [UnitedKingdom.specialBankHoliday, UnitedKingdom.settlementIsBusinessDay, UnitedKingdom.exchangeIsBusinessDay, UnitedKingdom.metalsIsBusinessDay, h, Bool.true_or, Bool.or_true, Bool.and_false, Bool.false_and, Bool.not_true, Bool.not_false, cond_true, cond_false]

theorem UnitedKingdom.settlementIsBusinessDay_covered : covered 0 UnitedKingdom.settlementIsBusinessDayExcl = true := by decide +kernel

theorem UnitedKingdom.settlementIsBusinessDay_half {y : Int} (h1 : 1901 ≤ y) (h2 : y ≤ 2199) : HalfMonthsOpen (easterCal UnitedKingdom.settlementIsBusinessDay) y := by
  exact half_easter h1 h2 UnitedKingdom.settlementIsBusinessDay_covered (fun t em hy _ hw hE => UnitedKingdom.settlementIsBusinessDay_open t em (hw.resolve_right (by omega)) hE) (by omega)

/-- Fixed dates on which a Wednesday can be closed. -/
def UnitedKingdom.exchangeIsBusinessDayExcl : List (Int × Int) := [
  (1, 1), (4, 29), (5, 8), (6, 2), (6, 3), (6, 4), (6, 5), (9, 19),
  (12, 25), (12, 26), (12, 31)]

theorem UnitedKingdom.exchangeIsBusinessDay_open (t : DateInfo) (em : Int) (hw : t.w = .wed ∧ (t.dd - em) % 7 = 2)
    (hE : (t.m, t.d) ∉ UnitedKingdom.exchangeIsBusinessDayExcl) : UnitedKingdom.exchangeIsBusinessDay t em = true := by
  rw [← Bool.not_eq_false]
  intro hF
  apply hE
  revert hF
  obtain ⟨hw, hdd⟩ := hw
  simp only [UnitedKingdom.specialBankHoliday, UnitedKingdom.settlementIsBusinessDay, UnitedKingdom.exchangeIsBusinessDay, UnitedKingdom.metalsIsBusinessDay, hw, Int.reduceLE, excl_rules]
  unfold UnitedKingdom.exchangeIsBusinessDayExcl
  simp only [excl_rules]
  and_intros <;> cal_fin

theorem UnitedKingdom.exchangeIsBusinessDay_weekend (t : DateInfo) (em : Int) (h : t.w.isWeekend = true) : UnitedKingdom.exchangeIsBusinessDay t em = false := by
  simp only [UnitedKingdom.specialBankHoliday, UnitedKingdom.settlementIsBusinessDay, UnitedKingdom.exchangeIsBusinessDay, UnitedKingdom.metalsIsBusinessDay, h, Bool.true_or, Bool.or_true, Bool.and_false, Bool.false_and, Bool.not_true, Bool.not_false, cond_true, cond_false]

theorem UnitedKingdom.exchangeIsBusinessDay_covered : covered 0 UnitedKingdom.exchangeIsBusinessDayExcl = true := by decide +kernel

theorem UnitedKingdom.exchangeIsBusinessDay_half {y : Int} (h1 : 1901 ≤ y) (h2 : y ≤ 2199) : HalfMonthsOpen (easterCal UnitedKingdom.exchangeIsBusinessDay) y := by
  exact half_easter h1 h2 UnitedKingdom.exchangeIsBusinessDay_covered (fun t em hy _ hw hE => UnitedKingdom.exchangeIsBusinessDay_open t em (hw.resolve_right (by omega)) hE) (by omega)

/-- Fixed dates on which a Wednesday can be closed. -/
def UnitedKingdom.metalsIsBusinessDayExcl : List (Int × Int) := [
  (1, 1), (4, 29), (5, 8), (6, 2), (6, 3), (6, 4), (6, 5), (9, 19),
  (12, 25), (12, 26), (12, 31)]

theorem UnitedKingdom.metalsIsBusinessDay_open (t : DateInfo) (em : Int) (hw : t.w = .wed ∧ (t.dd - em) % 7 = 2)
    (hE : (t.m, t.d) ∉ UnitedKingdom.metalsIsBusinessDayExcl) : UnitedKingdom.metalsIsBusinessDay t em = true := by
  rw [← Bool.not_eq_false]
  intro hF
  apply hE
  revert hF
  obtain ⟨hw, hdd⟩ := hw
  simp only [UnitedKingdom.specialBankHoliday, UnitedKingdom.settlementIsBusinessDay, UnitedKingdom.exchangeIsBusinessDay, UnitedKingdom.metalsIsBusinessDay, hw, Int.reduceLE, excl_rules]
  unfold UnitedKingdom.metalsIsBusinessDayExcl
  simp only [excl_rules]
  and_intros <;> cal_fin

theorem UnitedKingdom.metalsIsBusinessDay_weekend (t : DateInfo) (em : Int) (h : t.w.isWeekend = true) : UnitedKingdom.metalsIsBusinessDay t em = false := by
  simp only [UnitedKingdom.specialBankHoliday, UnitedKingdom.settlementIsBusinessDay, UnitedKingdom.exchangeIsBusinessDay, UnitedKingdom.metalsIsBusinessDay, h, Bool.true_or, Bool.or_true, Bool.and_false, Bool.false_and, Bool.not_true, Bool.not_false, cond_true, cond_false]

theorem UnitedKingdom.metalsIsBusinessDay_covered : covered 0 UnitedKingdom.metalsIsBusinessDayExcl = true := by decide +kernel

theorem UnitedKingdom.metalsIsBusinessDay_half {y : Int} (h1 : 1901 ≤ y) (h2 : y ≤ 2199) : HalfMonthsOpen (easterCal UnitedKingdom.metalsIsBusinessDay) y := by
  exact half_easter h1 h2 UnitedKingdom.metalsIsBusinessDay_covered (fun t em hy _ hw hE => UnitedKingdom.metalsIsBusinessDay_open t em (hw.resolve_right (by omega)) hE) (by omega)

end Verif
