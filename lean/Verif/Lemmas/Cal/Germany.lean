import Verif.Lemmas.CalWindow
import Verif.Model.Cal.Germany

/-! # Open days of the calendar `germany` -/

set_option linter.unusedSimpArgs false

namespace Verif

/-- Fixed dates on which a Wednesday can be closed. -/
def Germany.settlementIsBusinessDayExcl : List (Int × Int) := [
  (1, 1), (5, 1), (10, 3), (12, 24), (12, 25), (12, 26)]

theorem Germany.settlementIsBusinessDay_open (t : DateInfo) (em : Int) (hw : t.w = .wed ∧ (t.dd - em) % 7 = 2)
    (hE : (t.m, t.d) ∉ Germany.settlementIsBusinessDayExcl) : Germany.settlementIsBusinessDay t em = true := by
  rw [← Bool.not_eq_false]
  intro hF
  apply hE
  revert hF
  obtain ⟨hw, hdd⟩ := hw
  simp only [Germany.settlementIsBusinessDay, Germany.frankfurtStockExchangeIsBusinessDay, Germany.eurexIsBusinessDay, Germany.euwaxIsBusinessDay, hw, Int.reduceLE, excl_rules]
  unfold Germany.settlementIsBusinessDayExcl
  simp only [excl_rules]
  and_intros <;> cal_fin

theorem Germany.settlementIsBusinessDay_weekend (t : DateInfo) (em : Int) (h : t.w.isWeekend = true) : Germany.settlementIsBusinessDay t em = false := by
  simp only [Germany.settlementIsBusinessDay, Germany.frankfurtStockExchangeIsBusinessDay, Germany.eurexIsBusinessDay, Germany.euwaxIsBusinessDay, h, Bool.true_or, Bool.or_true, Bool.and_false, Bool.false_and, Bool.not_true, Bool.not_false, cond_true, cond_false]

theorem Germany.settlementIsBusinessDay_covered : covered 0 Germany.settlementIsBusinessDayExcl = true := by decide +kernel

theorem Germany.settlementIsBusinessDay_half {y : Int} (h1 : 1901 ≤ y) (h2 : y ≤ 2199) : HalfMonthsOpen (easterCal Germany.settlementIsBusinessDay) y := by
  exact half_easter h1 h2 Germany.settlementIsBusinessDay_covered (fun t em hy _ hw hE => Germany.settlementIsBusinessDay_open t em (hw.resolve_right (by omega)) hE) (by omega)

/-- Fixed dates on which a Wednesday can be closed. -/
def Germany.frankfurtStockExchangeIsBusinessDayExcl : List (Int × Int) := [
  (1, 1), (5, 1), (12, 24), (12, 25), (12, 26)]

theorem Germany.frankfurtStockExchangeIsBusinessDay_open (t : DateInfo) (em : Int) (hw : t.w = .wed ∧ (t.dd - em) % 7 = 2)
    (hE : (t.m, t.d) ∉ Germany.frankfurtStockExchangeIsBusinessDayExcl) : Germany.frankfurtStockExchangeIsBusinessDay t em = true := by
  rw [← Bool.not_eq_false]
  intro hF
  apply hE
  revert hF
  obtain ⟨hw, hdd⟩ := hw
  simp only [Germany.settlementIsBusinessDay, Germany.frankfurtStockExchangeIsBusinessDay, Germany.eurexIsBusinessDay, Germany.euwaxIsBusinessDay, hw, Int.reduceLE, excl_rules]
  unfold Germany.frankfurtStockExchangeIsBusinessDayExcl
  simp only [excl_rules]
  and_intros <;> cal_fin

theorem Germany.frankfurtStockExchangeIsBusinessDay_weekend (t : DateInfo) (em : Int) (h : t.w.isWeekend = true) : Germany.frankfurtStockExchangeIsBusinessDay t em = false := by
  simp only [Germany.settlementIsBusinessDay, Germany.frankfurtStockExchangeIsBusinessDay, Germany.eurexIsBusinessDay, Germany.euwaxIsBusinessDay, h, Bool.true_or, Bool.or_true, Bool.and_false, Bool.false_and, Bool.not_true, Bool.not_false, cond_true, cond_false]

theorem Germany.frankfurtStockExchangeIsBusinessDay_covered : covered 0 Germany.frankfurtStockExchangeIsBusinessDayExcl = true := by decide +kernel

theorem Germany.frankfurtStockExchangeIsBusinessDay_half {y : Int} (h1 : 1901 ≤ y) (h2 : y ≤ 2199) : HalfMonthsOpen (easterCal Germany.frankfurtStockExchangeIsBusinessDay) y := by
  exact half_easter h1 h2 Germany.frankfurtStockExchangeIsBusinessDay_covered (fun t em hy _ hw hE => Germany.frankfurtStockExchangeIsBusinessDay_open t em (hw.resolve_right (by omega)) hE) (by omega)

/-- Fixed dates on which a Wednesday can be closed. -/
def Germany.eurexIsBusinessDayExcl : List (Int × Int) := [
  (1, 1), (5, 1), (12, 24), (12, 25), (12, 26), (12, 31)]

theorem Germany.eurexIsBusinessDay_open (t : DateInfo) (em : Int) (hw : t.w = .wed ∧ (t.dd - em) % 7 = 2)
    (hE : (t.m, t.d) ∉ Germany.eurexIsBusinessDayExcl) : Germany.eurexIsBusinessDay t em = true := by
  rw [← Bool.not_eq_false]
  intro hF
  apply hE
  revert hF
  obtain ⟨hw, hdd⟩ := hw
  simp only [Germany.settlementIsBusinessDay, Germany.frankfurtStockExchangeIsBusinessDay, Germany.eurexIsBusinessDay, Germany.euwaxIsBusinessDay, hw, Int.reduceLE, excl_rules]
  unfold Germany.eurexIsBusinessDayExcl
  simp only [excl_rules]
  and_intros <;> cal_fin

theorem Germany.eurexIsBusinessDay_weekend (t : DateInfo) (em : Int) (h : t.w.isWeekend = true) : Germany.eurexIsBusinessDay t em = false := by
  simp only [Germany.settlementIsBusinessDay, Germany.frankfurtStockExchangeIsBusinessDay, Germany.eurexIsBusinessDay, Germany.euwaxIsBusinessDay, h, Bool.true_or, Bool.or_true, Bool.and_false, Bool.false_and, Bool.not_true, Bool.not_false, cond_true, cond_false]

theorem Germany.eurexIsBusinessDay_covered : covered 0 Germany.eurexIsBusinessDayExcl = true := by decide +kernel

theorem Germany.eurexIsBusinessDay_half {y : Int} (h1 : 1901 ≤ y) (h2 : y ≤ 2199) : HalfMonthsOpen (easterCal Germany.eurexIsBusinessDay) y := by
  exact half_easter h1 h2 Germany.eurexIsBusinessDay_covered (fun t em hy _ hw hE => Germany.eurexIsBusinessDay_open t em (hw.resolve_right (by omega)) hE) (by omega)

/-- Fixed dates on which a Wednesday can be closed. -/
def Germany.euwaxIsBusinessDayExcl : List (Int × Int) := [
  (1, 1), (5, 1), (12, 24), (12, 25), (12, 26)]

theorem Germany.euwaxIsBusinessDay_open (t : DateInfo) (em : Int) (hw : t.w = .wed ∧ (t.dd - em) % 7 = 2)
    (hE : (t.m, t.d) ∉ Germany.euwaxIsBusinessDayExcl) : Germany.euwaxIsBusinessDay t em = true := by
  rw [← Bool.not_eq_false]
  intro hF
  apply hE
  revert hF
  obtain ⟨hw, hdd⟩ := hw
  simp only [Germany.settlementIsBusinessDay, Germany.frankfurtStockExchangeIsBusinessDay, Germany.eurexIsBusinessDay, Germany.euwaxIsBusinessDay, hw, Int.reduceLE, excl_rules]
  unfold Germany.euwaxIsBusinessDayExcl
  simp only [excl_rules]
  and_intros <;> cal_fin

theorem Germany.euwaxIsBusinessDay_weekend (t : DateInfo) (em : Int) (h : t.w.isWeekend = true) : Germany.euwaxIsBusinessDay t em = false := by
  simp only [Germany.settlementIsBusinessDay, Germany.frankfurtStockExchangeIsBusinessDay, Germany.eurexIsBusinessDay, Germany.euwaxIsBusinessDay, h, Bool.true_or, Bool.or_true, Bool.and_false, Bool.false_and, Bool.not_true, Bool.not_false, cond_true, cond_false]

theorem Germany.euwaxIsBusinessDay_covered : covered 0 Germany.euwaxIsBusinessDayExcl = true := by decide +kernel

theorem Germany.euwaxIsBusinessDay_half {y : Int} (h1 : 1901 ≤ y) (h2 : y ≤ 2199) : HalfMonthsOpen (easterCal Germany.euwaxIsBusinessDay) y := by
  exact half_easter h1 h2 Germany.euwaxIsBusinessDay_covered (fun t em hy _ hw hE => Germany.euwaxIsBusinessDay_open t em (hw.resolve_right (by omega)) hE) (by omega)

end Verif
