import Verif.Lemmas.CalWindow
import Verif.Model.Cal.UnitedStates

/-! # Open days of the calendar `unitedstates` -/

set_option linter.unusedSimpArgs false

namespace Verif

/-- Fixed dates on which a Tuesday or Wednesday can be closed. -/
def UnitedStates.settlementIsBusinessDayExcl : List (Int × Int) := [
  (1, 1), (2, 22), (5, 30), (6, 19), (7, 4), (11, 11), (12, 25)]

theorem UnitedStates.settlementIsBusinessDay_open (t : DateInfo) (hd : 1 ≤ t.d) (hw : t.w = .wed ∨ t.w = .tue)
    (hE : (t.m, t.d) ∉ UnitedStates.settlementIsBusinessDayExcl) : UnitedStates.settlementIsBusinessDay t = true := by
  have hE0 : 1 ≤ t.d := hd
  rw [← Bool.not_eq_false]
  intro hF
  apply hE
  revert hF
  rcases hw with hw | hw
  all_goals
    simp only [UnitedStates.isWashingtonBirthday, UnitedStates.isMemorialDay, UnitedStates.isLaborDay, UnitedStates.isColumbusDay, UnitedStates.isVeteransDay, UnitedStates.isVeteransDayNoSaturday, UnitedStates.isJuneteenth, UnitedStates.settlementIsBusinessDay, UnitedStates.liborIsBusinessDay, UnitedStates.nyseIsBusinessDay, UnitedStates.governmentBondIsBusinessDay, UnitedStates.sofrIsBusinessDay, UnitedStates.nercIsBusinessDay, UnitedStates.federalReserveIsHoliday, hw, Int.reduceLE, excl_rules]
    unfold UnitedStates.settlementIsBusinessDayExcl
    simp only [excl_rules]
    first | done | (and_intros <;> cal_fin)

theorem UnitedStates.settlementIsBusinessDay_weekend (t : DateInfo) (h : t.w.isWeekend = true) : UnitedStates.settlementIsBusinessDay t = false := by
  have hs : t.w = .sat ∨ t.w = .sun := by
    revert h; cases t.w <;> simp [Weekday.isWeekend]
  rcases hs with hs | hs <;> simp [UnitedStates.isWashingtonBirthday, UnitedStates.isMemorialDay, UnitedStates.isLaborDay, UnitedStates.isColumbusDay, UnitedStates.isVeteransDay, UnitedStates.isVeteransDayNoSaturday, UnitedStates.isJuneteenth, UnitedStates.settlementIsBusinessDay, UnitedStates.liborIsBusinessDay, UnitedStates.nyseIsBusinessDay, UnitedStates.governmentBondIsBusinessDay, UnitedStates.sofrIsBusinessDay, UnitedStates.nercIsBusinessDay, UnitedStates.federalReserveIsHoliday, hs, Weekday.isWeekend]

theorem UnitedStates.settlementIsBusinessDay_covered : covered 1 UnitedStates.settlementIsBusinessDayExcl = true := by decide +kernel

theorem UnitedStates.settlementIsBusinessDay_half {y : Int} : HalfMonthsOpen (plainCal UnitedStates.settlementIsBusinessDay) y := by
  exact half_plain UnitedStates.settlementIsBusinessDay_covered (fun t hy hd hw hE => UnitedStates.settlementIsBusinessDay_open t hd (by simpa using hw) hE) (by omega)

/-- Fixed dates on which a Tuesday or Wednesday can be closed. -/
def UnitedStates.liborIsBusinessDayExcl : List (Int × Int) := [
  (1, 1), (2, 22), (5, 30), (6, 19), (7, 4), (11, 11), (12, 25)]

theorem UnitedStates.liborIsBusinessDay_open (t : DateInfo) (hd : 1 ≤ t.d) (hw : t.w = .wed ∨ t.w = .tue)
    (hE : (t.m, t.d) ∉ UnitedStates.liborIsBusinessDayExcl) : UnitedStates.liborIsBusinessDay t = true := by
  have hE0 : 1 ≤ t.d := hd
  rw [← Bool.not_eq_false]
  intro hF
  apply hE
  revert hF
  rcases hw with hw | hw
  all_goals
    simp only [UnitedStates.isWashingtonBirthday, UnitedStates.isMemorialDay, UnitedStates.isLaborDay, UnitedStates.isColumbusDay, UnitedStates.isVeteransDay, UnitedStates.isVeteransDayNoSaturday, UnitedStates.isJuneteenth, UnitedStates.settlementIsBusinessDay, UnitedStates.liborIsBusinessDay, UnitedStates.nyseIsBusinessDay, UnitedStates.governmentBondIsBusinessDay, UnitedStates.sofrIsBusinessDay, UnitedStates.nercIsBusinessDay, UnitedStates.federalReserveIsHoliday, hw, Int.reduceLE, excl_rules]
    unfold UnitedStates.liborIsBusinessDayExcl
    simp only [excl_rules]
    first | done | (and_intros <;> cal_fin)

theorem UnitedStates.liborIsBusinessDay_weekend (t : DateInfo) (h : t.w.isWeekend = true) : UnitedStates.liborIsBusinessDay t = false := by
  have hs : t.w = .sat ∨ t.w = .sun := by
    revert h; cases t.w <;> simp [Weekday.isWeekend]
  rcases hs with hs | hs <;> simp [UnitedStates.isWashingtonBirthday, UnitedStates.isMemorialDay, UnitedStates.isLaborDay, UnitedStates.isColumbusDay, UnitedStates.isVeteransDay, UnitedStates.isVeteransDayNoSaturday, UnitedStates.isJuneteenth, UnitedStates.settlementIsBusinessDay, UnitedStates.liborIsBusinessDay, UnitedStates.nyseIsBusinessDay, UnitedStates.governmentBondIsBusinessDay, UnitedStates.sofrIsBusinessDay, UnitedStates.nercIsBusinessDay, UnitedStates.federalReserveIsHoliday, hs, Weekday.isWeekend]

theorem UnitedStates.liborIsBusinessDay_covered : covered 1 UnitedStates.liborIsBusinessDayExcl = true := by decide +kernel

theorem UnitedStates.liborIsBusinessDay_half {y : Int} : HalfMonthsOpen (plainCal UnitedStates.liborIsBusinessDay) y := by
  exact half_plain UnitedStates.liborIsBusinessDay_covered (fun t hy hd hw hE => UnitedStates.liborIsBusinessDay_open t hd (by simpa using hw) hE) (by omega)

/-- Fixed dates on which a Tuesday or Wednesday can be closed outside 1968-1968. -/
def UnitedStates.nyseIsBusinessDayExcl : List (Int × Int) := [
  (1, 1), (1, 2), (1, 25), (2, 10), (2, 22), (3, 31), (4, 9), (4, 27),
  (5, 29), (5, 30), (6, 11), (6, 19), (7, 4), (7, 5), (7, 14), (7, 21),
  (9, 11), (9, 12), (9, 13), (9, 14), (9, 27), (10, 29), (10, 30), (11, 1),
  (11, 2), (11, 3), (11, 4), (11, 5), (11, 6), (11, 7), (11, 25), (12, 5),
  (12, 24), (12, 25), (12, 26), (12, 28)]

theorem UnitedStates.nyseIsBusinessDay_open (t : DateInfo) (em : Int) (hy : t.y < 1968 ∨ 1968 < t.y) (hd : 1 ≤ t.d) (hw : t.w = .wed ∧ (t.dd - em) % 7 = 2 ∨ t.w = .tue ∧ (t.dd - em) % 7 = 1)
    (hE : (t.m, t.d) ∉ UnitedStates.nyseIsBusinessDayExcl) : UnitedStates.nyseIsBusinessDay t em = true := by
  have hyc : ∀ c : Int, 1968 ≤ c → c ≤ 1968 → (t.y == c) = false := fun c h1 h2 => by
    rw [beq_eq_false_iff_ne]; omega
  have hE0 : 1 ≤ t.d := hd
  rw [← Bool.not_eq_false]
  intro hF
  apply hE
  revert hF
  rcases hw with ⟨hw, hdd⟩ | ⟨hw, hdd⟩
  all_goals
    simp only [UnitedStates.isWashingtonBirthday, UnitedStates.isMemorialDay, UnitedStates.isLaborDay, UnitedStates.isColumbusDay, UnitedStates.isVeteransDay, UnitedStates.isVeteransDayNoSaturday, UnitedStates.isJuneteenth, UnitedStates.settlementIsBusinessDay, UnitedStates.liborIsBusinessDay, UnitedStates.nyseIsBusinessDay, UnitedStates.governmentBondIsBusinessDay, UnitedStates.sofrIsBusinessDay, UnitedStates.nercIsBusinessDay, UnitedStates.federalReserveIsHoliday, hyc, hw, Int.reduceLE, excl_rules]
    unfold UnitedStates.nyseIsBusinessDayExcl
    simp only [excl_rules]
    first | done | (and_intros <;> cal_fin)

theorem UnitedStates.nyseIsBusinessDay_weekend (t : DateInfo) (em : Int) (h : t.w.isWeekend = true) : UnitedStates.nyseIsBusinessDay t em = false := by
  have hs : t.w = .sat ∨ t.w = .sun := by
    revert h; cases t.w <;> simp [Weekday.isWeekend]
  rcases hs with hs | hs <;> simp [UnitedStates.isWashingtonBirthday, UnitedStates.isMemorialDay, UnitedStates.isLaborDay, UnitedStates.isColumbusDay, UnitedStates.isVeteransDay, UnitedStates.isVeteransDayNoSaturday, UnitedStates.isJuneteenth, UnitedStates.settlementIsBusinessDay, UnitedStates.liborIsBusinessDay, UnitedStates.nyseIsBusinessDay, UnitedStates.governmentBondIsBusinessDay, UnitedStates.sofrIsBusinessDay, UnitedStates.nercIsBusinessDay, UnitedStates.federalReserveIsHoliday, hs, Weekday.isWeekend]

theorem UnitedStates.nyseIsBusinessDay_covered : covered 1 UnitedStates.nyseIsBusinessDayExcl = true := by decide +kernel

theorem UnitedStates.nyseIsBusinessDay_half {y : Int} (h1 : 1901 ≤ y) (h2 : y ≤ 2199) : HalfMonthsOpen (easterCal UnitedStates.nyseIsBusinessDay) y := by
  rcases (show (1968 ≤ y ∧ y < 1968 + (1 : Nat)) ∨ (y < 1968 ∨ 1968 < y) by omega) with h | h
  · have hc : checkYears (easterCal UnitedStates.nyseIsBusinessDay) 1968 1 = true := by decide +kernel
    exact half_of_check hc h.1 h.2
  · exact half_easter h1 h2 UnitedStates.nyseIsBusinessDay_covered (fun t em hy hd hw hE => UnitedStates.nyseIsBusinessDay_open t em (by omega) hd (by simpa using hw) hE) (by omega)

/-- Fixed dates on which a Tuesday or Wednesday can be closed. -/
def UnitedStates.governmentBondIsBusinessDayExcl : List (Int × Int) := [
  (1, 1), (1, 9), (2, 22), (5, 30), (6, 11), (6, 19), (7, 4), (10, 30),
  (11, 11), (12, 5), (12, 25)]

theorem UnitedStates.governmentBondIsBusinessDay_open (t : DateInfo) (em : Int) (hd : 1 ≤ t.d) (hw : t.w = .wed ∧ (t.dd - em) % 7 = 2 ∨ t.w = .tue ∧ (t.dd - em) % 7 = 1)
    (hE : (t.m, t.d) ∉ UnitedStates.governmentBondIsBusinessDayExcl) : UnitedStates.governmentBondIsBusinessDay t em = true := by
  have hE0 : 1 ≤ t.d := hd
  rw [← Bool.not_eq_false]
  intro hF
  apply hE
  revert hF
  rcases hw with ⟨hw, hdd⟩ | ⟨hw, hdd⟩
  all_goals
    simp only [UnitedStates.isWashingtonBirthday, UnitedStates.isMemorialDay, UnitedStates.isLaborDay, UnitedStates.isColumbusDay, UnitedStates.isVeteransDay, UnitedStates.isVeteransDayNoSaturday, UnitedStates.isJuneteenth, UnitedStates.settlementIsBusinessDay, UnitedStates.liborIsBusinessDay, UnitedStates.nyseIsBusinessDay, UnitedStates.governmentBondIsBusinessDay, UnitedStates.sofrIsBusinessDay, UnitedStates.nercIsBusinessDay, UnitedStates.federalReserveIsHoliday, hw, Int.reduceLE, excl_rules]
    unfold UnitedStates.governmentBondIsBusinessDayExcl
    simp only [excl_rules]
    first | done | (and_intros <;> cal_fin)

theorem UnitedStates.governmentBondIsBusinessDay_weekend (t : DateInfo) (em : Int) (h : t.w.isWeekend = true) : UnitedStates.governmentBondIsBusinessDay t em = false := by
  have hs : t.w = .sat ∨ t.w = .sun := by
    revert h; cases t.w <;> simp [Weekday.isWeekend]
  rcases hs with hs | hs <;> simp [UnitedStates.isWashingtonBirthday, UnitedStates.isMemorialDay, UnitedStates.isLaborDay, UnitedStates.isColumbusDay, UnitedStates.isVeteransDay, UnitedStates.isVeteransDayNoSaturday, UnitedStates.isJuneteenth, UnitedStates.settlementIsBusinessDay, UnitedStates.liborIsBusinessDay, UnitedStates.nyseIsBusinessDay, UnitedStates.governmentBondIsBusinessDay, UnitedStates.sofrIsBusinessDay, UnitedStates.nercIsBusinessDay, UnitedStates.federalReserveIsHoliday, hs, Weekday.isWeekend]

theorem UnitedStates.governmentBondIsBusinessDay_covered : covered 1 UnitedStates.governmentBondIsBusinessDayExcl = true := by decide +kernel

theorem UnitedStates.governmentBondIsBusinessDay_half {y : Int} (h1 : 1901 ≤ y) (h2 : y ≤ 2199) : HalfMonthsOpen (easterCal UnitedStates.governmentBondIsBusinessDay) y := by
  exact half_easter h1 h2 UnitedStates.governmentBondIsBusinessDay_covered (fun t em hy hd hw hE => UnitedStates.governmentBondIsBusinessDay_open t em hd (by simpa using hw) hE) (by omega)

/-- Fixed dates on which a Tuesday or Wednesday can be closed. -/
def UnitedStates.sofrIsBusinessDayExcl : List (Int × Int) := [
  (1, 1), (1, 9), (2, 22), (5, 30), (6, 11), (6, 19), (7, 4), (10, 30),
  (11, 11), (12, 5), (12, 25)]

theorem UnitedStates.sofrIsBusinessDay_open (t : DateInfo) (em : Int) (hd : 1 ≤ t.d) (hw : t.w = .wed ∧ (t.dd - em) % 7 = 2 ∨ t.w = .tue ∧ (t.dd - em) % 7 = 1)
    (hE : (t.m, t.d) ∉ UnitedStates.sofrIsBusinessDayExcl) : UnitedStates.sofrIsBusinessDay t em = true := by
  have hE0 : 1 ≤ t.d := hd
  rw [← Bool.not_eq_false]
  intro hF
  apply hE
  revert hF
  rcases hw with ⟨hw, hdd⟩ | ⟨hw, hdd⟩
  all_goals
    simp only [UnitedStates.isWashingtonBirthday, UnitedStates.isMemorialDay, UnitedStates.isLaborDay, UnitedStates.isColumbusDay, UnitedStates.isVeteransDay, UnitedStates.isVeteransDayNoSaturday, UnitedStates.isJuneteenth, UnitedStates.settlementIsBusinessDay, UnitedStates.liborIsBusinessDay, UnitedStates.nyseIsBusinessDay, UnitedStates.governmentBondIsBusinessDay, UnitedStates.sofrIsBusinessDay, UnitedStates.nercIsBusinessDay, UnitedStates.federalReserveIsHoliday, hw, Int.reduceLE, excl_rules]
    unfold UnitedStates.sofrIsBusinessDayExcl
    simp only [excl_rules]
    first | done | (and_intros <;> cal_fin)

theorem UnitedStates.sofrIsBusinessDay_weekend (t : DateInfo) (em : Int) (h : t.w.isWeekend = true) : UnitedStates.sofrIsBusinessDay t em = false := by
  have hs : t.w = .sat ∨ t.w = .sun := by
    revert h; cases t.w <;> simp [Weekday.isWeekend]
  rcases hs with hs | hs <;> simp [UnitedStates.isWashingtonBirthday, UnitedStates.isMemorialDay, UnitedStates.isLaborDay, UnitedStates.isColumbusDay, UnitedStates.isVeteransDay, UnitedStates.isVeteransDayNoSaturday, UnitedStates.isJuneteenth, UnitedStates.settlementIsBusinessDay, UnitedStates.liborIsBusinessDay, UnitedStates.nyseIsBusinessDay, UnitedStates.governmentBondIsBusinessDay, UnitedStates.sofrIsBusinessDay, UnitedStates.nercIsBusinessDay, UnitedStates.federalReserveIsHoliday, hs, Weekday.isWeekend]

theorem UnitedStates.sofrIsBusinessDay_covered : covered 1 UnitedStates.sofrIsBusinessDayExcl = true := by decide +kernel

theorem UnitedStates.sofrIsBusinessDay_half {y : Int} (h1 : 1901 ≤ y) (h2 : y ≤ 2199) : HalfMonthsOpen (easterCal UnitedStates.sofrIsBusinessDay) y := by
  exact half_easter h1 h2 UnitedStates.sofrIsBusinessDay_covered (fun t em hy hd hw hE => UnitedStates.sofrIsBusinessDay_open t em hd (by simpa using hw) hE) (by omega)

/-- Fixed dates on which a Tuesday or Wednesday can be closed. -/
def UnitedStates.nercIsBusinessDayExcl : List (Int × Int) := [
  (1, 1), (5, 30), (7, 4), (12, 25)]

theorem UnitedStates.nercIsBusinessDay_open (t : DateInfo) (hd : 1 ≤ t.d) (hw : t.w = .wed ∨ t.w = .tue)
    (hE : (t.m, t.d) ∉ UnitedStates.nercIsBusinessDayExcl) : UnitedStates.nercIsBusinessDay t = true := by
  have hE0 : 1 ≤ t.d := hd
  rw [← Bool.not_eq_false]
  intro hF
  apply hE
  revert hF
  rcases hw with hw | hw
  all_goals
    simp only [UnitedStates.isWashingtonBirthday, UnitedStates.isMemorialDay, UnitedStates.isLaborDay, UnitedStates.isColumbusDay, UnitedStates.isVeteransDay, UnitedStates.isVeteransDayNoSaturday, UnitedStates.isJuneteenth, UnitedStates.settlementIsBusinessDay, UnitedStates.liborIsBusinessDay, UnitedStates.nyseIsBusinessDay, UnitedStates.governmentBondIsBusinessDay, UnitedStates.sofrIsBusinessDay, UnitedStates.nercIsBusinessDay, UnitedStates.federalReserveIsHoliday, hw, Int.reduceLE, excl_rules]
    unfold UnitedStates.nercIsBusinessDayExcl
    simp only [excl_rules]
    first | done | (and_intros <;> cal_fin)

theorem UnitedStates.nercIsBusinessDay_weekend (t : DateInfo) (h : t.w.isWeekend = true) : UnitedStates.nercIsBusinessDay t = false := by
  have hs : t.w = .sat ∨ t.w = .sun := by
    revert h; cases t.w <;> simp [Weekday.isWeekend]
  rcases hs with hs | hs <;> simp [UnitedStates.isWashingtonBirthday, UnitedStates.isMemorialDay, UnitedStates.isLaborDay, UnitedStates.isColumbusDay, UnitedStates.isVeteransDay, UnitedStates.isVeteransDayNoSaturday, UnitedStates.isJuneteenth, UnitedStates.settlementIsBusinessDay, UnitedStates.liborIsBusinessDay, UnitedStates.nyseIsBusinessDay, UnitedStates.governmentBondIsBusinessDay, UnitedStates.sofrIsBusinessDay, UnitedStates.nercIsBusinessDay, UnitedStates.federalReserveIsHoliday, hs, Weekday.isWeekend]

theorem UnitedStates.nercIsBusinessDay_covered : covered 1 UnitedStates.nercIsBusinessDayExcl = true := by decide +kernel

theorem UnitedStates.nercIsBusinessDay_half {y : Int} : HalfMonthsOpen (plainCal UnitedStates.nercIsBusinessDay) y := by
  exact half_plain UnitedStates.nercIsBusinessDay_covered (fun t hy hd hw hE => UnitedStates.nercIsBusinessDay_open t hd (by simpa using hw) hE) (by omega)

/-- Fixed dates on which a Tuesday or Wednesday can be closed. -/
def UnitedStates.federalReserveIsHolidayExcl : List (Int × Int) := [
  (1, 1), (2, 22), (5, 30), (6, 19), (7, 4), (11, 11), (12, 25)]

theorem UnitedStates.federalReserveIsHoliday_open (t : DateInfo) (hd : 1 ≤ t.d) (hw : t.w = .wed ∨ t.w = .tue)
    (hE : (t.m, t.d) ∉ UnitedStates.federalReserveIsHolidayExcl) : UnitedStates.federalReserveIsHoliday t = true := by
  have hE0 : 1 ≤ t.d := hd
  rw [← Bool.not_eq_false]
  intro hF
  apply hE
  revert hF
  rcases hw with hw | hw
  all_goals
    simp only [UnitedStates.isWashingtonBirthday, UnitedStates.isMemorialDay, UnitedStates.isLaborDay, UnitedStates.isColumbusDay, UnitedStates.isVeteransDay, UnitedStates.isVeteransDayNoSaturday, UnitedStates.isJuneteenth, UnitedStates.settlementIsBusinessDay, UnitedStates.liborIsBusinessDay, UnitedStates.nyseIsBusinessDay, UnitedStates.governmentBondIsBusinessDay, UnitedStates.sofrIsBusinessDay, UnitedStates.nercIsBusinessDay, UnitedStates.federalReserveIsHoliday, hw, Int.reduceLE, excl_rules]
    unfold UnitedStates.federalReserveIsHolidayExcl
    simp only [excl_rules]
    first | done | (and_intros <;> cal_fin)

theorem UnitedStates.federalReserveIsHoliday_weekend (t : DateInfo) (h : t.w.isWeekend = true) : UnitedStates.federalReserveIsHoliday t = false := by
  have hs : t.w = .sat ∨ t.w = .sun := by
    revert h; cases t.w <;> simp [Weekday.isWeekend]
  rcases hs with hs | hs <;> simp [UnitedStates.isWashingtonBirthday, UnitedStates.isMemorialDay, UnitedStates.isLaborDay, UnitedStates.isColumbusDay, UnitedStates.isVeteransDay, UnitedStates.isVeteransDayNoSaturday, UnitedStates.isJuneteenth, UnitedStates.settlementIsBusinessDay, UnitedStates.liborIsBusinessDay, UnitedStates.nyseIsBusinessDay, UnitedStates.governmentBondIsBusinessDay, UnitedStates.sofrIsBusinessDay, UnitedStates.nercIsBusinessDay, UnitedStates.federalReserveIsHoliday, hs, Weekday.isWeekend]

theorem UnitedStates.federalReserveIsHoliday_covered : covered 1 UnitedStates.federalReserveIsHolidayExcl = true := by decide +kernel

theorem UnitedStates.federalReserveIsHoliday_half {y : Int} : HalfMonthsOpen (plainCal UnitedStates.federalReserveIsHoliday) y := by
  exact half_plain UnitedStates.federalReserveIsHoliday_covered (fun t hy hd hw hE => UnitedStates.federalReserveIsHoliday_open t hd (by simpa using hw) hE) (by omega)

end Verif
