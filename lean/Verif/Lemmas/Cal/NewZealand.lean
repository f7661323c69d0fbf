import Verif.Lemmas.CalWindow
import Verif.Model.Cal.NewZealand

/-! # Open days of the calendar `newzealand` -/

set_option linter.unusedSimpArgs false

namespace Verif

/-- Fixed dates on which a Wednesday can be closed outside 2022-2052. -/
def NewZealand.wellingtonIsBusinessDayExcl : List (Int × Int) := [
  (1, 1), (1, 2), (2, 6), (4, 25), (12, 25), (12, 26)]

theorem NewZealand.wellingtonIsBusinessDay_open (t : DateInfo) (em : Int) (hy : t.y < 2022 ∨ 2052 < t.y) (hw : t.w = .wed ∧ (t.dd - em) % 7 = 2)
    (hE : (t.m, t.d) ∉ NewZealand.wellingtonIsBusinessDayExcl) : NewZealand.wellingtonIsBusinessDay t em = true := by
  have hyc : ∀ c : Int, 2022 ≤ c → c ≤ 2052 → (t.y == c) = false := fun c h1 h2 => by
    rw [beq_eq_false_iff_ne]; omega
  rw [← Bool.not_eq_false]
  intro hF
  apply hE
  revert hF
  obtain ⟨hw, hdd⟩ := hw
  simp only [NewZealand.commonIsBusinessDay, NewZealand.wellingtonIsBusinessDay, NewZealand.aucklandIsBusinessDay, hyc, hw, Int.reduceLE, excl_rules]
  unfold NewZealand.wellingtonIsBusinessDayExcl
  simp only [excl_rules]
  and_intros <;> cal_fin

theorem NewZealand.wellingtonIsBusinessDay_weekend (t : DateInfo) (em : Int) (h : t.w.isWeekend = true) : NewZealand.wellingtonIsBusinessDay t em = false := by
  simp only [NewZealand.commonIsBusinessDay, NewZealand.wellingtonIsBusinessDay, NewZealand.aucklandIsBusinessDay, h, Bool.true_or, Bool.or_true, Bool.and_false, Bool.false_and, Bool.not_true, Bool.not_false, cond_true, cond_false]

theorem NewZealand.wellingtonIsBusinessDay_covered : covered 0 NewZealand.wellingtonIsBusinessDayExcl = true := by decide +kernel

theorem NewZealand.wellingtonIsBusinessDay_half {y : Int} (h1 : 1901 ≤ y) (h2 : y ≤ 2199) : HalfMonthsOpen (easterCal NewZealand.wellingtonIsBusinessDay) y := by
  rcases (show (2022 ≤ y ∧ y < 2022 + (31 : Nat)) ∨ (y < 2022 ∨ 2052 < y) by omega) with h | h
  · have hc : checkYears (easterCal NewZealand.wellingtonIsBusinessDay) 2022 31 = true := by decide +kernel
    exact half_of_check hc h.1 h.2
  · exact half_easter h1 h2 NewZealand.wellingtonIsBusinessDay_covered (fun t em hy _ hw hE => NewZealand.wellingtonIsBusinessDay_open t em (by omega) (hw.resolve_right (by omega)) hE) (by omega)

/-- Fixed dates on which a Wednesday can be closed outside 2022-2052. -/
def NewZealand.aucklandIsBusinessDayExcl : List (Int × Int) := [
  (1, 1), (1, 2), (2, 6), (4, 25), (12, 25), (12, 26)]

theorem NewZealand.aucklandIsBusinessDay_open (t : DateInfo) (em : Int) (hy : t.y < 2022 ∨ 2052 < t.y) (hw : t.w = .wed ∧ (t.dd - em) % 7 = 2)
    (hE : (t.m, t.d) ∉ NewZealand.aucklandIsBusinessDayExcl) : NewZealand.aucklandIsBusinessDay t em = true := by
  have hyc : ∀ c : Int, 2022 ≤ c → c ≤ 2052 → (t.y == c) = false := fun c h1 h2 => by
    rw [beq_eq_false_iff_ne]; omega
  rw [← Bool.not_eq_false]
  intro hF
  apply hE
  revert hF
  obtain ⟨hw, hdd⟩ := hw
  simp only [NewZealand.commonIsBusinessDay, NewZealand.wellingtonIsBusinessDay, NewZealand.aucklandIsBusinessDay, hyc, hw, Int.reduceLE, excl_rules]
  unfold NewZealand.aucklandIsBusinessDayExcl
  simp only [excl_rules]
  and_intros <;> cal_fin

theorem NewZealand.aucklandIsBusinessDay_weekend (t : DateInfo) (em : Int) (h : t.w.isWeekend = true) : NewZealand.aucklandIsBusinessDay t em = false := by
  simp only [NewZealand.commonIsBusinessDay, NewZealand.wellingtonIsBusinessDay, NewZealand.aucklandIsBusinessDay, h, Bool.true_or, Bool.or_true, Bool.and_false, Bool.false_and, Bool.not_true, Bool.not_false, cond_true, cond_false]

theorem NewZealand.aucklandIsBusinessDay_covered : covered 0 NewZealand.aucklandIsBusinessDayExcl = true := by decide +kernel

theorem NewZealand.aucklandIsBusinessDay_half {y : Int} (h1 : 1901 ≤ y) (h2 : y ≤ 2199) : HalfMonthsOpen (easterCal NewZealand.aucklandIsBusinessDay) y := by
  rcases (show (2022 ≤ y ∧ y < 2022 + (31 : Nat)) ∨ (y < 2022 ∨ 2052 < y) by omega) with h | h
  · have hc : checkYears (easterCal NewZealand.aucklandIsBusinessDay) 2022 31 = true := by decide +kernel
    exact half_of_check hc h.1 h.2
  · exact half_easter h1 h2 NewZealand.aucklandIsBusinessDay_covered (fun t em hy _ hw hE => NewZealand.aucklandIsBusinessDay_open t em (by omega) (hw.resolve_right (by omega)) hE) (by omega)

end Verif
