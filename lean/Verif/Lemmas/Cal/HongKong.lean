import Verif.Lemmas.CalWindow
import Verif.Model.Cal.HongKong

/-! # Open days of the calendar `hongkong` -/

set_option linter.unusedSimpArgs false

namespace Verif

/-- Fixed dates on which a Wednesday can be closed outside 2004-2025. -/
def HongKong.ruleExcl : List (Int × Int) := [
  (1, 1), (5, 1), (7, 1), (10, 1), (12, 25), (12, 26)]

theorem HongKong.rule_open (t : DateInfo) (em : Int) (hy : t.y < 2004 ∨ 2025 < t.y) (hw : t.w = .wed ∧ (t.dd - em) % 7 = 2)
    (hE : (t.m, t.d) ∉ HongKong.ruleExcl) : HongKong.rule t em = true := by
  have hyc : ∀ c : Int, 2004 ≤ c → c ≤ 2025 → (t.y == c) = false := fun c h1 h2 => by
    rw [beq_eq_false_iff_ne]; omega
  have hs : HongKong.specialHolidays.contains (t.y, t.d, t.m) = false := by
    rw [List.contains_eq_mem, decide_eq_false_iff_not]
    intro hmem
    have hall : ∀ x ∈ HongKong.specialHolidays, 2004 ≤ x.1 ∧ x.1 ≤ 2025 := by decide +kernel
    have := hall _ hmem
    simp only at this; omega
  rw [← Bool.not_eq_false]
  intro hF
  apply hE
  revert hF
  obtain ⟨hw, hdd⟩ := hw
  simp only [HongKong.isFixedOrObservedHoliday, HongKong.rule, hyc, hs, hw, Int.reduceLE, excl_rules]
  unfold HongKong.ruleExcl
  simp only [excl_rules]
  and_intros <;> cal_fin

theorem HongKong.rule_weekend (t : DateInfo) (em : Int) (h : t.w.isWeekend = true) : HongKong.rule t em = false := by
  simp only [HongKong.isFixedOrObservedHoliday, HongKong.rule, h, Bool.true_or, Bool.or_true, Bool.and_false, Bool.false_and, Bool.not_true, Bool.not_false, cond_true, cond_false]

theorem HongKong.rule_covered : covered 0 HongKong.ruleExcl = true := by decide +kernel

theorem HongKong.rule_half {y : Int} (h1 : 1901 ≤ y) (h2 : y ≤ 2199) : HalfMonthsOpen (easterCal HongKong.rule) y := by
  rcases (show (2004 ≤ y ∧ y < 2004 + (22 : Nat)) ∨ (y < 2004 ∨ 2025 < y) by omega) with h | h
  · have hc : checkYears (easterCal HongKong.rule) 2004 22 = true := by decide +kernel
    exact half_of_check hc h.1 h.2
  · exact half_easter h1 h2 HongKong.rule_covered (fun t em hy _ hw hE => HongKong.rule_open t em (by omega) (hw.resolve_right (by omega)) hE) (by omega)

end Verif
