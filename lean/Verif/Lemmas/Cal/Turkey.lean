import Verif.Lemmas.CalWindow
import Verif.Model.Cal.Turkey

/-! # Open days of the calendar `turkey` -/

set_option linter.unusedSimpArgs false

namespace Verif

/-- Fixed dates on which a Wednesday can be closed outside 2004-2034. -/
def Turkey.ruleExcl : List (Int × Int) := [
  (1, 1), (4, 23), (5, 1), (5, 19), (7, 15), (8, 30), (10, 29)]

theorem Turkey.rule_open (t : DateInfo) (hy : t.y < 2004 ∨ 2034 < t.y) (hw : t.w = .wed)
    (hE : (t.m, t.d) ∉ Turkey.ruleExcl) : Turkey.rule t = true := by
  have hyc : ∀ c : Int, 2004 ≤ c → c ≤ 2034 → (t.y == c) = false := fun c h1 h2 => by
    rw [beq_eq_false_iff_ne]; omega
  rw [← Bool.not_eq_false]
  intro hF
  apply hE
  revert hF
  simp only [Turkey.rule, hyc, hw, Int.reduceLE, excl_rules]
  unfold Turkey.ruleExcl
  simp only [excl_rules]
  and_intros <;> cal_fin

theorem Turkey.rule_weekend (t : DateInfo) (h : t.w.isWeekend = true) : Turkey.rule t = false := by
  simp only [Turkey.rule, h, Bool.true_or, Bool.or_true, Bool.and_false, Bool.false_and, Bool.not_true, Bool.not_false, cond_true, cond_false]

theorem Turkey.rule_covered : covered 0 Turkey.ruleExcl = true := by decide +kernel

theorem Turkey.rule_half {y : Int} : HalfMonthsOpen (plainCal Turkey.rule) y := by
  rcases (show (2004 ≤ y ∧ y < 2004 + (31 : Nat)) ∨ (y < 2004 ∨ 2034 < y) by omega) with h | h
  · have hc : checkYears (plainCal Turkey.rule) 2004 31 = true := by decide +kernel
    exact half_of_check hc h.1 h.2
  · exact half_plain Turkey.rule_covered (fun t hy _ hw hE => Turkey.rule_open t (by omega) (hw.resolve_right (by omega)) hE) (by omega)

end Verif
