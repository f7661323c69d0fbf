import Verif.Lemmas.CalWindow
import Verif.Model.Cal.China

/-! # Open days of the calendar `china` -/

set_option linter.unusedSimpArgs false

namespace Verif

/-- Fixed dates on which a Wednesday can be closed outside 2004-2026. -/
def China.ruleExcl : List (Int × Int) := [
  (1, 1), (4, 4), (5, 1), (5, 2), (5, 3), (5, 4), (5, 5), (5, 6),
  (5, 7), (6, 9), (9, 15), (10, 1), (10, 2), (10, 3), (10, 4), (10, 5),
  (10, 6), (10, 7)]

theorem China.rule_open (t : DateInfo) (hy : t.y < 2004 ∨ 2026 < t.y) (hw : t.w = .wed)
    (hE : (t.m, t.d) ∉ China.ruleExcl) : China.rule t = true := by
  have hyc : ∀ c : Int, 2004 ≤ c → c ≤ 2026 → (t.y == c) = false := fun c h1 h2 => by
    rw [beq_eq_false_iff_ne]; omega
  rw [← Bool.not_eq_false]
  intro hF
  apply hE
  revert hF
  simp only [China.rule, hyc, hw, Int.reduceLE, excl_rules]
  unfold China.ruleExcl
  simp only [excl_rules]
  and_intros <;> cal_fin

theorem China.rule_weekend (t : DateInfo) (h : t.w.isWeekend = true) : China.rule t = false := by
  simp only [China.rule, h, Bool.true_or, Bool.or_true, Bool.and_false, Bool.false_and, Bool.not_true, Bool.not_false, cond_true, cond_false]

theorem China.rule_covered : covered 0 China.ruleExcl = true := by decide +kernel

theorem China.rule_half {y : Int} : HalfMonthsOpen (plainCal China.rule) y := by
  rcases (show (2004 ≤ y ∧ y < 2004 + (23 : Nat)) ∨ (y < 2004 ∨ 2026 < y) by omega) with h | h
  · have hc : checkYears (plainCal China.rule) 2004 23 = true := by decide +kernel
    exact half_of_check hc h.1 h.2
  · exact half_plain China.rule_covered (fun t hy _ hw hE => China.rule_open t (by omega) (hw.resolve_right (by omega)) hE) (by omega)

end Verif
