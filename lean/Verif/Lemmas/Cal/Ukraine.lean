import Verif.Lemmas.CalWindow
import Verif.Model.Cal.Ukraine

/-! # Open days of the calendar `ukraine` -/

set_option linter.unusedSimpArgs false

namespace Verif

/-- Fixed dates on which a Tuesday or Wednesday can be closed. -/
def Ukraine.ruleExcl : List (Int × Int) := [
  (1, 1), (1, 7), (3, 8), (5, 1), (5, 2), (5, 9), (6, 28), (8, 24),
  (10, 14)]

theorem Ukraine.rule_open (t : DateInfo) (em : Int) (hw : t.w = .wed ∧ (t.dd - em) % 7 = 2 ∨ t.w = .tue ∧ (t.dd - em) % 7 = 1)
    (hE : (t.m, t.d) ∉ Ukraine.ruleExcl) : Ukraine.rule t em = true := by
  rw [← Bool.not_eq_false]
  intro hF
  apply hE
  revert hF
  rcases hw with ⟨hw, hdd⟩ | ⟨hw, hdd⟩
  all_goals
    simp only [Ukraine.rule, hw, Int.reduceLE, excl_rules]
    unfold Ukraine.ruleExcl
    simp only [excl_rules]
    first | done | (and_intros <;> cal_fin)

theorem Ukraine.rule_weekend (t : DateInfo) (em : Int) (h : t.w.isWeekend = true) : Ukraine.rule t em = false := by
  simp only [Ukraine.rule, h, Bool.true_or, Bool.or_true, Bool.and_false, Bool.false_and, Bool.not_true, Bool.not_false, cond_true, cond_false]

theorem Ukraine.rule_covered : covered 1 Ukraine.ruleExcl = true := by decide +kernel

theorem Ukraine.rule_half {y : Int} (h1 : 1901 ≤ y) (h2 : y ≤ 2199) : HalfMonthsOpen (easterCal Ukraine.rule) y := by
  exact half_easter h1 h2 Ukraine.rule_covered (fun t em hy _ hw hE => Ukraine.rule_open t em (by simpa using hw) hE) (by omega)

end Verif
