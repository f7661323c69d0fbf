import Verif.Lemmas.CalWindow
import Verif.Model.Cal.Japan

/-! # Open days of the calendar `japan` -/

set_option linter.unusedSimpArgs false

namespace Verif

/-- Fixed dates on which a Tuesday or Wednesday can be closed. -/
def Japan.ruleExcl : List (Int × Int) := [
  (1, 1), (1, 2), (1, 3), (1, 15), (2, 11), (2, 23), (2, 24), (3, 20),
  (3, 21), (4, 10), (4, 29), (4, 30), (5, 1), (5, 2), (5, 3), (5, 4),
  (5, 5), (5, 6), (6, 9), (7, 20), (7, 22), (7, 23), (7, 24), (8, 9),
  (8, 10), (8, 11), (9, 15), (9, 21), (9, 22), (9, 23), (10, 10), (10, 22),
  (11, 3), (11, 12), (11, 23), (12, 23), (12, 31)]

theorem Japan.rule_open (t : DateInfo) (hw : t.w = .wed ∨ t.w = .tue)
    (hE : (t.m, t.d) ∉ Japan.ruleExcl) : Japan.rule t = true := by
  have hv : Japan.vernalEquinoxDay t.y = 20 ∨ Japan.vernalEquinoxDay t.y = 21 := by
    unfold Japan.vernalEquinoxDay; rw [cond_eq_ite]; split <;> simp
  have ha : Japan.autumnalEquinoxDay t.y = 22 ∨ Japan.autumnalEquinoxDay t.y = 23 := by
    unfold Japan.autumnalEquinoxDay; rw [cond_eq_ite]; split <;> simp
  rw [← Bool.not_eq_false]
  intro hF
  apply hE
  revert hF
  rcases hw with hw | hw
  all_goals
    simp only [Japan.rule, hw, Int.reduceLE, excl_rules]
    unfold Japan.ruleExcl
    simp only [excl_rules]
    first | done | (and_intros <;> cal_fin)

theorem Japan.rule_weekend (t : DateInfo) (h : t.w.isWeekend = true) : Japan.rule t = false := by
  simp only [Japan.rule, h, Bool.true_or, Bool.or_true, Bool.and_false, Bool.false_and, Bool.not_true, Bool.not_false, cond_true, cond_false]

theorem Japan.rule_covered : covered 1 Japan.ruleExcl = true := by decide +kernel

theorem Japan.rule_half {y : Int} : HalfMonthsOpen (plainCal Japan.rule) y := by
  exact half_plain Japan.rule_covered (fun t hy _ hw hE => Japan.rule_open t (by simpa using hw) hE) (by omega)

end Verif
