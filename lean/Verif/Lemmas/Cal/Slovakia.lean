import Verif.Lemmas.CalWindow
import Verif.Model.Cal.Slovakia

/-! # Open days of the calendar `slovakia` -/

set_option linter.unusedSimpArgs false

namespace Verif

/-- Fixed dates on which a Wednesday can be closed. -/
def Slovakia.ruleExcl : List (Int × Int) := [
  (1, 1), (1, 6), (5, 1), (5, 8), (7, 5), (8, 29), (9, 1), (9, 15),
  (11, 1), (11, 17), (12, 24), (12, 25), (12, 26), (12, 27), (12, 28), (12, 29),
  (12, 30), (12, 31)]

theorem Slovakia.rule_open (t : DateInfo) (em : Int) (hw : t.w = .wed ∧ (t.dd - em) % 7 = 2)
    (hE : (t.m, t.d) ∉ Slovakia.ruleExcl) : Slovakia.rule t em = true := by
  rw [← Bool.not_eq_false]
  intro hF
  apply hE
  revert hF
  obtain ⟨hw, hdd⟩ := hw
  simp only [Slovakia.rule, hw, Int.reduceLE, excl_rules]
  unfold Slovakia.ruleExcl
  simp only [excl_rules]
  and_intros <;> cal_fin

theorem Slovakia.rule_weekend (t : DateInfo) (em : Int) (h : t.w.isWeekend = true) : Slovakia.rule t em = false := by
  simp only [Slovakia.rule, h, Bool.true_or, Bool.or_true, Bool.and_false, Bool.false_and, Bool.not_true, Bool.not_false, cond_true, cond_false]

theorem Slovakia.rule_covered : covered 0 Slovakia.ruleExcl = true := by decide +kernel

theorem Slovakia.rule_half {y : Int} (h1 : 1901 ≤ y) (h2 : y ≤ 2199) : HalfMonthsOpen (easterCal Slovakia.rule) y := by
  exact half_easter h1 h2 Slovakia.rule_covered (fun t em hy _ hw hE => Slovakia.rule_open t em (hw.resolve_right (by omega)) hE) (by omega)

end Verif
