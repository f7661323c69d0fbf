import Verif.Lemmas.CalWindow
import Verif.Model.Cal.Switzerland

/-! # Open days of the calendar `switzerland` -/

set_option linter.unusedSimpArgs false

namespace Verif

/-- Fixed dates on which a Wednesday can be closed. -/
def Switzerland.ruleExcl : List (Int × Int) := [
  (1, 1), (1, 2), (5, 1), (8, 1), (12, 25), (12, 26)]

theorem Switzerland.rule_open (t : DateInfo) (em : Int) (hw : t.w = .wed ∧ (t.dd - em) % 7 = 2)
    (hE : (t.m, t.d) ∉ Switzerland.ruleExcl) : Switzerland.rule t em = true := by
  rw [← Bool.not_eq_false]
  intro hF
  apply hE
  revert hF
  obtain ⟨hw, hdd⟩ := hw
  simp only [Switzerland.rule, hw, Int.reduceLE, excl_rules]
  unfold Switzerland.ruleExcl
  simp only [excl_rules]
  and_intros <;> cal_fin

theorem Switzerland.rule_weekend (t : DateInfo) (em : Int) (h : t.w.isWeekend = true) : Switzerland.rule t em = false := by
  simp only [Switzerland.rule, h, Bool.true_or, Bool.or_true, Bool.and_false, Bool.false_and, Bool.not_true, Bool.not_false, cond_true, cond_false]

theorem Switzerland.rule_covered : covered 0 Switzerland.ruleExcl = true := by decide +kernel

theorem Switzerland.rule_half {y : Int} (h1 : 1901 ≤ y) (h2 : y ≤ 2199) : HalfMonthsOpen (easterCal Switzerland.rule) y := by
  exact half_easter h1 h2 Switzerland.rule_covered (fun t em hy _ hw hE => Switzerland.rule_open t em (hw.resolve_right (by omega)) hE) (by omega)

end Verif
