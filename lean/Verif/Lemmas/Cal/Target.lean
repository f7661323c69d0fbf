import Verif.Lemmas.CalWindow
import Verif.Model.Cal.Target

/-! # Open days of the calendar `target` -/

set_option linter.unusedSimpArgs false

namespace Verif

/-- Fixed dates on which a Wednesday can be closed. -/
def Target.ruleExcl : List (Int × Int) := [
  (1, 1), (5, 1), (12, 25), (12, 26), (12, 31)]

theorem Target.rule_open (t : DateInfo) (em : Int) (hw : t.w = .wed ∧ (t.dd - em) % 7 = 2)
    (hE : (t.m, t.d) ∉ Target.ruleExcl) : Target.rule t em = true := by
  rw [← Bool.not_eq_false]
  intro hF
  apply hE
  revert hF
  obtain ⟨hw, hdd⟩ := hw
  simp only [Target.rule, hw, Int.reduceLE, excl_rules]
  unfold Target.ruleExcl
  simp only [excl_rules]
  and_intros <;> cal_fin

theorem Target.rule_weekend (t : DateInfo) (em : Int) (h : t.w.isWeekend = true) : Target.rule t em = false := by
  simp only [Target.rule, h, Bool.true_or, Bool.or_true, Bool.and_false, Bool.false_and, Bool.not_true, Bool.not_false, cond_true, cond_false]

theorem Target.rule_covered : covered 0 Target.ruleExcl = true := by decide +kernel

theorem Target.rule_half {y : Int} (h1 : 1901 ≤ y) (h2 : y ≤ 2199) : HalfMonthsOpen (easterCal Target.rule) y := by
  exact half_easter h1 h2 Target.rule_covered (fun t em hy _ hw hE => Target.rule_open t em (hw.resolve_right (by omega)) hE) (by omega)

end Verif
