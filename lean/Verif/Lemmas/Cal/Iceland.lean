import Verif.Lemmas.CalWindow
import Verif.Model.Cal.Iceland

/-! # Open days of the calendar `iceland` -/

set_option linter.unusedSimpArgs false

namespace Verif

/-- Fixed dates on which a Wednesday can be closed. -/
def Iceland.ruleExcl : List (Int × Int) := [
  (1, 1), (5, 1), (6, 17), (12, 25), (12, 26)]

theorem Iceland.rule_open (t : DateInfo) (em : Int) (hw : t.w = .wed ∧ (t.dd - em) % 7 = 2)
    (hE : (t.m, t.d) ∉ Iceland.ruleExcl) : Iceland.rule t em = true := by
  rw [← Bool.not_eq_false]
  intro hF
  apply hE
  revert hF
  obtain ⟨hw, hdd⟩ := hw
  simp only [Iceland.rule, hw, Int.reduceLE, excl_rules]
  unfold Iceland.ruleExcl
  simp only [excl_rules]
  and_intros <;> cal_fin

theorem Iceland.rule_weekend (t : DateInfo) (em : Int) (h : t.w.isWeekend = true) : Iceland.rule t em = false := by
  simp only [Iceland.rule, h, Bool.true_or, Bool.or_true, Bool.and_false, Bool.false_and, Bool.not_true, Bool.not_false, cond_true, cond_false]

theorem Iceland.rule_covered : covered 0 Iceland.ruleExcl = true := by decide +kernel

theorem Iceland.rule_half {y : Int} (h1 : 1901 ≤ y) (h2 : y ≤ 2199) : HalfMonthsOpen (easterCal Iceland.rule) y := by
  exact half_easter h1 h2 Iceland.rule_covered (fun t em hy _ hw hE => Iceland.rule_open t em (hw.resolve_right (by omega)) hE) (by omega)

end Verif
