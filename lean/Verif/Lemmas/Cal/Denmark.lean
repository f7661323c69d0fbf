import Verif.Lemmas.CalWindow
import Verif.Model.Cal.Denmark

/-! # Open days of the calendar `denmark` -/

set_option linter.unusedSimpArgs false

namespace Verif

/-- Fixed dates on which a Wednesday can be closed. -/
def Denmark.ruleExcl : List (Int × Int) := [
  (1, 1), (6, 5), (12, 24), (12, 25), (12, 26), (12, 31)]

theorem Denmark.rule_open (t : DateInfo) (em : Int) (hw : t.w = .wed ∧ (t.dd - em) % 7 = 2)
    (hE : (t.m, t.d) ∉ Denmark.ruleExcl) : Denmark.rule t em = true := by
  rw [← Bool.not_eq_false]
  intro hF
  apply hE
  revert hF
  obtain ⟨hw, hdd⟩ := hw
  simp only [Denmark.rule, hw, Int.reduceLE, excl_rules]
  unfold Denmark.ruleExcl
  simp only [excl_rules]
  and_intros <;> cal_fin

theorem Denmark.rule_weekend (t : DateInfo) (em : Int) (h : t.w.isWeekend = true) : Denmark.rule t em = false := by
  simp only [Denmark.rule, h, Bool.true_or, Bool.or_true, Bool.and_false, Bool.false_and, Bool.not_true, Bool.not_false, cond_true, cond_false]

theorem Denmark.rule_covered : covered 0 Denmark.ruleExcl = true := by decide +kernel

theorem Denmark.rule_half {y : Int} (h1 : 1901 ≤ y) (h2 : y ≤ 2199) : HalfMonthsOpen (easterCal Denmark.rule) y := by
  exact half_easter h1 h2 Denmark.rule_covered (fun t em hy _ hw hE => Denmark.rule_open t em (hw.resolve_right (by omega)) hE) (by omega)

end Verif
