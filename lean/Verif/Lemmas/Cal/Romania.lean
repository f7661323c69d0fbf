import Verif.Lemmas.CalWindow
import Verif.Model.Cal.Romania

/-! # Open days of the calendar `romania` -/

set_option linter.unusedSimpArgs false

namespace Verif

/-- Fixed dates on which a Wednesday can be closed. -/
def Romania.ruleExcl : List (Int × Int) := [
  (1, 1), (1, 2), (1, 24), (5, 1), (6, 1), (8, 15), (11, 30), (12, 1),
  (12, 25), (12, 26)]

theorem Romania.rule_open (t : DateInfo) (em : Int) (hw : t.w = .wed ∧ (t.dd - em) % 7 = 2)
    (hE : (t.m, t.d) ∉ Romania.ruleExcl) : Romania.rule t em = true := by
  rw [← Bool.not_eq_false]
  intro hF
  apply hE
  revert hF
  obtain ⟨hw, hdd⟩ := hw
  simp only [Romania.rule, hw, Int.reduceLE, excl_rules]
  unfold Romania.ruleExcl
  simp only [excl_rules]
  and_intros <;> cal_fin

theorem Romania.rule_weekend (t : DateInfo) (em : Int) (h : t.w.isWeekend = true) : Romania.rule t em = false := by
  simp only [Romania.rule, h, Bool.true_or, Bool.or_true, Bool.and_false, Bool.false_and, Bool.not_true, Bool.not_false, cond_true, cond_false]

theorem Romania.rule_covered : covered 0 Romania.ruleExcl = true := by decide +kernel

theorem Romania.rule_half {y : Int} (h1 : 1901 ≤ y) (h2 : y ≤ 2199) : HalfMonthsOpen (orthodoxCal Romania.rule) y := by
  exact half_orthodox h1 h2 Romania.rule_covered (fun t em hy _ hw hE => Romania.rule_open t em (hw.resolve_right (by omega)) hE) (by omega)

end Verif
