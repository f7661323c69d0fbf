import Verif.Lemmas.CalWindow
import Verif.Model.Cal.Hungary

/-! # Open days of the calendar `hungary` -/

set_option linter.unusedSimpArgs false

namespace Verif

/-- Fixed dates on which a Wednesday can be closed. -/
def Hungary.ruleExcl : List (Int × Int) := [
  (1, 1), (3, 15), (5, 1), (8, 20), (10, 23), (11, 1), (12, 25), (12, 26)]

theorem Hungary.rule_open (t : DateInfo) (em : Int) (hw : t.w = .wed ∧ (t.dd - em) % 7 = 2)
    (hE : (t.m, t.d) ∉ Hungary.ruleExcl) : Hungary.rule t em = true := by
  rw [← Bool.not_eq_false]
  intro hF
  apply hE
  revert hF
  obtain ⟨hw, hdd⟩ := hw
  simp only [Hungary.rule, hw, Int.reduceLE, excl_rules]
  unfold Hungary.ruleExcl
  simp only [excl_rules]
  and_intros <;> cal_fin

theorem Hungary.rule_weekend (t : DateInfo) (em : Int) (h : t.w.isWeekend = true) : Hungary.rule t em = false := by
  simp only [Hungary.rule, h, Bool.true_or, Bool.or_true, Bool.and_false, Bool.false_and, Bool.not_true, Bool.not_false, cond_true, cond_false]

theorem Hungary.rule_covered : covered 0 Hungary.ruleExcl = true := by decide +kernel

theorem Hungary.rule_half {y : Int} (h1 : 1901 ≤ y) (h2 : y ≤ 2199) : HalfMonthsOpen (easterCal Hungary.rule) y := by
  exact half_easter h1 h2 Hungary.rule_covered (fun t em hy _ hw hE => Hungary.rule_open t em (hw.resolve_right (by omega)) hE) (by omega)

end Verif
