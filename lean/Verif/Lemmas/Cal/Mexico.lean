import Verif.Lemmas.CalWindow
import Verif.Model.Cal.Mexico

/-! # Open days of the calendar `mexico` -/

set_option linter.unusedSimpArgs false

namespace Verif

/-- Fixed dates on which a Wednesday can be closed. -/
def Mexico.ruleExcl : List (Int × Int) := [
  (1, 1), (2, 5), (3, 21), (5, 1), (9, 16), (10, 1), (11, 2), (11, 20),
  (12, 12), (12, 25)]

theorem Mexico.rule_open (t : DateInfo) (em : Int) (hw : t.w = .wed ∧ (t.dd - em) % 7 = 2)
    (hE : (t.m, t.d) ∉ Mexico.ruleExcl) : Mexico.rule t em = true := by
  rw [← Bool.not_eq_false]
  intro hF
  apply hE
  revert hF
  obtain ⟨hw, hdd⟩ := hw
  simp only [Mexico.rule, hw, Int.reduceLE, excl_rules]
  unfold Mexico.ruleExcl
  simp only [excl_rules]
  and_intros <;> cal_fin

theorem Mexico.rule_weekend (t : DateInfo) (em : Int) (h : t.w.isWeekend = true) : Mexico.rule t em = false := by
  simp only [Mexico.rule, h, Bool.true_or, Bool.or_true, Bool.and_false, Bool.false_and, Bool.not_true, Bool.not_false, cond_true, cond_false]

theorem Mexico.rule_covered : covered 0 Mexico.ruleExcl = true := by decide +kernel

theorem Mexico.rule_half {y : Int} (h1 : 1901 ≤ y) (h2 : y ≤ 2199) : HalfMonthsOpen (easterCal Mexico.rule) y := by
  exact half_easter h1 h2 Mexico.rule_covered (fun t em hy _ hw hE => Mexico.rule_open t em (hw.resolve_right (by omega)) hE) (by omega)

end Verif
