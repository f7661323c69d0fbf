import Verif.Lemmas.CalWindow
import Verif.Model.Cal.Norway

/-! # Open days of the calendar `norway` -/

set_option linter.unusedSimpArgs false

namespace Verif

/-- Fixed dates on which a Wednesday can be closed. -/
def Norway.ruleExcl : List (Int × Int) := [
  (1, 1), (5, 1), (5, 17), (12, 24), (12, 25), (12, 26)]

theorem Norway.rule_open (t : DateInfo) (em : Int) (hw : t.w = .wed ∧ (t.dd - em) % 7 = 2)
    (hE : (t.m, t.d) ∉ Norway.ruleExcl) : Norway.rule t em = true := by
  rw [← Bool.not_eq_false]
  intro hF
  apply hE
  revert hF
  obtain ⟨hw, hdd⟩ := hw
  simp only [Norway.rule, hw, Int.reduceLE, excl_rules]
  unfold Norway.ruleExcl
  simp only [excl_rules]
  and_intros <;> cal_fin

theorem Norway.rule_weekend (t : DateInfo) (em : Int) (h : t.w.isWeekend = true) : Norway.rule t em = false := by
  simp only [Norway.rule, h, Bool.true_or, Bool.or_true, Bool.and_false, Bool.false_and, Bool.not_true, Bool.not_false, cond_true, cond_false]

theorem Norway.rule_covered : covered 0 Norway.ruleExcl = true := by decide +kernel

theorem Norway.rule_half {y : Int} (h1 : 1901 ≤ y) (h2 : y ≤ 2199) : HalfMonthsOpen (easterCal Norway.rule) y := by
  exact half_easter h1 h2 Norway.rule_covered (fun t em hy _ hw hE => Norway.rule_open t em (hw.resolve_right (by omega)) hE) (by omega)

end Verif
