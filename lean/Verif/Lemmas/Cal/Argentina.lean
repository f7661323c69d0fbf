import Verif.Lemmas.CalWindow
import Verif.Model.Cal.Argentina

/-! # Open days of the calendar `argentina` -/

set_option linter.unusedSimpArgs false

namespace Verif

/-- Fixed dates on which a Wednesday can be closed. -/
def Argentina.ruleExcl : List (Int × Int) := [
  (1, 1), (5, 1), (5, 25), (7, 9), (12, 8), (12, 24), (12, 31)]

theorem Argentina.rule_open (t : DateInfo) (em : Int) (hw : t.w = .wed ∧ (t.dd - em) % 7 = 2)
    (hE : (t.m, t.d) ∉ Argentina.ruleExcl) : Argentina.rule t em = true := by
  rw [← Bool.not_eq_false]
  intro hF
  apply hE
  revert hF
  obtain ⟨hw, hdd⟩ := hw
  simp only [Argentina.rule, hw, Int.reduceLE, excl_rules]
  unfold Argentina.ruleExcl
  simp only [excl_rules]
  and_intros <;> cal_fin

theorem Argentina.rule_weekend (t : DateInfo) (em : Int) (h : t.w.isWeekend = true) : Argentina.rule t em = false := by
  simp only [Argentina.rule, h, Bool.true_or, Bool.or_true, Bool.and_false, Bool.false_and, Bool.not_true, Bool.not_false, cond_true, cond_false]

theorem Argentina.rule_covered : covered 0 Argentina.ruleExcl = true := by decide +kernel

theorem Argentina.rule_half {y : Int} (h1 : 1901 ≤ y) (h2 : y ≤ 2199) : HalfMonthsOpen (easterCal Argentina.rule) y := by
  exact half_easter h1 h2 Argentina.rule_covered (fun t em hy _ hw hE => Argentina.rule_open t em (hw.resolve_right (by omega)) hE) (by omega)

end Verif
