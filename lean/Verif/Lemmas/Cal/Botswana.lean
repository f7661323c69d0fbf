import Verif.Lemmas.CalWindow
import Verif.Model.Cal.Botswana

/-! # Open days of the calendar `botswana` -/

set_option linter.unusedSimpArgs false

namespace Verif

/-- Fixed dates on which a Wednesday can be closed. -/
def Botswana.ruleExcl : List (Int × Int) := [
  (1, 1), (5, 1), (7, 1), (9, 30), (10, 1), (12, 25), (12, 26)]

theorem Botswana.rule_open (t : DateInfo) (em : Int) (hw : t.w = .wed ∧ (t.dd - em) % 7 = 2)
    (hE : (t.m, t.d) ∉ Botswana.ruleExcl) : Botswana.rule t em = true := by
  rw [← Bool.not_eq_false]
  intro hF
  apply hE
  revert hF
  obtain ⟨hw, hdd⟩ := hw
  simp only [Botswana.rule, hw, Int.reduceLE, excl_rules]
  unfold Botswana.ruleExcl
  simp only [excl_rules]
  and_intros <;> cal_fin

theorem Botswana.rule_weekend (t : DateInfo) (em : Int) (h : t.w.isWeekend = true) : Botswana.rule t em = false := by
  simp only [Botswana.rule, h, Bool.true_or, Bool.or_true, Bool.and_false, Bool.false_and, Bool.not_true, Bool.not_false, cond_true, cond_false]

theorem Botswana.rule_covered : covered 0 Botswana.ruleExcl = true := by decide +kernel

theorem Botswana.rule_half {y : Int} (h1 : 1901 ≤ y) (h2 : y ≤ 2199) : HalfMonthsOpen (easterCal Botswana.rule) y := by
  exact half_easter h1 h2 Botswana.rule_covered (fun t em hy _ hw hE => Botswana.rule_open t em (hw.resolve_right (by omega)) hE) (by omega)

end Verif
