import Verif.Lemmas.CalWindow
import Verif.Model.Cal.CzechRepublic

/-! # Open days of the calendar `czechrepublic` -/

set_option linter.unusedSimpArgs false

namespace Verif

/-- Fixed dates on which a Wednesday can be closed. -/
def CzechRepublic.ruleExcl : List (Int × Int) := [
  (1, 1), (1, 2), (5, 1), (5, 8), (7, 5), (7, 6), (9, 28), (10, 28),
  (11, 17), (12, 24), (12, 25), (12, 26), (12, 31)]

theorem CzechRepublic.rule_open (t : DateInfo) (em : Int) (hw : t.w = .wed ∧ (t.dd - em) % 7 = 2)
    (hE : (t.m, t.d) ∉ CzechRepublic.ruleExcl) : CzechRepublic.rule t em = true := by
  rw [← Bool.not_eq_false]
  intro hF
  apply hE
  revert hF
  obtain ⟨hw, hdd⟩ := hw
  simp only [CzechRepublic.rule, hw, Int.reduceLE, excl_rules]
  unfold CzechRepublic.ruleExcl
  simp only [excl_rules]
  and_intros <;> cal_fin

theorem CzechRepublic.rule_weekend (t : DateInfo) (em : Int) (h : t.w.isWeekend = true) : CzechRepublic.rule t em = false := by
  simp only [CzechRepublic.rule, h, Bool.true_or, Bool.or_true, Bool.and_false, Bool.false_and, Bool.not_true, Bool.not_false, cond_true, cond_false]

theorem CzechRepublic.rule_covered : covered 0 CzechRepublic.ruleExcl = true := by decide +kernel

theorem CzechRepublic.rule_half {y : Int} (h1 : 1901 ≤ y) (h2 : y ≤ 2199) : HalfMonthsOpen (easterCal CzechRepublic.rule) y := by
  exact half_easter h1 h2 CzechRepublic.rule_covered (fun t em hy _ hw hE => CzechRepublic.rule_open t em (hw.resolve_right (by omega)) hE) (by omega)

end Verif
