import Verif.Lemmas.CalWindow
import Verif.Model.Cal.SouthAfrica

/-! # Open days of the calendar `southafrica` -/

set_option linter.unusedSimpArgs false

namespace Verif

/-- Fixed dates on which a Tuesday or Wednesday can be closed. -/
def SouthAfrica.ruleExcl : List (Int × Int) := [
  (1, 1), (3, 21), (4, 14), (4, 22), (4, 27), (5, 1), (5, 29), (6, 16),
  (8, 3), (8, 9), (9, 24), (11, 1), (12, 15), (12, 16), (12, 25), (12, 26),
  (12, 27)]

theorem SouthAfrica.rule_open (t : DateInfo) (em : Int) (hw : t.w = .wed ∧ (t.dd - em) % 7 = 2 ∨ t.w = .tue ∧ (t.dd - em) % 7 = 1)
    (hE : (t.m, t.d) ∉ SouthAfrica.ruleExcl) : SouthAfrica.rule t em = true := by
  rw [← Bool.not_eq_false]
  intro hF
  apply hE
  revert hF
  rcases hw with ⟨hw, hdd⟩ | ⟨hw, hdd⟩
  all_goals
    simp only [SouthAfrica.rule, hw, Int.reduceLE, excl_rules]
    unfold SouthAfrica.ruleExcl
    simp only [excl_rules]
    first | done | (and_intros <;> cal_fin)

theorem SouthAfrica.rule_weekend (t : DateInfo) (em : Int) (h : t.w.isWeekend = true) : SouthAfrica.rule t em = false := by
  simp only [SouthAfrica.rule, h, Bool.true_or, Bool.or_true, Bool.and_false, Bool.false_and, Bool.not_true, Bool.not_false, cond_true, cond_false]

theorem SouthAfrica.rule_covered : covered 1 SouthAfrica.ruleExcl = true := by decide +kernel

theorem SouthAfrica.rule_half {y : Int} (h1 : 1901 ≤ y) (h2 : y ≤ 2199) : HalfMonthsOpen (easterCal SouthAfrica.rule) y := by
  exact half_easter h1 h2 SouthAfrica.rule_covered (fun t em hy _ hw hE => SouthAfrica.rule_open t em (by simpa using hw) hE) (by omega)

end Verif
