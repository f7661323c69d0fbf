import Verif.Lemmas.CalWindow
import Verif.Model.Cal.Singapore

/-! # Open days of the calendar `singapore` -/

set_option linter.unusedSimpArgs false

namespace Verif

/-- Fixed dates on which a Wednesday can be closed outside 2004-2026. -/
def Singapore.ruleExcl : List (Int × Int) := [
  (1, 1), (5, 1), (8, 9), (12, 25)]

theorem Singapore.rule_open (t : DateInfo) (em : Int) (hy : t.y < 2004 ∨ 2026 < t.y) (hw : t.w = .wed ∧ (t.dd - em) % 7 = 2)
    (hE : (t.m, t.d) ∉ Singapore.ruleExcl) : Singapore.rule t em = true := by
  have hyc : ∀ c : Int, 2004 ≤ c → c ≤ 2026 → (t.y == c) = false := fun c h1 h2 => by
    rw [beq_eq_false_iff_ne]; omega
  rw [← Bool.not_eq_false]
  intro hF
  apply hE
  revert hF
  obtain ⟨hw, hdd⟩ := hw
  simp only [Singapore.rule, hyc, hw, Int.reduceLE, excl_rules]
  unfold Singapore.ruleExcl
  simp only [excl_rules]
  and_intros <;> cal_fin

theorem Singapore.rule_weekend (t : DateInfo) (em : Int) (h : t.w.isWeekend = true) : Singapore.rule t em = false := by
  simp only [Singapore.rule, h, Bool.true_or, Bool.or_true, Bool.and_false, Bool.false_and, Bool.not_true, Bool.not_false, cond_true, cond_false]

theorem Singapore.rule_covered : covered 0 Singapore.ruleExcl = true := by decide +kernel

theorem Singapore.rule_half {y : Int} (h1 : 1901 ≤ y) (h2 : y ≤ 2199) : HalfMonthsOpen (easterCal Singapore.rule) y := by
  rcases (show (2004 ≤ y ∧ y < 2004 + (23 : Nat)) ∨ (y < 2004 ∨ 2026 < y) by omega) with h | h
  · have hc : checkYears (easterCal Singapore.rule) 2004 23 = true := by decide +kernel
    exact half_of_check hc h.1 h.2
  · exact half_easter h1 h2 Singapore.rule_covered (fun t em hy _ hw hE => Singapore.rule_open t em (by omega) (hw.resolve_right (by omega)) hE) (by omega)

end Verif
