import Verif.Lemmas.CalWindow
import Verif.Model.Cal.Taiwan

/-! # Open days of the calendar `taiwan` -/

set_option linter.unusedSimpArgs false

namespace Verif

/-- Fixed dates on which a Wednesday can be closed outside 2002-2026. -/
def Taiwan.ruleExcl : List (Int × Int) := [
  (1, 1), (2, 28), (4, 5), (5, 1), (10, 10)]

theorem Taiwan.rule_open (t : DateInfo) (hy : t.y < 2002 ∨ 2026 < t.y) (hw : t.w = .wed)
    (hE : (t.m, t.d) ∉ Taiwan.ruleExcl) : Taiwan.rule t = true := by
  have hyc : ∀ c : Int, 2002 ≤ c → c ≤ 2026 → (t.y == c) = false := fun c h1 h2 => by
    rw [beq_eq_false_iff_ne]; omega
  rw [← Bool.not_eq_false]
  intro hF
  apply hE
  revert hF
  simp only [Taiwan.rule, hyc, hw, Int.reduceLE, excl_rules]
  unfold Taiwan.ruleExcl
  simp only [excl_rules]
  and_intros <;> cal_fin

theorem Taiwan.rule_weekend (t : DateInfo) (h : t.w.isWeekend = true) : Taiwan.rule t = false := by
  simp only [Taiwan.rule, h, Bool.true_or, Bool.or_true, Bool.and_false, Bool.false_and, Bool.not_true, Bool.not_false, cond_true, cond_false]

theorem Taiwan.rule_covered : covered 0 Taiwan.ruleExcl = true := by decide +kernel

theorem Taiwan.rule_half {y : Int} : HalfMonthsOpen (plainCal Taiwan.rule) y := by
  rcases (show (2002 ≤ y ∧ y < 2002 + (25 : Nat)) ∨ (y < 2002 ∨ 2026 < y) by omega) with h | h
  · have hc : checkYears (plainCal Taiwan.rule) 2002 25 = true := by decide +kernel
    exact half_of_check hc h.1 h.2
  · exact half_plain Taiwan.rule_covered (fun t hy _ hw hE => Taiwan.rule_open t (by omega) (hw.resolve_right (by omega)) hE) (by omega)

end Verif
