import Verif.Lemmas.CalWindow
import Verif.Model.Cal.Indonesia

/-! # Open days of the calendar `indonesia` -/

set_option linter.unusedSimpArgs false

namespace Verif

/-- Fixed dates on which a Wednesday can be closed outside 2005-2014. -/
def Indonesia.ruleExcl : List (Int × Int) := [
  (1, 1), (8, 17), (12, 25)]

theorem Indonesia.rule_open (t : DateInfo) (em : Int) (hy : t.y < 2005 ∨ 2014 < t.y) (hw : t.w = .wed ∧ (t.dd - em) % 7 = 2)
    (hE : (t.m, t.d) ∉ Indonesia.ruleExcl) : Indonesia.rule t em = true := by
  have hyc : ∀ c : Int, 2005 ≤ c → c ≤ 2014 → (t.y == c) = false := fun c h1 h2 => by
    rw [beq_eq_false_iff_ne]; omega
  rw [← Bool.not_eq_false]
  intro hF
  apply hE
  revert hF
  obtain ⟨hw, hdd⟩ := hw
  simp only [Indonesia.rule, hyc, hw, Int.reduceLE, excl_rules]
  unfold Indonesia.ruleExcl
  simp only [excl_rules]
  and_intros <;> cal_fin

theorem Indonesia.rule_weekend (t : DateInfo) (em : Int) (h : t.w.isWeekend = true) : Indonesia.rule t em = false := by
  simp only [Indonesia.rule, h, Bool.true_or, Bool.or_true, Bool.and_false, Bool.false_and, Bool.not_true, Bool.not_false, cond_true, cond_false]

theorem Indonesia.rule_covered : covered 0 Indonesia.ruleExcl = true := by decide +kernel

theorem Indonesia.rule_half {y : Int} (h1 : 1901 ≤ y) (h2 : y ≤ 2199) : HalfMonthsOpen (easterCal Indonesia.rule) y := by
  rcases (show (2005 ≤ y ∧ y < 2005 + (10 : Nat)) ∨ (y < 2005 ∨ 2014 < y) by omega) with h | h
  · have hc : checkYears (easterCal Indonesia.rule) 2005 10 = true := by decide +kernel
    exact half_of_check hc h.1 h.2
  · exact half_easter h1 h2 Indonesia.rule_covered (fun t em hy _ hw hE => Indonesia.rule_open t em (by omega) (hw.resolve_right (by omega)) hE) (by omega)

end Verif
