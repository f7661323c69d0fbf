import Verif.Lemmas.CalWindow
import Verif.Model.Cal.India

/-! # Open days of the calendar `india` -/

set_option linter.unusedSimpArgs false

namespace Verif

/-- Fixed dates on which a Wednesday can be closed outside 2005-2025. -/
def India.ruleExcl : List (Int × Int) := [
  (1, 26), (4, 14), (5, 1), (8, 15), (10, 2), (12, 25)]

theorem India.rule_open (t : DateInfo) (em : Int) (hy : t.y < 2005 ∨ 2025 < t.y) (hw : t.w = .wed ∧ (t.dd - em) % 7 = 2)
    (hE : (t.m, t.d) ∉ India.ruleExcl) : India.rule t em = true := by
  have hyc : ∀ c : Int, 2005 ≤ c → c ≤ 2025 → (t.y == c) = false := fun c h1 h2 => by
    rw [beq_eq_false_iff_ne]; omega
  rw [← Bool.not_eq_false]
  intro hF
  apply hE
  revert hF
  obtain ⟨hw, hdd⟩ := hw
  simp only [India.rule, hyc, hw, Int.reduceLE, excl_rules]
  unfold India.ruleExcl
  simp only [excl_rules]
  and_intros <;> cal_fin

theorem India.rule_weekend (t : DateInfo) (em : Int) (h : t.w.isWeekend = true) : India.rule t em = false := by
  simp only [India.rule, h, Bool.true_or, Bool.or_true, Bool.and_false, Bool.false_and, Bool.not_true, Bool.not_false, cond_true, cond_false]

theorem India.rule_covered : covered 0 India.ruleExcl = true := by decide +kernel

theorem India.rule_half {y : Int} (h1 : 1901 ≤ y) (h2 : y ≤ 2199) : HalfMonthsOpen (easterCal India.rule) y := by
  rcases (show (2005 ≤ y ∧ y < 2005 + (21 : Nat)) ∨ (y < 2005 ∨ 2025 < y) by omega) with h | h
  · have hc : checkYears (easterCal India.rule) 2005 21 = true := by decide +kernel
    exact half_of_check hc h.1 h.2
  · exact half_easter h1 h2 India.rule_covered (fun t em hy _ hw hE => India.rule_open t em (by omega) (hw.resolve_right (by omega)) hE) (by omega)

end Verif
