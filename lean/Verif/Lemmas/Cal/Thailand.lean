import Verif.Lemmas.CalWindow
import Verif.Model.Cal.Thailand

/-! # Open days of the calendar `thailand` -/

set_option linter.unusedSimpArgs false

namespace Verif

/-- Fixed dates on which a Tuesday or Wednesday can be closed outside 2000-2025. -/
def Thailand.ruleExcl : List (Int × Int) := [
  (1, 1), (4, 6), (4, 13), (4, 14), (4, 15), (4, 16), (5, 1), (5, 4),
  (6, 3), (7, 28), (8, 12), (10, 13), (10, 23), (12, 5), (12, 10), (12, 31)]

theorem Thailand.rule_open (t : DateInfo) (em : Int) (hy : t.y < 2000 ∨ 2025 < t.y) (hw : t.w = .wed ∧ (t.dd - em) % 7 = 2 ∨ t.w = .tue ∧ (t.dd - em) % 7 = 1)
    (hE : (t.m, t.d) ∉ Thailand.ruleExcl) : Thailand.rule t em = true := by
  have hyc : ∀ c : Int, 2000 ≤ c → c ≤ 2025 → (t.y == c) = false := fun c h1 h2 => by
    rw [beq_eq_false_iff_ne]; omega
  rw [← Bool.not_eq_false]
  intro hF
  apply hE
  revert hF
  rcases hw with ⟨hw, hdd⟩ | ⟨hw, hdd⟩
  all_goals
    simp only [Thailand.rule, hyc, hw, Int.reduceLE, excl_rules]
    unfold Thailand.ruleExcl
    simp only [excl_rules]
    first | done | (and_intros <;> cal_fin)

theorem Thailand.rule_weekend (t : DateInfo) (em : Int) (h : t.w.isWeekend = true) : Thailand.rule t em = false := by
  simp only [Thailand.rule, h, Bool.true_or, Bool.or_true, Bool.and_false, Bool.false_and, Bool.not_true, Bool.not_false, cond_true, cond_false]

theorem Thailand.rule_covered : covered 1 Thailand.ruleExcl = true := by decide +kernel

theorem Thailand.rule_half {y : Int} (h1 : 1901 ≤ y) (h2 : y ≤ 2199) : HalfMonthsOpen (easterCal Thailand.rule) y := by
  rcases (show (2000 ≤ y ∧ y < 2000 + (26 : Nat)) ∨ (y < 2000 ∨ 2025 < y) by omega) with h | h
  · have hc : checkYears (easterCal Thailand.rule) 2000 26 = true := by decide +kernel
    exact half_of_check hc h.1 h.2
  · exact half_easter h1 h2 Thailand.rule_covered (fun t em hy _ hw hE => Thailand.rule_open t em (by omega) (by simpa using hw) hE) (by omega)

end Verif
