import Verif.Lemmas.CalWindow
import Verif.Model.Cal.SouthKorea

/-! # Open days of the calendar `southkorea` -/

set_option linter.unusedSimpArgs false

namespace Verif

/-- Fixed dates on which a Wednesday can be closed outside 2004-2050. -/
def SouthKorea.ruleExcl : List (Int × Int) := [
  (1, 1), (3, 1), (4, 5), (5, 1), (5, 5), (6, 6), (7, 17), (8, 15),
  (10, 3), (10, 9), (12, 25)]

set_option maxRecDepth 20000 in
theorem SouthKorea.rule_open (t : DateInfo) (hy : t.y < 2004 ∨ 2050 < t.y) (hw : t.w = .wed)
    (hE : (t.m, t.d) ∉ SouthKorea.ruleExcl) : SouthKorea.rule t = true := by
  have hyc : ∀ c : Int, 2004 ≤ c → c ≤ 2050 → (t.y == c) = false := fun c h1 h2 => by
    rw [beq_eq_false_iff_ne]; omega
  rw [← Bool.not_eq_false]
  intro hF
  apply hE
  revert hF
  unfold SouthKorea.rule
  simp only [hyc, Int.reduceLE, Bool.and_false, Bool.or_false]
  simp only [hw, excl_rules]
  unfold SouthKorea.ruleExcl
  simp only [excl_rules]
  and_intros <;> cal_fin

set_option maxRecDepth 20000 in
theorem SouthKorea.rule_weekend (t : DateInfo) (h : t.w.isWeekend = true) : SouthKorea.rule t = false := by
  unfold SouthKorea.rule
  simp only [h, Bool.true_or, cond_true]

theorem SouthKorea.rule_covered : covered 0 SouthKorea.ruleExcl = true := by decide +kernel

theorem SouthKorea.rule_half {y : Int} : HalfMonthsOpen (plainCal SouthKorea.rule) y := by
  rcases (show (2004 ≤ y ∧ y < 2004 + (47 : Nat)) ∨ (y < 2004 ∨ 2050 < y) by omega) with h | h
  · have hc : checkYears (plainCal SouthKorea.rule) 2004 47 = true := by decide +kernel
    exact half_of_check hc h.1 h.2
  · exact half_plain SouthKorea.rule_covered (fun t hy _ hw hE => SouthKorea.rule_open t (by omega) (hw.resolve_right (by omega)) hE) (by omega)

end Verif
