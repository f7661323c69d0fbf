import Verif.Lemmas.CalWindow
import Verif.Model.Cal.Chile

/-! # Open days of the calendar `chile` -/

set_option linter.unusedSimpArgs false

namespace Verif

/-- Fixed dates on which a Wednesday can be closed. -/
def Chile.ruleExcl : List (Int × Int) := [
  (1, 1), (1, 16), (4, 19), (5, 1), (5, 21), (6, 20), (6, 21), (7, 16),
  (8, 15), (9, 16), (9, 18), (9, 19), (11, 1), (12, 8), (12, 25), (12, 31)]

theorem Chile.rule_open (t : DateInfo) (em : Int) (hd : 1 ≤ t.d) (hw : t.w = .wed ∧ (t.dd - em) % 7 = 2)
    (hE : (t.m, t.d) ∉ Chile.ruleExcl) : Chile.rule t em = true := by
  have ht : ∀ i, tableAt Chile.aboriginalPeopleDay i = 0 ∨ tableAt Chile.aboriginalPeopleDay i = 20 ∨
      tableAt Chile.aboriginalPeopleDay i = 21 := by
    intro i
    unfold tableAt
    rw [List.getD_eq_getElem?_getD]
    rcases h : Chile.aboriginalPeopleDay[i.toNat]? with _ | a
    · exact .inl rfl
    · have hall : ∀ x ∈ Chile.aboriginalPeopleDay, x = 20 ∨ x = 21 := by decide +kernel
      exact .inr (hall a (List.mem_of_getElem? h))
  replace ht := ht (t.y - 2021)
  have hE0 : 1 ≤ t.d := hd
  rw [← Bool.not_eq_false]
  intro hF
  apply hE
  revert hF
  obtain ⟨hw, hdd⟩ := hw
  simp only [Chile.isAboriginalPeopleDay, Chile.rule, hw, Int.reduceLE, excl_rules]
  unfold Chile.ruleExcl
  simp only [excl_rules]
  and_intros <;> first
    | (intro ⟨⟨hm, _⟩, ha⟩
       rcases ht with e | e | e <;> rw [e] at ha <;> first
         | omega
         | simp only [hm, ha, Int.reduceEq, excl_rules])
    | cal_fin

theorem Chile.rule_weekend (t : DateInfo) (em : Int) (h : t.w.isWeekend = true) : Chile.rule t em = false := by
  simp only [Chile.isAboriginalPeopleDay, Chile.rule, h, Bool.true_or, Bool.or_true, Bool.and_false, Bool.false_and, Bool.not_true, Bool.not_false, cond_true, cond_false]

theorem Chile.rule_covered : covered 0 Chile.ruleExcl = true := by decide +kernel

theorem Chile.rule_half {y : Int} (h1 : 1901 ≤ y) (h2 : y ≤ 2199) : HalfMonthsOpen (easterCal Chile.rule) y := by
  exact half_easter h1 h2 Chile.rule_covered (fun t em hy hd hw hE => Chile.rule_open t em hd (hw.resolve_right (by omega)) hE) (by omega)

end Verif
