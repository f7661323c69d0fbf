import Verif.Lemmas.CalWindow
import Verif.Model.Cal.Poland

/-! # Open days of the calendar `poland` -/

set_option linter.unusedSimpArgs false

namespace Verif

/-- Fixed dates on which a Wednesday can be closed. -/
def Poland.settlementIsBusinessDayExcl : List (Int × Int) := [
  (1, 1), (1, 6), (5, 1), (5, 3), (8, 15), (11, 1), (11, 11), (12, 25),
  (12, 26)]

theorem Poland.settlementIsBusinessDay_open (t : DateInfo) (em : Int) (hw : t.w = .wed ∧ (t.dd - em) % 7 = 2)
    (hE : (t.m, t.d) ∉ Poland.settlementIsBusinessDayExcl) : Poland.settlementIsBusinessDay t em = true := by
  rw [← Bool.not_eq_false]
  intro hF
  apply hE
  revert hF
  obtain ⟨hw, hdd⟩ := hw
  simp only [Poland.settlementIsBusinessDay, hw, Int.reduceLE, excl_rules]
  unfold Poland.settlementIsBusinessDayExcl
  simp only [excl_rules]
  and_intros <;> cal_fin

theorem Poland.settlementIsBusinessDay_weekend (t : DateInfo) (em : Int) (h : t.w.isWeekend = true) : Poland.settlementIsBusinessDay t em = false := by
  simp only [Poland.settlementIsBusinessDay, h, Bool.true_or, Bool.or_true, Bool.and_false, Bool.false_and, Bool.not_true, Bool.not_false, cond_true, cond_false]

theorem Poland.settlementIsBusinessDay_covered : covered 0 Poland.settlementIsBusinessDayExcl = true := by decide +kernel

theorem Poland.settlementIsBusinessDay_half {y : Int} (h1 : 1901 ≤ y) (h2 : y ≤ 2199) : HalfMonthsOpen (easterCal Poland.settlementIsBusinessDay) y := by
  exact half_easter h1 h2 Poland.settlementIsBusinessDay_covered (fun t em hy _ hw hE => Poland.settlementIsBusinessDay_open t em (hw.resolve_right (by omega)) hE) (by omega)

/-- The Warsaw exchange as a rule: 24 and 31 December closed as well. -/
def Poland.wseRule (t : DateInfo) (em : Int) : Bool :=
  !((t.d == 24 || t.d == 31) && t.m == 12) && Poland.settlementIsBusinessDay t em

theorem Poland.wse_half {y : Int} (h1 : 1901 ≤ y) (h2 : y ≤ 2199) : HalfMonthsOpen polandWse y := by
  have h : HalfMonthsOpen (easterCal Poland.wseRule) y := by
    refine half_easter (n := 0) (E := (12, 24) :: (12, 31) :: Poland.settlementIsBusinessDayExcl) h1 h2
      (by decide +kernel) (fun t em _ _ hw hE => ?_) (by omega)
    rw [List.mem_cons, List.mem_cons, not_or, not_or] at hE
    obtain ⟨e1, e2, e3⟩ := hE
    unfold Poland.wseRule
    rw [Poland.settlementIsBusinessDay_open t em (hw.resolve_right (by omega)) e3]
    simp only [Prod.mk.injEq] at e1 e2
    simp only [Bool.and_true, Bool.not_eq_true', Bool.and_eq_false_iff, Bool.or_eq_false_iff,
      beq_eq_false_iff_ne]
    omega
  refine h.mono fun n _ hc => ?_
  unfold easterCal at hc
  unfold polandWse
  cases he : easterMonday (yearOf n) with
  | ok em =>
    rw [he, Outcome.ok_bind] at hc
    simp only [Poland.wseRule, info, Outcome.ok.injEq, Bool.and_eq_true, Bool.not_eq_true',
      Bool.and_eq_false_iff, Bool.or_eq_false_iff, beq_eq_false_iff_ne] at hc
    rw [if_neg (by omega)]
    unfold easterCal
    rw [he, Outcome.ok_bind, ← hc.2]; rfl
  | fail e => rw [he, Outcome.fail_bind] at hc; cases hc
  | panic => rw [he, Outcome.panic_bind] at hc; cases hc

end Verif
