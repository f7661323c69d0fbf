import Verif.Lemmas.Calendar

/-! # Months: same-month reasoning, last day of the month, month arithmetic -/

namespace Verif
open Outcome

variable {c : Cal} {a b d r : Int}

theorem sameMonth_iff : SameMonth a b ↔ monthIndex a = monthIndex b := by
  constructor
  · rintro ⟨h1, h2⟩; unfold monthIndex; rw [h1, h2]
  · intro h
    exact ⟨by rw [yearOf_eq_div, yearOf_eq_div, h], by rw [monthOf_eq_mod, monthOf_eq_mod, h]⟩

theorem SameMonth.refl (a : Int) : SameMonth a a := ⟨rfl, rfl⟩
theorem SameMonth.symm (h : SameMonth a b) : SameMonth b a := ⟨h.1.symm, h.2.symm⟩
theorem SameMonth.trans {e : Int} (h : SameMonth a b) (h' : SameMonth b e) : SameMonth a e :=
  ⟨h.1.trans h'.1, h.2.trans h'.2⟩

/-- Days between two days of one month are in that month. -/
theorem SameMonth.between {x : Int} (h : SameMonth a b) (h1 : a ≤ x) (h2 : x ≤ b) :
    SameMonth x a := by
  rw [sameMonth_iff] at *
  have := monthIndex_mono h1
  have := monthIndex_mono h2
  omega

theorem monthStart_eq (L m : Int) :
    monthStart L m = monthStart 0 m + if 3 ≤ m then L else 0 := by
  unfold monthStart
  by_cases h1 : m ≤ 1
  · simp only [h1, if_true]; omega
  by_cases h2 : m = 2
  · subst h2; simp
  simp only [h1, h2, if_false, show 3 ≤ m by omega, if_true]
  repeat' split
  all_goals omega

/-- Equal month numbers less than 334 days apart mean the same month. -/
theorem sameMonth_of_close (h1 : a ≤ b) (h2 : b < a + 334) (hm : monthOf a = monthOf b) :
    SameMonth a b := by
  refine ⟨?_, hm⟩
  have hy := yearOf_mono h1
  by_contra hne
  have hlt : yearOf a + 1 ≤ yearOf b := by omega
  have e1 := yearStart_mono hlt
  rw [yearStart_succ] at e1
  have la := leap_cases (yearOf a)
  have da := dayOf_bounds a
  have db := dayOf_bounds b
  have ml := monthLen_pos (yearOf a) (monthOf a)
  have ea := ymd_yearOf a
  have eb := ymd_yearOf b
  unfold ymd at ea eb
  rw [← hm] at eb
  have lb := leap_cases (yearOf b)
  rw [monthStart_eq] at ea eb
  split at ea <;> rename_i h3 <;> simp only [h3, if_true, if_false] at eb <;> omega

theorem sameMonth_dayOf (h : SameMonth a b) : dayOf b - dayOf a = b - a :=
  dayOf_sub (sameMonth_iff.1 h)

theorem sameMonth_dist (h : SameMonth a b) : b - a ≤ 30 := by
  have h1 := sameMonth_dayOf h
  have h2 := dayOf_bounds a
  have h3 := dayOf_bounds b
  have h4 := monthLen_pos (yearOf b) (monthOf b)
  omega

/-- Last day of the month of `d`. -/
def monthEnd (d : Int) : Int := d + (monthLen (yearOf d) (monthOf d) - dayOf d)

/-- First day of the month of `d`. -/
def monthBegin (d : Int) : Int := d - (dayOf d - 1)

theorem monthEnd_eq (d : Int) :
    monthEnd d = ymd (yearOf d) (monthOf d) (monthLen (yearOf d) (monthOf d)) := by
  have := ymd_yearOf d
  unfold monthEnd
  unfold ymd at *
  omega

theorem sameMonth_monthEnd (d : Int) : SameMonth (monthEnd d) d := by
  have h1 := monthOf_bounds d
  have h2 := monthLen_pos (yearOf d) (monthOf d)
  rw [monthEnd_eq]
  exact ⟨yearOf_ymd h1.1 h1.2 (by omega) le_rfl, monthOf_ymd h1.1 h1.2 (by omega) le_rfl⟩

theorem le_monthEnd {x : Int} (h : SameMonth x d) : x ≤ monthEnd d := by
  have h1 := sameMonth_dayOf h
  have h3 := dayOf_bounds x
  rw [h.1, h.2] at h3
  unfold monthEnd
  omega

theorem monthBegin_eq (d : Int) : monthBegin d = ymd (yearOf d) (monthOf d) 1 := by
  have := ymd_yearOf d
  unfold monthBegin
  unfold ymd at *
  omega

theorem sameMonth_monthBegin (d : Int) : SameMonth (monthBegin d) d := by
  have h1 := monthOf_bounds d
  have h2 := monthLen_pos (yearOf d) (monthOf d)
  rw [monthBegin_eq]
  exact ⟨yearOf_ymd h1.1 h1.2 le_rfl (by omega), monthOf_ymd h1.1 h1.2 le_rfl (by omega)⟩

theorem monthBegin_le {x : Int} (h : SameMonth x d) : monthBegin d ≤ x := by
  have h1 := sameMonth_dayOf h
  have h3 := dayOf_bounds x
  unfold monthBegin
  omega

theorem valid_of_sameMonth (h : SameMonth a b) (hv : Valid b) : Valid a := by
  rw [valid_iff_year] at *
  rw [h.1]; exact hv

theorem lastDayOfMonth_ok (hv : Valid d) (hy : yearOf d < 262142) :
    lastDayOfMonth d = .ok (monthEnd d) := by
  have hv' := hv
  rw [valid_iff_year] at hv
  have hm := monthOf_bounds d
  have hl := monthLen_pos (yearOf d) (monthOf d)
  have e1 : fromYmdOpt (yearOf d + 1) 1 1 = some (ymd (yearOf d + 1) 1 1) := by
    unfold fromYmdOpt
    rw [if_pos]
    have := monthLen_pos (yearOf d + 1) 1
    omega
  have hvalid : Valid (monthEnd d) := valid_of_sameMonth (sameMonth_monthEnd d) hv'
  unfold lastDayOfMonth
  rw [e1]
  simp only [unwrap, ok_bind]
  have key : (fromYmdOpt (yearOf d) (monthOf d + 1) 1).getD (ymd (yearOf d + 1) 1 1)
      = monthEnd d + 1 := by
    rcases eq_or_lt_of_le hm.2 with h12 | h12
    · have : fromYmdOpt (yearOf d) (monthOf d + 1) 1 = none := by
        unfold fromYmdOpt
        rw [if_neg]; omega
      rw [this, monthEnd_eq]
      simp only [Option.getD_none]
      have e2 := yearStart_succ (yearOf d)
      unfold ymd
      rw [h12, e2]
      simp [monthStart, monthLen]
      omega
    · have hl2 := monthLen_pos (yearOf d) (monthOf d + 1)
      have : fromYmdOpt (yearOf d) (monthOf d + 1) 1 = some (ymd (yearOf d) (monthOf d + 1) 1) := by
        unfold fromYmdOpt
        rw [if_pos]; omega
      rw [this, monthEnd_eq]
      simp only [Option.getD_some]
      have := monthStart_succ (yearOf d) (monthOf d) hm.1 hm.2
      unfold ymd
      omega
  rw [key, valid_addDays]
  exact ⟨by omega, by rw [show monthEnd d + 1 + -1 = monthEnd d by omega]; exact hvalid⟩

theorem lastDayOfMonth_panic (hy : yearOf d = 262142) : lastDayOfMonth d = .panic := by
  unfold lastDayOfMonth fromYmdOpt
  rw [hy]
  simp [unwrap]

theorem addMonths_ok {k : Int} :
    addMonths d k = .ok r ↔ MonthsLater d k r ∧ Valid r := by
  have hb := monthOf_bounds d
  unfold addMonths
  simp only
  set t := yearOf d * 12 + (monthOf d - 1) + k with ht
  constructor
  · intro h
    rcases hf : fromYmdOpt (t / 12) (t % 12 + 1) (min (dayOf d) (monthLen (t / 12) (t % 12 + 1))) with _ | n
    · rw [hf] at h; cases h
    · rw [hf] at h
      simp only [unwrap, ok.injEq] at h
      subst h
      obtain ⟨hv, h1, h2, h3⟩ := fromYmdOpt_eq_some.1 hf
      refine ⟨⟨by omega, ?_⟩, hv⟩
      rw [h3, h1, h2]
  · rintro ⟨⟨h1, h2⟩, hv⟩
    have hr := monthOf_bounds r
    have : fromYmdOpt (t / 12) (t % 12 + 1) (min (dayOf d) (monthLen (t / 12) (t % 12 + 1))) = some r := by
      rw [fromYmdOpt_eq_some]
      have e1 : yearOf r = t / 12 := by omega
      have e2 : monthOf r = t % 12 + 1 := by omega
      refine ⟨hv, e1, e2, ?_⟩
      rw [h2, e1, e2]
    rw [this]; rfl

theorem MonthsLater.exists (d k : Int) : ∃ u, MonthsLater d k u := by
  set t := yearOf d * 12 + (monthOf d - 1) + k with ht
  have hl := monthLen_pos (t / 12) (t % 12 + 1)
  have hd := dayOf_bounds d
  have h1 : 1 ≤ t % 12 + 1 := by omega
  have h2 : t % 12 + 1 ≤ 12 := by omega
  have h3 : 1 ≤ min (dayOf d) (monthLen (t / 12) (t % 12 + 1)) := by omega
  have h4 : min (dayOf d) (monthLen (t / 12) (t % 12 + 1)) ≤ monthLen (t / 12) (t % 12 + 1) := by
    omega
  refine ⟨ymd (t / 12) (t % 12 + 1) (min (dayOf d) (monthLen (t / 12) (t % 12 + 1))), ?_, ?_⟩
  · rw [yearOf_ymd h1 h2 h3 h4, monthOf_ymd h1 h2 h3 h4]; omega
  · rw [yearOf_ymd h1 h2 h3 h4, monthOf_ymd h1 h2 h3 h4, dayOf_ymd h1 h2 h3 h4]

theorem eq_of_ymd_eq (h1 : yearOf a = yearOf b) (h2 : monthOf a = monthOf b)
    (h3 : dayOf a = dayOf b) : a = b := by
  rw [← ymd_yearOf a, ← ymd_yearOf b, h1, h2, h3]

theorem MonthsLater.unique {k u v : Int} (hu : MonthsLater d k u) (hv : MonthsLater d k v) :
    u = v := by
  have h1 := monthOf_bounds u
  have h2 := monthOf_bounds v
  have e1 := hu.month
  have e2 := hv.month
  have hy : yearOf u = yearOf v := by omega
  have hm : monthOf u = monthOf v := by omega
  refine eq_of_ymd_eq hy hm ?_
  rw [hu.day, hv.day, hy, hm]

end Verif
