import Verif.Spec.Holidays
import Verif.Model.CalBase
import Verif.Lemmas.Date
import Verif.Props.Easter

/-! # Holiday rules in terms of day, month and weekday -/

namespace Verif
open Outcome

variable {z m k y : Int}

/-- Day `k` exists in month `m` of every year. -/
def DayIn (m k : Int) : Bool :=
  decide (1 ≤ m) && decide (m ≤ 12) && decide (1 ≤ k) &&
    (decide (k ≤ 28) || (decide (k ≤ 30) && m != 2) || (decide (k ≤ 31) && (m != 2 && m != 4 && m != 6 && m != 9 && m != 11)))

theorem dayIn_spec (h : DayIn m k = true) (y : Int) : 1 ≤ m ∧ m ≤ 12 ∧ 1 ≤ k ∧ k ≤ monthLen y m := by
  simp only [DayIn, Bool.and_eq_true, Bool.or_eq_true, decide_eq_true_eq, bne_iff_ne] at h
  have := monthLen_pos y m
  unfold monthLen at *
  grind

theorem eq_ymd (h : DayIn m k = true) : z = ymd (yearOf z) m k ↔ dayOf z = k ∧ monthOf z = m := by
  obtain ⟨h1, h2, h3, h4⟩ := dayIn_spec h (yearOf z)
  constructor
  · intro e
    constructor
    · rw [e]; exact dayOf_ymd h1 h2 h3 h4
    · rw [e]; exact monthOf_ymd h1 h2 h3 h4
  · rintro ⟨rfl, rfl⟩
    exact (ymd_yearOf z).symm

theorem ymd_add (y m k j : Int) : ymd y m (k + j) = ymd y m k + j := by unfold ymd; omega

theorem wd_iff (w : Weekday) : weekdayOf z = w ↔ (z - 1) % 7 = w.num := by
  rw [← weekday_num]; exact ⟨fun h => by rw [h], weekday_num_inj⟩

theorem num_bounds (w : Weekday) : 0 ≤ w.num ∧ w.num ≤ 6 := by cases w <;> decide

theorem not_weekend_iff : (weekdayOf z).isWeekend = false ↔ ¬ SatSun z := by
  have := weekday_num z
  unfold SatSun
  cases hw : weekdayOf z <;> rw [hw] at this <;> simp [Weekday.isWeekend, Weekday.num] at * <;> omega

theorem dayIn_mid {j : Int} (h0 : DayIn m k = true) (h : DayIn m (k + j) = true) {i : Int} (hi : 0 ≤ i) (hj : i ≤ j) :
    DayIn m (k + i) = true := by
  simp only [DayIn, Bool.and_eq_true, Bool.or_eq_true, decide_eq_true_eq, bne_iff_ne] at *
  grind

theorem eq_ymd_add {j : Int} (h0 : DayIn m (k + j) = true) :
    z = ymd (yearOf z) m k + j ↔ dayOf z = k + j ∧ monthOf z = m := by
  rw [← ymd_add]; exact eq_ymd h0

theorem eq_onOrAfter (w : Weekday) (h0 : DayIn m k = true) (h : DayIn m (k + 6) = true) :
    z = onOrAfter w (ymd (yearOf z) m k) ↔
      (k ≤ dayOf z ∧ dayOf z ≤ k + 6 ∧ weekdayOf z = w ∧ monthOf z = m) := by
  rw [wd_iff]
  have hn := num_bounds w
  unfold onOrAfter
  constructor
  · intro e
    have := (eq_ymd_add (j := (w.num - (ymd (yearOf z) m k - 1)) % 7)
      (dayIn_mid h0 h (by omega) (by omega))).1 e
    omega
  · rintro ⟨h1, h2, h3, h4⟩
    have := (eq_ymd_add (z := z) (m := m) (k := k) (j := dayOf z - k)
      (dayIn_mid h0 h (by omega) (by omega))).2 ⟨by omega, h4⟩
    omega

theorem eq_sunToMon (hz : ¬ SatSun z) (h0 : DayIn m k = true) (h : DayIn m (k + 1) = true) :
    z = sunToMon (ymd (yearOf z) m k) ↔
      ((dayOf z = k ∨ (dayOf z = k + 1 ∧ weekdayOf z = .mon)) ∧ monthOf z = m) := by
  have e0 := eq_ymd (z := z) h0
  have e1 := eq_ymd_add (z := z) h
  rw [wd_iff]
  unfold SatSun at hz
  simp only [sunToMon, Weekday.num]
  generalize ymd (yearOf z) m k = x at *
  grind

theorem eq_toMonday (hz : ¬ SatSun z) (h0 : DayIn m k = true) (h : DayIn m (k + 2) = true) :
    z = toMonday (ymd (yearOf z) m k) ↔
      ((dayOf z = k ∨ ((dayOf z = k + 1 ∨ dayOf z = k + 2) ∧ weekdayOf z = .mon)) ∧ monthOf z = m) := by
  have e0 := eq_ymd (z := z) h0
  have e1 := eq_ymd_add (z := z) (dayIn_mid h0 h (i := 1) (by omega) (by omega))
  have e2 := eq_ymd_add (z := z) h
  rw [wd_iff]
  unfold SatSun at hz
  simp only [toMonday, Weekday.num]
  generalize ymd (yearOf z) m k = x at *
  grind

theorem eq_toNearest (hz : ¬ SatSun z) (h0 : DayIn m (k - 1) = true) (h : DayIn m (k + 1) = true) :
    z = toNearest (ymd (yearOf z) m k) ↔
      ((dayOf z = k ∨ (dayOf z = k + 1 ∧ weekdayOf z = .mon) ∨ (dayOf z = k - 1 ∧ weekdayOf z = .fri)) ∧
        monthOf z = m) := by
  have e0 := eq_ymd_add (z := z) (k := k) (j := -1) h0
  have e1 := eq_ymd (z := z) (m := m) (k := k) (by
    have := dayIn_mid (k := k - 1) (j := 2) (i := 1) h0 (by rwa [show k - 1 + 2 = k + 1 by omega])
      (by omega) (by omega)
    rwa [show k - 1 + 1 = k by omega] at this)
  have e2 := eq_ymd_add (z := z) h
  rw [wd_iff, wd_iff]
  unfold SatSun at hz
  simp only [toNearest, Weekday.num]
  generalize ymd (yearOf z) m k = x at *
  grind

theorem eq_twoLater (hz : ¬ SatSun z) (h0 : DayIn m k = true) (h : DayIn m (k + 2) = true) :
    z = twoLater (ymd (yearOf z) m k) ↔
      ((dayOf z = k ∨ (dayOf z = k + 2 ∧ (weekdayOf z = .mon ∨ weekdayOf z = .tue))) ∧ monthOf z = m) := by
  have e0 := eq_ymd (z := z) h0
  have e2 := eq_ymd_add (z := z) h
  rw [wd_iff, wd_iff]
  unfold SatSun at hz
  simp only [twoLater, Weekday.num]
  generalize ymd (yearOf z) m k = x at *
  grind

theorem mem_provided {c : Prop} [Decidable c] {l : List Int} : z ∈ provided c l ↔ c ∧ z ∈ l := by
  unfold provided; split <;> simp_all

theorem weekend_iff : (weekdayOf z).isWeekend = true ↔ SatSun z := by
  have := not_weekend_iff (z := z)
  cases h : (weekdayOf z).isWeekend <;> simp_all

/-- Easter Sunday in terms of the table entry. -/
theorem easter_shift {em : Int} (h : easterMonday (yearOf z) = .ok em) (h1 : 1901 ≤ yearOf z)
    (h2 : yearOf z ≤ 2199) : easterSunday (yearOf z) = z - ordinal z + em - 1 := by
  obtain ⟨e1, e2, -⟩ := C13_western h1 h2
  rw [e1] at h
  have : em = ordinal (easterSunday (yearOf z) + 1) := (Outcome.ok.inj h).symm
  unfold ordinal at this
  rw [e2] at this
  unfold ordinal
  omega

theorem orthodox_shift {em : Int} (h : orthodoxEasterMonday (yearOf z) = .ok em) (h1 : 1901 ≤ yearOf z)
    (h2 : yearOf z ≤ 2199) : orthodoxEasterSunday (yearOf z) = z - ordinal z + em - 1 := by
  obtain ⟨e1, e2, -⟩ := C13_orthodox h1 h2
  rw [e1] at h
  have : em = ordinal (orthodoxEasterSunday (yearOf z) + 1) := (Outcome.ok.inj h).symm
  unfold ordinal at this
  rw [e2] at this
  unfold ordinal
  omega

/-- What has to be shown of the rule of a calendar without Easter. -/
theorem closedOn_plain {r : DateInfo → Bool} {lo hi : Int} {hol : Int → List Int}
    (hw : ∀ t : DateInfo, t.w.isWeekend = true → r t = false)
    (h : ∀ z, ¬ SatSun z → lo ≤ yearOf z → yearOf z ≤ hi → 1 ≤ dayOf z → dayOf z ≤ 31 →
      (r (info z) = false ↔ z ∈ hol (yearOf z))) :
    ClosedOn (plainCal r) lo hi hol := by
  intro d h1 h2
  refine ⟨_, rfl, ?_⟩
  by_cases hd : SatSun d
  · simp [hd, hw (info d) (weekend_iff.2 hd)]
  · have := dayOf_bounds d
    have := monthLen_pos (yearOf d) (monthOf d)
    have := h d hd h1 h2 (by omega) (by omega)
    simp only [hd, not_false_eq_true, true_and, ← this, Bool.not_eq_false]

theorem closedOn_easter {r : DateInfo → Int → Bool} {lo hi : Int} {hol : Int → List Int}
    (hlo : 1901 ≤ lo) (hhi : hi ≤ 2199)
    (hw : ∀ (t : DateInfo) em, t.w.isWeekend = true → r t em = false)
    (h : ∀ z em, ¬ SatSun z → lo ≤ yearOf z → yearOf z ≤ hi → 1 ≤ dayOf z → dayOf z ≤ 31 →
      easterSunday (yearOf z) = z - ordinal z + em - 1 → (r (info z) em = false ↔ z ∈ hol (yearOf z))) :
    ClosedOn (easterCal r) lo hi hol := by
  intro d h1 h2
  obtain ⟨e1, -, -⟩ := C13_western (y := yearOf d) (by omega) (by omega)
  refine ⟨r (info d) _, by unfold easterCal; rw [e1]; rfl, ?_⟩
  by_cases hd : SatSun d
  · simp [hd, hw (info d) _ (weekend_iff.2 hd)]
  · have := dayOf_bounds d
    have := monthLen_pos (yearOf d) (monthOf d)
    have := h d _ hd h1 h2 (by omega) (by omega) (easter_shift e1 (by omega) (by omega))
    simp only [hd, not_false_eq_true, true_and, ← this, Bool.not_eq_false]

theorem closedOn_orthodox {r : DateInfo → Int → Bool} {lo hi : Int} {hol : Int → List Int}
    (hlo : 1901 ≤ lo) (hhi : hi ≤ 2199)
    (hw : ∀ (t : DateInfo) em, t.w.isWeekend = true → r t em = false)
    (h : ∀ z em, ¬ SatSun z → lo ≤ yearOf z → yearOf z ≤ hi → 1 ≤ dayOf z → dayOf z ≤ 31 →
      orthodoxEasterSunday (yearOf z) = z - ordinal z + em - 1 →
      (r (info z) em = false ↔ z ∈ hol (yearOf z))) :
    ClosedOn (orthodoxCal r) lo hi hol := by
  intro d h1 h2
  obtain ⟨e1, -, -⟩ := C13_orthodox (y := yearOf d) (by omega) (by omega)
  refine ⟨r (info d) _, by unfold orthodoxCal; rw [e1]; rfl, ?_⟩
  by_cases hd : SatSun d
  · simp [hd, hw (info d) _ (weekend_iff.2 hd)]
  · have := dayOf_bounds d
    have := monthLen_pos (yearOf d) (monthOf d)
    have := h d _ hd h1 h2 (by omega) (by omega) (orthodox_shift e1 (by omega) (by omega))
    simp only [hd, not_false_eq_true, true_and, ← this, Bool.not_eq_false]

theorem eq_easter_add {em e j : Int} (he : e = z - ordinal z + em - 1) :
    z = e + j ↔ ordinal z = em + (j - 1) := by omega

theorem eq_easter_sub {em e j : Int} (he : e = z - ordinal z + em - 1) :
    z = e - j ↔ ordinal z = em - (j + 1) := by omega

theorem mem_provided_day {c : Prop} [Decidable c] {e j : Int} :
    z ∈ provided (c ∨ j < dayOf e) [e] ↔ z = e ∧ (c ∨ j < dayOf z) := by
  rw [mem_provided, List.mem_singleton]
  constructor
  · rintro ⟨h, rfl⟩; exact ⟨rfl, h⟩
  · rintro ⟨rfl, h⟩; exact ⟨h, rfl⟩

theorem mem_ifOn {w : Weekday} {x : Int} : z ∈ ifOn w x ↔ z = x ∧ weekdayOf z = w := by
  unfold ifOn
  split <;> rename_i h
  · rw [List.mem_singleton]
    exact ⟨fun e => ⟨e, e ▸ h⟩, fun e => e.1⟩
  · constructor
    · intro e; cases e
    · rintro ⟨rfl, e⟩; exact absurd e h

/-! Rules that cross the end of a month or a year. -/

theorem eq_newYear (hz : ¬ SatSun z) : z = toNearest (ymd (yearOf z) 1 1) ↔
    ((dayOf z = 1 ∨ (dayOf z = 2 ∧ weekdayOf z = .mon)) ∧ monthOf z = 1) := by
  have e1 := eq_ymd (z := z) (m := 1) (k := 1) (by decide)
  have e2 := eq_ymd_add (z := z) (m := 1) (k := 1) (j := 1) (by decide)
  have h0 := yearOf_spec z
  have h3 : ymd (yearOf z) 1 1 = yearStart (yearOf z) + 1 := by unfold ymd monthStart; simp
  rw [wd_iff]
  unfold SatSun at hz
  simp only [toNearest, Weekday.num]
  generalize ymd (yearOf z) 1 1 = x at *
  grind

theorem eq_newYear_next (hz : ¬ SatSun z) : z = toNearest (ymd (yearOf z + 1) 1 1) ↔
    (dayOf z = 31 ∧ weekdayOf z = .fri ∧ monthOf z = 12) := by
  have e1 := eq_ymd (z := z) (m := 12) (k := 31) (by decide)
  have h0 := yearOf_spec z
  have h3 : ymd (yearOf z + 1) 1 1 = yearStart (yearOf z + 1) + 1 := by unfold ymd monthStart; simp
  have h4 : ymd (yearOf z) 12 31 = yearStart (yearOf z + 1) := by
    unfold ymd monthStart; rw [yearStart_succ]; simp; omega
  rw [wd_iff]
  unfold SatSun at hz
  simp only [toNearest, Weekday.num]
  generalize ymd (yearOf z) 12 31 = x at *
  generalize ymd (yearOf z + 1) 1 1 = x' at *
  grind

theorem eq_yearEnd (hz : ¬ SatSun z) : z = toNearest (ymd (yearOf z) 12 31) ↔
    ((dayOf z = 31 ∨ (dayOf z = 30 ∧ weekdayOf z = .fri)) ∧ monthOf z = 12) := by
  have e1 := eq_ymd (z := z) (m := 12) (k := 31) (by decide)
  have e2 := eq_ymd_add (z := z) (m := 12) (k := 31) (j := -1) (by decide)
  have h0 := yearOf_spec z
  have h4 : ymd (yearOf z) 12 31 = yearStart (yearOf z + 1) := by
    unfold ymd monthStart; rw [yearStart_succ]; simp; omega
  rw [wd_iff]
  unfold SatSun at hz
  simp only [toNearest, Weekday.num]
  generalize ymd (yearOf z) 12 31 = x at *
  grind

theorem eq_lastWeekday (hz : ¬ SatSun z) (hd : dayOf z ≤ 31) : z = lastWeekday (ymd (yearOf z) 12 31) ↔
    (monthOf z = 12 ∧ (dayOf z = 31 ∨ (29 ≤ dayOf z ∧ weekdayOf z = .fri))) := by
  have e1 := eq_ymd (z := z) (m := 12) (k := 31) (by decide)
  have e2 := eq_ymd_add (z := z) (m := 12) (k := 31) (j := -1) (by decide)
  have e3 := eq_ymd_add (z := z) (m := 12) (k := 31) (j := -2) (by decide)
  rw [wd_iff]
  unfold SatSun at hz
  simp only [lastWeekday, Weekday.num]
  generalize ymd (yearOf z) 12 31 = x at *
  grind

theorem eq_truth (hz : ¬ SatSun z) (hd : 1 ≤ dayOf z) : z = toMonday (ymd (yearOf z) 9 30) ↔
    ((dayOf z = 30 ∧ monthOf z = 9) ∨ (dayOf z ≤ 2 ∧ monthOf z = 10 ∧ weekdayOf z = .mon)) := by
  have e1 := eq_ymd (z := z) (m := 9) (k := 30) (by decide)
  have e2 := eq_ymd (z := z) (m := 10) (k := 1) (by decide)
  have e3 := eq_ymd (z := z) (m := 10) (k := 2) (by decide)
  have h2 : ymd (yearOf z) 10 1 = ymd (yearOf z) 9 30 + 1 := by unfold ymd monthStart; simp; omega
  have h3 : ymd (yearOf z) 10 2 = ymd (yearOf z) 9 30 + 2 := by unfold ymd monthStart; simp; omega
  rw [wd_iff]
  unfold SatSun at hz
  simp only [toMonday, Weekday.num]
  rw [h2] at e2
  rw [h3] at e3
  generalize ymd (yearOf z) 9 30 = x at *
  grind

theorem eq_auckland (hd : 1 ≤ dayOf z) : z = onOrAfter .mon (ymd (yearOf z) 1 26) ↔
    ((26 ≤ dayOf z ∧ weekdayOf z = .mon ∧ monthOf z = 1) ∨
      (dayOf z = 1 ∧ weekdayOf z = .mon ∧ monthOf z = 2)) := by
  have e1 := fun j (h : 0 ≤ j ∧ j ≤ 5) => eq_ymd_add (z := z) (m := 1) (k := 26) (j := j)
    (dayIn_mid (j := 5) (by decide) (by decide) h.1 h.2)
  have e2 := eq_ymd (z := z) (m := 2) (k := 1) (by decide)
  have h2 : ymd (yearOf z) 2 1 = ymd (yearOf z) 1 26 + 6 := by unfold ymd monthStart; simp; omega
  have hd' := dayOf_bounds z
  have hd'' := monthLen_pos (yearOf z) (monthOf z)
  rw [wd_iff]
  simp only [onOrAfter, Weekday.num]
  rw [h2] at e2
  generalize ymd (yearOf z) 1 26 = x at *
  constructor
  · intro h
    by_cases h6 : (0 - (x - 1)) % 7 = 6
    · right; have := e2.1 (by omega); omega
    · left; have := (e1 _ (by omega)).1 h; omega
  · rintro (h | h)
    · have := (e1 (dayOf z - 26) (by omega)).2 (by omega); omega
    · have := e2.2 ⟨h.1, h.2.2⟩; omega

theorem eq_argentineMove (hz : ¬ SatSun z) : z = argentineMove (ymd (yearOf z) 10 12) ↔
    ((dayOf z = 10 ∨ dayOf z = 11 ∨ dayOf z = 12 ∨ dayOf z = 15 ∨ dayOf z = 16) ∧ weekdayOf z = .mon ∧
      monthOf z = 10) := by
  have e1 := eq_ymd (z := z) (m := 10) (k := 12) (by decide)
  have e2 := eq_ymd_add (z := z) (m := 10) (k := 12) (j := -1) (by decide)
  have e3 := eq_ymd_add (z := z) (m := 10) (k := 12) (j := -2) (by decide)
  have e4 := eq_ymd_add (z := z) (m := 10) (k := 12) (j := 3) (by decide)
  have e5 := eq_ymd_add (z := z) (m := 10) (k := 12) (j := 4) (by decide)
  rw [wd_iff]
  unfold SatSun at hz
  simp only [argentineMove, Weekday.num]
  generalize ymd (yearOf z) 10 12 = x at *
  grind

theorem eq_chileanOct (hz : ¬ SatSun z) : z = chileanMove (ymd (yearOf z) 10 12) ↔
    (((9 ≤ dayOf z ∧ dayOf z ≤ 12) ∧ monthOf z = 10 ∧ weekdayOf z = .mon) ∨
      (dayOf z = 15 ∧ monthOf z = 10 ∧ weekdayOf z = .mon)) := by
  have e1 := eq_ymd (z := z) (m := 10) (k := 12) (by decide)
  have e2 := eq_ymd_add (z := z) (m := 10) (k := 12) (j := -1) (by decide)
  have e3 := eq_ymd_add (z := z) (m := 10) (k := 12) (j := -2) (by decide)
  have e4 := eq_ymd_add (z := z) (m := 10) (k := 12) (j := 3) (by decide)
  have e5 := eq_ymd_add (z := z) (m := 10) (k := 12) (j := -3) (by decide)
  rw [wd_iff]
  unfold SatSun at hz
  simp only [chileanMove, Weekday.num]
  generalize ymd (yearOf z) 10 12 = x at *
  grind

theorem eq_chileanJune (hz : ¬ SatSun z) : z = chileanMove (ymd (yearOf z) 6 29) ↔
    (((26 ≤ dayOf z ∧ dayOf z ≤ 29) ∧ monthOf z = 6 ∧ weekdayOf z = .mon) ∨
      (dayOf z = 2 ∧ monthOf z = 7 ∧ weekdayOf z = .mon)) := by
  have e1 := eq_ymd (z := z) (m := 6) (k := 29) (by decide)
  have e2 := eq_ymd_add (z := z) (m := 6) (k := 29) (j := -1) (by decide)
  have e3 := eq_ymd_add (z := z) (m := 6) (k := 29) (j := -2) (by decide)
  have e4 := eq_ymd (z := z) (m := 7) (k := 2) (by decide)
  have e5 := eq_ymd_add (z := z) (m := 6) (k := 29) (j := -3) (by decide)
  have h4 : ymd (yearOf z) 7 2 = ymd (yearOf z) 6 29 + 3 := by unfold ymd monthStart; simp; omega
  rw [h4] at e4
  rw [wd_iff]
  unfold SatSun at hz
  simp only [chileanMove, Weekday.num]
  generalize ymd (yearOf z) 6 29 = x at *
  grind

theorem eq_reformation (hz : ¬ SatSun z) : z = reformationMove (ymd (yearOf z) 10 31) ↔
    ((dayOf z = 27 ∧ monthOf z = 10 ∧ weekdayOf z = .fri) ∨
     (dayOf z = 31 ∧ monthOf z = 10 ∧ ¬ weekdayOf z = .tue ∧ ¬ weekdayOf z = .wed) ∨
     (dayOf z = 2 ∧ monthOf z = 11 ∧ weekdayOf z = .fri)) := by
  have e1 := eq_ymd (z := z) (m := 10) (k := 31) (by decide)
  have e2 := eq_ymd_add (z := z) (m := 10) (k := 31) (j := -4) (by decide)
  have e3 := eq_ymd (z := z) (m := 11) (k := 2) (by decide)
  have h3 : ymd (yearOf z) 11 2 = ymd (yearOf z) 10 31 + 2 := by unfold ymd monthStart; simp; omega
  rw [h3] at e3
  simp only [wd_iff]
  unfold SatSun at hz
  simp only [reformationMove, Weekday.num]
  generalize ymd (yearOf z) 10 31 = x at *
  grind

theorem mem_goldenWeek : z ∈ goldenWeek (yearOf z) ↔
    (dayOf z = 6 ∧ monthOf z = 5 ∧ (weekdayOf z = .mon ∨ weekdayOf z = .tue ∨ weekdayOf z = .wed)) := by
  have e1 := eq_ymd (z := z) (m := 5) (k := 6) (by decide)
  have h1 : ymd (yearOf z) 5 3 = ymd (yearOf z) 5 6 - 3 := by unfold ymd; omega
  have h2 : ymd (yearOf z) 5 4 = ymd (yearOf z) 5 6 - 2 := by unfold ymd; omega
  have h3 : ymd (yearOf z) 5 5 = ymd (yearOf z) 5 6 - 1 := by unfold ymd; omega
  simp only [goldenWeek, mem_provided, List.mem_singleton, wd_iff, Weekday.num]
  rw [h1, h2, h3]
  generalize ymd (yearOf z) 5 6 = x at *
  grind

theorem mem_mayDays (hz : ¬ SatSun z) : z ∈ mayDays (yearOf z) ↔
    ((dayOf z = 1 ∨ dayOf z = 2 ∨ (dayOf z = 3 ∧ weekdayOf z = .mon)) ∧ monthOf z = 5) := by
  simp only [mayDays, List.mem_cons, List.not_mem_nil, or_false]
  rw [eq_ymd (by decide), eq_sunToMon hz (by decide) (by decide)]
  grind

theorem mem_withTwoDays (hz : ¬ SatSun z) (h0 : DayIn m k = true) (h : DayIn m (k + 2) = true) :
    z ∈ withTwoDays (ymd (yearOf z) m k) ↔
      ((dayOf z = k ∨ (dayOf z = k + 1 ∧ weekdayOf z = .mon) ∨ (dayOf z = k + 2 ∧ weekdayOf z = .tue)) ∧
        monthOf z = m) := by
  have e0 := eq_ymd (z := z) h0
  have e1 := eq_ymd_add (z := z) (dayIn_mid h0 h (i := 1) (by omega) (by omega))
  have e2 := eq_ymd_add (z := z) h
  simp only [withTwoDays, mem_provided, List.mem_append, List.mem_cons, List.not_mem_nil, or_false, wd_iff,
    Weekday.num]
  unfold SatSun at hz
  generalize ymd (yearOf z) m k = x at *
  grind

theorem mem_mondayFor (hz : ¬ SatSun z) (h0 : DayIn m k = true) (h : DayIn m (k + 2) = true) :
    z ∈ mondayFor (ymd (yearOf z) m k) ↔
      ((dayOf z = k + 1 ∨ dayOf z = k + 2) ∧ weekdayOf z = .mon ∧ monthOf z = m) := by
  have e1 := eq_ymd_add (z := z) (dayIn_mid h0 h (i := 1) (by omega) (by omega))
  have e2 := eq_ymd_add (z := z) h
  simp only [mondayFor, mem_provided, List.mem_cons, List.not_mem_nil, or_false, wd_iff, Weekday.num, toMonday]
  unfold SatSun at hz
  generalize ymd (yearOf z) m k = x at *
  grind

theorem mem_paperCrisis : z ∈ paperCrisis (yearOf z) ↔
    (yearOf z = 1968 ∧ 163 ≤ ordinal z ∧ weekdayOf z = .wed) := by
  have h0 := yearOf_spec z
  simp only [paperCrisis, mem_provided, wd_iff, Weekday.num, List.mem_map, List.mem_range]
  have h1 : ymd 1968 6 12 = 718595 := by decide +kernel
  have h2 : yearStart 1968 = 718431 := by decide +kernel
  have h3 : yearStart (1968 + 1) = 718797 := by decide +kernel
  rw [h1]
  refine and_congr_right fun hy => ?_
  unfold ordinal
  rw [hy, h2]
  rw [hy, h2, h3] at h0
  constructor
  · rintro ⟨i, hi, rfl⟩; omega
  · rintro ⟨h4, h5⟩
    exact ⟨((z - 718595) / 7).toNat, by omega, by omega⟩

theorem mem_bridgeDay : z ∈ bridgeDay (yearOf z) ↔ (dayOf z = 17 ∧ monthOf z = 9 ∧
    ((weekdayOf z = .mon ∧ 2007 ≤ yearOf z) ∨ (weekdayOf z = .fri ∧ 2016 < yearOf z))) := by
  simp only [bridgeDay, List.mem_append, mem_provided, mem_ifOn]
  rw [eq_ymd (by decide)]
  grind

theorem mem_silverWeek {ae : Int} (h : 20 ≤ ae) (h' : ae ≤ 25) : z ∈ silverWeek ae (yearOf z) ↔
    (weekdayOf z = .tue ∧ dayOf z + 1 = ae ∧ (16 ≤ dayOf z ∧ dayOf z ≤ 22) ∧ monthOf z = 9) := by
  have e1 := eq_ymd_add (z := z) (m := 9) (k := ae) (j := -1)
    (by have := dayIn_mid (m := 9) (k := 1) (j := 29) (i := ae - 2) (by decide) (by decide) (by omega) (by omega)
        rwa [show 1 + (ae - 2) = ae + -1 by omega] at this)
  have h1 : ymd (yearOf z) 9 15 = ymd (yearOf z) 9 ae - ae + 15 := by unfold ymd; omega
  simp only [silverWeek, mem_provided, List.mem_singleton]
  simp only [nthDay, onOrAfter, wd_iff, Weekday.num, Int.reduceMul, Int.reduceSub]
  rw [h1]
  generalize ymd (yearOf z) 9 ae = x at *
  constructor
  · rintro ⟨h2, h3⟩
    have := e1.1 (by omega)
    omega
  · rintro ⟨h2, h3, h4, h5⟩
    have := e1.2 ⟨by omega, h5⟩
    omega

theorem cond_false_true (b : Bool) : (bif b then false else true) = !b := by cases b <;> rfl
theorem cond_true_false (b : Bool) : (bif b then true else false) = b := by cases b <;> rfl
theorem cond_false_else (b c : Bool) : (bif b then false else c) = !(b || !c) := by
  cases b <;> cases c <;> rfl

/-- Rewrites a calendar rule and a list of holidays to statements about day, month, weekday and
ordinal day, and compares them holiday by holiday. -/
macro "holidays" defs:Lean.Parser.Tactic.simpLemma,* : tactic => `(tactic| (
  have hw := not_weekend_iff.2 ‹¬ SatSun _›
  simp -dsimp only [$defs,*, List.mem_append, mem_provided]
  simp only [$defs,*, info, hw, cond_false_true, cond_true_false, cond_false_else, Bool.not_not,
    Bool.false_or, Bool.false_eq_true, Bool.true_eq_false, false_or, Bool.or_eq_true, Bool.and_eq_true, beq_iff_eq, decide_eq_true_eq, inRange,
    Bool.not_eq_false', Bool.not_eq_true', beq_eq_false_iff_ne, List.mem_append, List.mem_cons,
    List.not_mem_nil, or_false, mem_provided, mem_goldenWeek, add_zero, ne_eq,
    eq_chileanOct ‹¬ SatSun _›, eq_chileanJune ‹¬ SatSun _›, eq_auckland ‹1 ≤ dayOf _›, Bool.and_eq_false_iff,
    or_assoc]
  repeat' refine or_congr ?_ ?_
  all_goals (try simp (discharger := first | assumption | decide) only [
    nthDay, Int.reduceMul, Int.reduceSub, Int.reduceAdd, eq_ymd, eq_onOrAfter, eq_sunToMon, eq_toMonday,
    eq_toNearest, eq_twoLater, mem_ifOn, eq_newYear, eq_newYear_next, eq_yearEnd, eq_lastWeekday, eq_truth,
    eq_argentineMove, eq_reformation, mem_mayDays, mem_withTwoDays, mem_mondayFor, mem_paperCrisis,
    mem_bridgeDay])
  all_goals first | done | with_reducible exact Iff.rfl | grind))

end Verif
