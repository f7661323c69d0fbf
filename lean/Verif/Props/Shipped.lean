import Verif.Lemmas.Shipped
import Verif.Lemmas.Month
import Verif.Props.Adjust

/-! # C14 and C15: the shipped calendars -/

namespace Verif
open Outcome

variable {d r y : Int}

/-! ## C14: weekends -/

theorem isWeekend_iff : isWeekend d = true ↔ SatSun d := by
  have hw := weekday_num d
  unfold isWeekend SatSun
  cases h : weekdayOf d <;> rw [h] at hw <;> simp only [Weekday.num] at hw <;>
    simp <;> omega

/-- No shipped calendar except the Moscow exchange is ever open on a Saturday or
Sunday: it answers "closed", or panics because the year is outside the Easter
tables. -/
theorem C14_weekend_closed (s : Shipped) (hs : s ≠ .russia (some .exchange)) (hd : SatSun d) :
    s.cal d = .ok false ∨ s.cal d = .panic :=
  shipped_weekend s hs (isWeekend_iff.2 hd)

/-- From 1901 to 2199 every calendar answers, so it answers "closed". -/
theorem C14_weekend_closed_in_range (s : Shipped) (hs : s ≠ .russia (some .exchange))
    (hd : SatSun d) (h1 : 1901 ≤ yearOf d) (h2 : yearOf d ≤ 2199) : s.cal d = .ok false := by
  obtain ⟨b, hb⟩ := shipped_total s h1 h2
  rcases C14_weekend_closed s hs hd with h | h
  · exact h
  · rw [hb] at h; cases h

/-- The weekend days on which the Moscow exchange is open are exactly nine. -/
theorem C14_russia_exchange (hd : SatSun d) :
    russia (some .exchange) d = .ok true ↔
      d ∈ [ymd 2012 3 11, ymd 2012 4 28, ymd 2012 5 5, ymd 2012 5 12, ymd 2012 6 9,
        ymd 2016 2 20, ymd 2018 4 28, ymd 2018 6 9, ymd 2018 12 29] := by
  have hw := isWeekend_iff.2 hd
  rw [← isWeekend_eq] at hw
  have hu : ∀ a b c : Int, 1 ≤ b → b ≤ 12 → 1 ≤ c → c ≤ monthLen a b →
      (d = ymd a b c ↔ yearOf d = a ∧ monthOf d = b ∧ dayOf d = c) := by
    intro a b c b1 b2 c1 c2
    constructor
    · rintro rfl
      exact ⟨yearOf_ymd b1 b2 c1 c2, monthOf_ymd b1 b2 c1 c2, dayOf_ymd b1 b2 c1 c2⟩
    · rintro ⟨h1, h2, h3⟩
      rw [← h1, ← h2, ← h3, ymd_yearOf]
  simp only [List.mem_cons, List.not_mem_nil, or_false]
  rw [hu _ _ _ (by omega) (by omega) (by omega) (by decide),
    hu _ _ _ (by omega) (by omega) (by omega) (by decide),
    hu _ _ _ (by omega) (by omega) (by omega) (by decide),
    hu _ _ _ (by omega) (by omega) (by omega) (by decide),
    hu _ _ _ (by omega) (by omega) (by omega) (by decide),
    hu _ _ _ (by omega) (by omega) (by omega) (by decide),
    hu _ _ _ (by omega) (by omega) (by omega) (by decide),
    hu _ _ _ (by omega) (by omega) (by omega) (by decide),
    hu _ _ _ (by omega) (by omega) (by omega) (by decide)]
  have key : Russia.exchangeIsBusinessDay (info d) = Russia.isWorkingWeekend (info d) := by
    unfold Russia.exchangeIsBusinessDay
    cases Russia.isWorkingWeekend (info d)
    · simp only [info, hw, Bool.true_or, cond_true, cond_false]
    · rfl
  change Outcome.ok (Russia.exchangeIsBusinessDay (info d)) = .ok true ↔ _
  rw [key, ok.injEq]
  simp only [Russia.isWorkingWeekend, info, condT, Bool.or_eq_true, Bool.and_eq_true, beq_iff_eq,
    beq_eq_false_iff_ne, ne_eq, Bool.false_eq_true, and_false, or_false]
  by_cases a : yearOf d = 2012
  · simp [a, or_assoc]
  · by_cases b : yearOf d = 2016
    · simp [b]
    · by_cases c : yearOf d = 2018
      · simp [c, or_assoc]
      · simp [a, b, c]

/-- `WeekendsOnly` is closed exactly on Saturdays and Sundays. -/
theorem C14_weekendsOnly_iff : weekendsOnly d = .ok true ↔ ¬ SatSun d := by
  rw [← isWeekend_iff]
  unfold weekendsOnly
  cases isWeekend d <;> simp

/-- Saturday 30 September 2023 and Frankfurt; and a working Saturday in Moscow. -/
example : SatSun (ymd 2023 9 30) ∧ (Shipped.germany (some .xetra)).cal (ymd 2023 9 30) = .ok false ∧
    SatSun (ymd 2012 4 28) ∧ russia (some .exchange) (ymd 2012 4 28) = .ok true := by
  refine ⟨by unfold SatSun; decide +kernel, ?_, by unfold SatSun; decide +kernel,
    by decide +kernel⟩
  exact C14_weekend_closed_in_range _ (by decide) (by unfold SatSun; decide +kernel)
    (by decide +kernel) (by decide +kernel)

/-! ## C15: no long closures -/

/-- Every half-month of 1901-2199 has an open day, in every shipped calendar. -/
theorem C15_half_months (s : Shipped) (h1 : 1901 ≤ y) (h2 : y ≤ 2199) : HalfMonthsOpen s.cal y :=
  shipped_half s h1 h2

/-- The calendars that do not look up Easter keep this up in all years. -/
theorem C15_half_months_all_years (s : Shipped) (h : s.usesEaster = false) (h1 : -262143 < y)
    (h2 : y < 262142) : HalfMonthsOpen s.cal y :=
  shipped_half_plain s h h1 h2

/-- The others panic outside 1901-2199 (the Warsaw exchange knows about 24 and 31
December without Easter). -/
theorem C15_panics_outside (s : Shipped) (h : s.usesEaster = true) (hs : s ≠ .poland (some .wse))
    (hy : yearOf d < 1901 ∨ 2199 < yearOf d) : s.cal d = .panic :=
  shipped_outside s h hs hy

theorem year_range {a b : Int} (h1 : ymd a 1 1 ≤ d) (h2 : d ≤ ymd b 12 31) :
    a ≤ yearOf d ∧ yearOf d ≤ b := by
  have e1 : yearOf (ymd a 1 1) = a :=
    yearOf_ymd (by omega) (by omega) (by omega) (by have := monthLen_pos a 1; omega)
  have e2 : yearOf (ymd b 12 31) = b :=
    yearOf_ymd (by omega) (by omega) (by omega) (by unfold monthLen; simp)
  have m1 := yearOf_mono h1
  have m2 := yearOf_mono h2
  omega

theorem shipped_classified (s : Shipped) {a b : Int} (h1 : ymd 1901 1 1 ≤ a)
    (h2 : b ≤ ymd 2199 12 31) : ClassifiedOn s.cal a b := by
  intro x hx1 hx2
  have := year_range (d := x) (a := 1901) (b := 2199) (by omega) (by omega)
  obtain ⟨v, hv⟩ := shipped_total s this.1 this.2
  cases v
  · exact .inr hv
  · exact .inl hv

/-- There is an open day in the 30 days after `d`. -/
theorem open_after (s : Shipped) (h1 : ymd 1901 1 1 ≤ d) (h2 : d ≤ ymd 2199 12 15) :
    ∃ e, d < e ∧ e ≤ d + 30 ∧ e ≤ ymd 2199 12 31 ∧ s.cal e = .ok true := by
  have hr := year_range (d := d) (a := 1901) (b := 2199) h1
    (le_trans h2 (by unfold ymd; omega))
  have hm := monthOf_bounds d
  have hd := dayOf_bounds d
  have hl := monthLen_pos (yearOf d) (monthOf d)
  have e0 := ymd_yearOf d
  have up : ∀ z, yearOf z ≤ 2199 → z ≤ ymd 2199 12 31 := by
    intro z hz
    have s := yearOf_spec z
    have := yearStart_mono (show yearOf z + 1 ≤ 2200 by omega)
    have : yearStart 2200 = ymd 2199 12 31 := by decide
    omega
  by_cases h15 : dayOf d ≤ 15
  · obtain ⟨-, ⟨e, a, b, c⟩⟩ := C15_half_months s hr.1 hr.2 (monthOf d) hm.1 hm.2
    refine ⟨_, ?_, ?_, up _ ?_, c⟩
    · unfold ymd at *; omega
    · unfold ymd at *; omega
    · rw [yearOf_ymd hm.1 hm.2 (by omega) b]; omega
  · rcases (show monthOf d < 12 ∨ monthOf d = 12 by omega) with h12 | h12
    · obtain ⟨⟨e, a, b, c⟩, -⟩ := C15_half_months s hr.1 hr.2 (monthOf d + 1) (by omega) (by omega)
      have hms := monthStart_succ (yearOf d) (monthOf d) hm.1 hm.2
      refine ⟨_, ?_, ?_, up _ ?_, c⟩
      · unfold ymd at *; omega
      · unfold ymd at *; omega
      · have := monthLen_pos (yearOf d) (monthOf d + 1)
        rw [yearOf_ymd (by omega) (by omega) (by omega) (by omega)]; omega
    · have hy : yearOf d + 1 ≤ 2199 := by
        by_contra hc
        have e : yearOf d = 2199 := by omega
        rw [e, h12] at e0
        unfold ymd at e0 h2
        omega
      obtain ⟨⟨e, a, b, c⟩, -⟩ := C15_half_months s (y := yearOf d + 1) (by omega) hy 1
        (by omega) (by omega)
      have hms := monthStart_succ (yearOf d) (monthOf d) hm.1 hm.2
      have hys := yearStart_succ (yearOf d)
      have h13 : monthStart (leap (yearOf d)) 13 = 365 + leap (yearOf d) := by
        unfold monthStart; simp
      have h1' : monthStart (leap (yearOf d + 1)) 1 = 0 := by unfold monthStart; simp
      rw [h12, show (12 : Int) + 1 = 13 from rfl] at hms
      rw [h12] at e0 hl hd
      refine ⟨_, ?_, ?_, up _ ?_, c⟩
      · unfold ymd at *; omega
      · unfold ymd at *; omega
      · have := monthLen_pos (yearOf d + 1) 1
        rw [yearOf_ymd (by omega) (by omega) (by omega) (by omega)]; omega

/-- There is an open day in the 30 days before `d`. -/
theorem open_before (s : Shipped) (h1 : ymd 1901 1 16 ≤ d) (h2 : d ≤ ymd 2199 12 31) :
    ∃ e, e < d ∧ d - 30 ≤ e ∧ ymd 1901 1 1 ≤ e ∧ s.cal e = .ok true := by
  have hr := year_range (d := d) (a := 1901) (b := 2199) (le_trans (by unfold ymd; omega) h1) h2
  have hm := monthOf_bounds d
  have hd := dayOf_bounds d
  have hl := monthLen_pos (yearOf d) (monthOf d)
  have e0 := ymd_yearOf d
  have up : ∀ z, 1901 ≤ yearOf z → ymd 1901 1 1 ≤ z := by
    intro z hz
    have s := yearOf_spec z
    have := yearStart_mono hz
    have : yearStart 1901 + 1 = ymd 1901 1 1 := by decide
    omega
  by_cases h15 : 15 < dayOf d
  · obtain ⟨⟨e, a, b, c⟩, -⟩ := C15_half_months s hr.1 hr.2 (monthOf d) hm.1 hm.2
    refine ⟨_, ?_, ?_, up _ ?_, c⟩
    · unfold ymd at *; omega
    · unfold ymd at *; omega
    · rw [yearOf_ymd hm.1 hm.2 (by omega) (by omega)]; omega
  · rcases (show 1 < monthOf d ∨ monthOf d = 1 by omega) with h12 | h12
    · obtain ⟨-, ⟨e, a, b, c⟩⟩ := C15_half_months s hr.1 hr.2 (monthOf d - 1) (by omega) (by omega)
      have hms := monthStart_succ (yearOf d) (monthOf d - 1) (by omega) (by omega)
      rw [show monthOf d - 1 + 1 = monthOf d by omega] at hms
      have hl' := monthLen_pos (yearOf d) (monthOf d - 1)
      refine ⟨_, ?_, ?_, up _ ?_, c⟩
      · unfold ymd at *; omega
      · unfold ymd at *; omega
      · rw [yearOf_ymd (by omega) (by omega) (by omega) b]; omega
    · have hy : 1901 ≤ yearOf d - 1 := by
        by_contra hc
        have e : yearOf d = 1901 := by omega
        rw [e, h12] at e0
        unfold ymd at e0 h1
        omega
      obtain ⟨-, ⟨e, a, b, c⟩⟩ := C15_half_months s (y := yearOf d - 1) hy (by omega) 12
        (by omega) (by omega)
      have hms := monthStart_succ (yearOf d - 1) 12 (by omega) (by omega)
      rw [show (12 : Int) + 1 = 13 from rfl] at hms
      have hys := yearStart_succ (yearOf d - 1)
      rw [show yearOf d - 1 + 1 = yearOf d by omega] at hys
      have h13 : monthStart (leap (yearOf d - 1)) 13 = 365 + leap (yearOf d - 1) := by
        unfold monthStart; simp
      have h1' : monthStart (leap (yearOf d)) 1 = 0 := by unfold monthStart; simp
      have hl' := monthLen_pos (yearOf d - 1) 12
      rw [h12] at e0
      refine ⟨_, ?_, ?_, up _ ?_, c⟩
      · unfold ymd at *; omega
      · unfold ymd at *; omega
      · rw [yearOf_ymd (by omega) (by omega) (by omega) b]; omega

/-- Following: for every shipped calendar and every date from 1901 to mid-December
2199 the next open day exists, is at most 30 days away and is what `adjust`
returns. -/
theorem C15_following (s : Shipped) (h1 : ymd 1901 1 1 ≤ d) (h2 : d ≤ ymd 2199 12 15) :
    ∃ r, adjust s.cal d .following = .ok r ∧ FirstOpenFrom s.cal d r ∧ r ≤ d + 30 := by
  obtain ⟨e, a1, a2, a3, a4⟩ := open_after s h1 h2
  obtain ⟨r, hr, hre⟩ := exists_firstOpen (by omega) a4 (shipped_classified s h1 a3)
  have : ymd 2199 12 31 ≤ maxDay := by decide
  exact ⟨r, C01_following_iff.2 ⟨hr, by omega⟩, hr, by omega⟩

/-- Preceding, from mid-January 1901. -/
theorem C15_preceding (s : Shipped) (h1 : ymd 1901 1 16 ≤ d) (h2 : d ≤ ymd 2199 12 31) :
    ∃ r, adjust s.cal d .preceding = .ok r ∧ LastOpenTo s.cal d r ∧ d - 30 ≤ r := by
  obtain ⟨e, a1, a2, a3, a4⟩ := open_before s h1 h2
  obtain ⟨r, hr, hre⟩ := exists_lastOpen (by omega) a4 (shipped_classified s a3 h2)
  have : minDay ≤ ymd 1901 1 1 := by decide
  exact ⟨r, C02_preceding_iff.2 ⟨hr, by omega⟩, hr, by omega⟩

/-- The month and the half-month of a date have an open day. -/
theorem open_in_half (s : Shipped) (h1 : 1901 ≤ yearOf d) (h2 : yearOf d ≤ 2199) :
    ∃ o, SameMonth o d ∧ (dayOf o ≤ 15 ↔ dayOf d ≤ 15) ∧ s.cal o = .ok true := by
  have hm := monthOf_bounds d
  have hl := monthLen_pos (yearOf d) (monthOf d)
  obtain ⟨⟨a, a1, a2, a3⟩, ⟨b, b1, b2, b3⟩⟩ := C15_half_months s h1 h2 (monthOf d) hm.1 hm.2
  by_cases h15 : dayOf d ≤ 15
  · have v : a ≤ monthLen (yearOf d) (monthOf d) := by omega
    refine ⟨_, ⟨yearOf_ymd hm.1 hm.2 a1 v, monthOf_ymd hm.1 hm.2 a1 v⟩, ?_, a3⟩
    rw [dayOf_ymd hm.1 hm.2 a1 v]; omega
  · refine ⟨_, ⟨yearOf_ymd hm.1 hm.2 (by omega) b2, monthOf_ymd hm.1 hm.2 (by omega) b2⟩, ?_, b3⟩
    rw [dayOf_ymd hm.1 hm.2 (by omega) b2]; omega

theorem day_range {a b : Int} (h1 : a ≤ yearOf d) (h2 : yearOf d ≤ b) :
    ymd a 1 1 ≤ d ∧ d ≤ ymd b 12 31 := by
  have s := yearOf_spec d
  have m1 := yearStart_mono h1
  have m2 := yearStart_mono (show yearOf d + 1 ≤ b + 1 by omega)
  have e1 : ymd a 1 1 = yearStart a + 1 := by unfold ymd monthStart; simp
  have e2 : ymd b 12 31 = yearStart (b + 1) := by
    have h := monthStart_succ b 12 (by omega) (by omega)
    have h13 : monthStart (leap b) (12 + 1) = 365 + leap b := by unfold monthStart; simp
    have hl : monthLen b 12 = 31 := by unfold monthLen; simp
    have := yearStart_succ b
    unfold ymd; omega
  omega

/-- ModifiedFollowing never leaves the month, for every shipped calendar. -/
theorem C15_modifiedFollowing (s : Shipped) (h1 : ymd 1901 1 1 ≤ d) (h2 : d ≤ ymd 2199 12 15) :
    ∃ r, adjust s.cal d .modifiedFollowing = .ok r ∧ SameMonth r d ∧ s.cal r = .ok true := by
  have hr := year_range (d := d) (a := 1901) (b := 2199) h1 (le_trans h2 (by unfold ymd; omega))
  obtain ⟨o, o1, -, o3⟩ := open_in_half s hr.1 hr.2
  obtain ⟨e, a1, a2, a3, a4⟩ := open_after s h1 h2
  have ho := day_range (d := o) (a := 1901) (b := 2199) (by rw [o1.1]; omega) (by rw [o1.1]; omega)
  have hM : ymd 2199 12 31 ≤ maxDay := by decide
  have hm : minDay ≤ ymd 1901 1 1 := by decide
  obtain ⟨r, b1, b2, b3, -⟩ := C03_modifiedFollowing (c := s.cal) (d := d) ⟨by omega, by omega⟩ o1 o3
    (le_of_lt a1) (by omega) (by omega) a4 (shipped_classified s (by omega) a3)
  exact ⟨r, b1, b2, b3⟩

/-- ModifiedPreceding never leaves the month. -/
theorem C15_modifiedPreceding (s : Shipped) (h1 : ymd 1901 1 16 ≤ d) (h2 : d ≤ ymd 2199 12 31) :
    ∃ r, adjust s.cal d .modifiedPreceding = .ok r ∧ SameMonth r d ∧ s.cal r = .ok true := by
  have hr := year_range (d := d) (a := 1901) (b := 2199) (le_trans (by unfold ymd; omega) h1) h2
  obtain ⟨o, o1, -, o3⟩ := open_in_half s hr.1 hr.2
  obtain ⟨e, a1, a2, a3, a4⟩ := open_before s h1 h2
  have ho := day_range (d := o) (a := 1901) (b := 2199) (by rw [o1.1]; omega) (by rw [o1.1]; omega)
  have hM : ymd 2199 12 31 ≤ maxDay := by decide
  have hm : minDay ≤ ymd 1901 1 1 := by decide
  obtain ⟨r, b1, b2, b3, -⟩ := C03_modifiedPreceding (c := s.cal) (d := d) ⟨by omega, by omega⟩ o1 o3
    (le_of_lt a1) (by omega) (by omega) a4 (shipped_classified s a3 (by omega))
  exact ⟨r, b1, b2, b3⟩

/-- HalfMonthModifiedFollowing stays in the half-month for dates up to the 15th. -/
theorem C15_halfMonth (s : Shipped) (h1 : ymd 1901 1 1 ≤ d) (h2 : d ≤ ymd 2199 12 15)
    (h15 : dayOf d ≤ 15) :
    ∃ r, adjust s.cal d .halfMonthModifiedFollowing = .ok r ∧ SameMonth r d ∧ dayOf r ≤ 15 ∧
      s.cal r = .ok true := by
  have hr := year_range (d := d) (a := 1901) (b := 2199) h1 (le_trans h2 (by unfold ymd; omega))
  obtain ⟨o, o1, o2, o3⟩ := open_in_half s hr.1 hr.2
  obtain ⟨e, a1, a2, a3, a4⟩ := open_after s h1 h2
  have ho := day_range (d := o) (a := 1901) (b := 2199) (by rw [o1.1]; omega) (by rw [o1.1]; omega)
  have hM : ymd 2199 12 31 ≤ maxDay := by decide
  have hm : minDay ≤ ymd 1901 1 1 := by decide
  obtain ⟨r, b1, b2, b3, b4, -⟩ := C04_firstHalf (c := s.cal) (d := d) ⟨by omega, by omega⟩ h15 o1
    (o2.2 h15) o3 (le_of_lt a1) (by omega) (by omega) a4 (shipped_classified s (by omega) a3)
  exact ⟨r, b1, b2, b3, b4⟩

/-- The outward search of `Nearest` ends. -/
theorem nearestFuel_ends {c : Cal} {k : Nat} : ∀ {n : Nat} {a b : Int}, k < n →
    (∀ j : Int, 0 ≤ j → j ≤ k → (∃ v, c (a + j) = .ok v) ∧ (∃ v, c (b - j) = .ok v)) →
    c (a + k) = .ok true →
    ∃ j : Int, 0 ≤ j ∧ j ≤ k ∧ nearestFuel c n a b = .ok (a + j, b - j) := by
  induction k with
  | zero =>
    intro n a b hn _ ho
    obtain ⟨m, rfl⟩ : ∃ m, n = m + 1 := ⟨n - 1, by omega⟩
    refine ⟨0, le_rfl, by simp, ?_⟩
    simp only [Nat.cast_zero, add_zero] at ho
    rw [nearestFuel, ho, ok_bind, if_pos rfl]; simp
  | succ k ih =>
    intro n a b hn hc ho
    obtain ⟨m, rfl⟩ : ∃ m, n = m + 1 := ⟨n - 1, by omega⟩
    obtain ⟨⟨v, hv⟩, ⟨w, hw⟩⟩ := hc 0 le_rfl (by omega)
    simp only [add_zero, sub_zero] at hv hw
    rw [nearestFuel, hv, ok_bind]
    cases v
    · rw [if_neg (by simp), hw, ok_bind]
      cases w
      · rw [if_neg (by simp)]
        obtain ⟨j, j0, j1, j2⟩ := ih (n := m) (a := a + 1) (b := b - 1) (by omega)
          (fun j h0 h1 => by
            have := hc (j + 1) (by omega) (by push_cast; omega)
            rw [show a + (j + 1) = a + 1 + j by omega, show b - (j + 1) = b - 1 - j by omega] at this
            exact this)
          (by rw [← ho]; congr 1; push_cast; omega)
        exact ⟨j + 1, by omega, by push_cast; omega, by
          rw [j2, show a + (j + 1) = a + 1 + j by omega, show b - (j + 1) = b - 1 - j by omega]⟩
      · rw [if_pos rfl]; exact ⟨0, le_rfl, by omega, by simp⟩
    · rw [if_pos rfl]; exact ⟨0, le_rfl, by omega, by simp⟩

/-- Every convention, every shipped calendar, every date from February 1901 to
November 2199: `adjust` returns a day at most 30 days away; it neither panics nor
fails. -/
theorem C15_adjust (s : Shipped) (bdc : Bdc) (h1 : ymd 1901 2 1 ≤ d) (h2 : d ≤ ymd 2199 11 30) :
    ∃ r, adjust s.cal d bdc = .ok r ∧ d - 30 ≤ r ∧ r ≤ d + 30 := by
  have g1 : ymd 1901 1 16 + 16 = ymd 1901 2 1 := by decide
  have g2 : ymd 2199 12 15 = ymd 2199 11 30 + 15 := by decide
  have g3 : ymd 1901 1 1 + 31 = ymd 1901 2 1 := by decide
  have g4 : ymd 2199 12 31 = ymd 2199 11 30 + 31 := by decide
  have hM : ymd 2199 12 31 ≤ maxDay := by decide
  have hm : minDay ≤ ymd 1901 1 1 := by decide
  obtain ⟨f, f1, f2, f3⟩ := C15_following s (d := d) (by omega) (by omega)
  obtain ⟨p, p1, p2, p3⟩ := C15_preceding s (d := d) (by omega) (by omega)
  have f4 := f2.le
  have p4 := p2.le
  change rollFwd s.cal d = .ok f at f1
  change rollBack s.cal d = .ok p at p1
  cases bdc
  case following => exact ⟨f, f1, by omega, f3⟩
  case preceding => exact ⟨p, p1, p3, by omega⟩
  case unadjusted => exact ⟨d, rfl, by omega, by omega⟩
  case modifiedFollowing =>
    simp only [adjust, f1, ok_bind]
    split
    · exact ⟨p, p1, p3, by omega⟩
    · exact ⟨f, rfl, by omega, f3⟩
  case halfMonthModifiedFollowing =>
    simp only [adjust, f1, ok_bind]
    split
    · exact ⟨p, p1, p3, by omega⟩
    · split
      · exact ⟨p, p1, p3, by omega⟩
      · exact ⟨f, rfl, by omega, f3⟩
  case modifiedPreceding =>
    simp only [adjust, p1, ok_bind]
    split
    · exact ⟨f, f1, by omega, f3⟩
    · exact ⟨p, rfl, p3, by omega⟩
  case nearest =>
    have hcl := shipped_classified s (a := d - 30) (b := d + 30) (by omega) (by omega)
    have hv : ∀ x, d - 30 ≤ x → x ≤ d + 30 → ∃ v, s.cal x = .ok v := fun x a b => by
      rcases hcl x a b with h | h <;> exact ⟨_, h⟩
    obtain ⟨j, j0, j1, j2⟩ := nearestFuel_ends (c := s.cal) (k := (f - d).toNat)
      (n := (min (maxDay - d) (d - minDay) + 1).toNat) (a := d) (b := d) (by omega)
      (fun j a b => ⟨hv _ (by omega) (by omega), hv _ (by omega) (by omega)⟩)
      (by rw [show d + (((f - d).toNat : Nat) : Int) = f by omega]; exact f2.isOpen)
    simp only [adjust, j2, ok_bind]
    obtain ⟨v, hv⟩ := hv (d + j) (by omega) (by omega)
    rw [hv, ok_bind]
    cases v
    · exact ⟨_, rfl, by omega, by omega⟩
    · exact ⟨_, rfl, by omega, by omega⟩

/-- The Chinese New Year week of 2004: following from 24 January. -/
example : ∃ r, adjust china (ymd 2004 1 24) .following = .ok r ∧
    FirstOpenFrom china (ymd 2004 1 24) r ∧ r ≤ ymd 2004 1 24 + 30 :=
  C15_following .china (by decide +kernel) (by decide +kernel)

/-- Good Friday 2024 at the end of March: TARGET moves back to the Thursday. -/
example : adjust target (ymd 2024 3 29) .modifiedFollowing = .ok (ymd 2024 3 28) := by decide +kernel

example : ∃ r, adjust target (ymd 2024 3 29) .modifiedFollowing = .ok r ∧
    SameMonth r (ymd 2024 3 29) ∧ target r = .ok true :=
  C15_modifiedFollowing .target (by decide +kernel) (by decide +kernel)

example : ∃ r, adjust (unitedKingdom none) (ymd 2023 4 10) .nearest = .ok r ∧
    ymd 2023 4 10 - 30 ≤ r ∧ r ≤ ymd 2023 4 10 + 30 :=
  C15_adjust (.unitedKingdom none) .nearest (by decide +kernel) (by decide +kernel)

example : (Shipped.unitedStates (some .nerc)).usesEaster = false ∧
    HalfMonthsOpen (unitedStates (some .nerc)) 2500 :=
  ⟨rfl, C15_half_months_all_years (.unitedStates (some .nerc)) rfl (by omega) (by omega)⟩

example : target (ymd 1900 6 1) = .panic :=
  C15_panics_outside .target rfl (by decide) (by decide +kernel)

end Verif
