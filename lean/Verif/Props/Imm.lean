import Verif.Model.Imm
import Verif.Model.Names
import Verif.Props.Period

/-! # C20-C23: IMM dates and codes, frequency names -/

namespace Verif
open Outcome

variable {d r x y : Int} {mc : Bool}

/-! ## C20 -/

/-- Specification: `d` is the `n`-th Wednesday of its month, i.e. a Wednesday with
exactly `n - 1` earlier Wednesdays in the month. -/
def IsNthWednesday (n : Nat) (d : Int) : Prop :=
  weekdayOf d = .wed ∧
  ∃ s : Finset Int, (∀ x, x ∈ s ↔ SameMonth x d ∧ x ≤ d ∧ weekdayOf x = .wed) ∧ s.card = n

theorem weekdayOf_eq_wed : weekdayOf d = .wed ↔ d % 7 = 3 := by
  constructor
  · intro h
    have := weekday_num d
    rw [h] at this
    simp only [Weekday.num] at this
    omega
  · intro h
    apply weekday_num_inj
    rw [weekday_num]
    simp only [Weekday.num]
    omega

theorem isImmDate_iff : isImmDate d mc = true ↔
    weekdayOf d = .wed ∧ 15 ≤ dayOf d ∧ dayOf d ≤ 21 ∧
    (mc = true → monthOf d = 3 ∨ monthOf d = 6 ∨ monthOf d = 9 ∨ monthOf d = 12) := by
  unfold isImmDate
  by_cases h1 : weekdayOf d = .wed <;> by_cases h2 : 15 ≤ dayOf d ∧ dayOf d ≤ 21 <;>
    cases mc <;> simp [h1, h2, or_assoc] <;> omega

theorem wednesdays_before (d : Int) (hw : weekdayOf d = .wed) (x : Int) :
    (SameMonth x d ∧ x ≤ d ∧ weekdayOf x = .wed) ↔
      ∃ k : Int, 0 ≤ k ∧ 7 * k < dayOf d ∧ x = d - 7 * k := by
  rw [weekdayOf_eq_wed] at hw
  rw [weekdayOf_eq_wed]
  constructor
  · rintro ⟨hs, hle, hx⟩
    refine ⟨(d - x) / 7, by omega, ?_, by omega⟩
    have := sameMonth_dayOf hs
    have := (dayOf_bounds x).1
    omega
  · rintro ⟨k, hk0, hk, rfl⟩
    refine ⟨?_, by omega, by omega⟩
    have hb := monthOf_bounds d
    have hd := dayOf_bounds d
    have e : d - 7 * k = ymd (yearOf d) (monthOf d) (dayOf d - 7 * k) := by
      have := ymd_yearOf d
      unfold ymd at *
      omega
    rw [e]
    exact ⟨yearOf_ymd hb.1 hb.2 (by omega) (by omega), monthOf_ymd hb.1 hb.2 (by omega) (by omega)⟩

/-- `is_imm_date` recognises exactly the third Wednesday of a month (of a quarter
month for the main cycle). -/
theorem C20_is_third_wednesday (d : Int) (mc : Bool) :
    isImmDate d mc = true ↔ IsNthWednesday 3 d ∧
      (mc = true → monthOf d = 3 ∨ monthOf d = 6 ∨ monthOf d = 9 ∨ monthOf d = 12) := by
  rw [isImmDate_iff, IsNthWednesday]
  constructor
  · rintro ⟨hw, h1, h2, hm⟩
    refine ⟨⟨hw, {d, d - 7, d - 14}, ?_, ?_⟩, hm⟩
    · intro x
      rw [wednesdays_before d hw]
      simp only [Finset.mem_insert, Finset.mem_singleton]
      constructor
      · rintro (rfl | rfl | rfl)
        · exact ⟨0, by omega, by omega, by omega⟩
        · exact ⟨1, by omega, by omega, by omega⟩
        · exact ⟨2, by omega, by omega, by omega⟩
      · rintro ⟨k, hk0, hk, rfl⟩
        have : k = 0 ∨ k = 1 ∨ k = 2 := by omega
        omega
    · rw [Finset.card_eq_three]
      exact ⟨d, d - 7, d - 14, by omega, by omega, by omega, rfl⟩
  · rintro ⟨⟨hw, s, hs, hc⟩, hm⟩
    refine ⟨hw, ?_, ?_, hm⟩
    · by_contra hlt
      have hsub : s ⊆ {d, d - 7} := by
        intro x hx
        rw [hs, wednesdays_before d hw] at hx
        obtain ⟨k, hk0, hk, rfl⟩ := hx
        simp only [Finset.mem_insert, Finset.mem_singleton]
        have : k = 0 ∨ k = 1 := by omega
        omega
      have := Finset.card_le_card hsub
      have := Finset.card_le_two (a := d) (b := d - 7)
      omega
    · by_contra hlt
      have hsub : ({d, d - 7, d - 14, d - 21} : Finset Int) ⊆ s := by
        intro x hx
        rw [hs, wednesdays_before d hw]
        simp only [Finset.mem_insert, Finset.mem_singleton] at hx
        rcases hx with rfl | rfl | rfl | rfl
        · exact ⟨0, by omega, by omega, by omega⟩
        · exact ⟨1, by omega, by omega, by omega⟩
        · exact ⟨2, by omega, by omega, by omega⟩
        · exact ⟨3, by omega, by omega, by omega⟩
      have h4 : ({d, d - 7, d - 14, d - 21} : Finset Int).card = 4 := by
        rw [Finset.card_insert_of_notMem, Finset.card_insert_of_notMem,
          Finset.card_insert_of_notMem, Finset.card_singleton] <;>
        simp only [Finset.mem_insert, Finset.mem_singleton] <;> omega
      have := Finset.card_le_card hsub
      omega

/-- Two IMM dates of one month are equal. -/
theorem isImmDate_unique (h1 : isImmDate x false = true) (h2 : isImmDate y false = true)
    (hs : SameMonth x y) : x = y := by
  rw [isImmDate_iff] at h1 h2
  obtain ⟨w1, a1, b1, -⟩ := h1
  obtain ⟨w2, a2, b2, -⟩ := h2
  rw [weekdayOf_eq_wed] at w1 w2
  have := sameMonth_dayOf hs
  omega

theorem weekday_num_bounds (f : Int) : 0 ≤ (weekdayOf f).num ∧ (weekdayOf f).num ≤ 6 := by
  rw [weekday_num]; omega

/-- `nth_weekday(3, Wed, m, y)` is the IMM date of the month. -/
theorem nthWeekday_third {m : Int} (hy1 : -262143 ≤ y) (hy2 : y ≤ 262142) (hm1 : 1 ≤ m)
    (hm2 : m ≤ 12) : ∃ r, nthWeekday 3 .wed m y = .ok (some r) ∧ isImmDate r false = true ∧
      yearOf r = y ∧ monthOf r = m ∧ Valid r := by
  have hl := monthLen_pos y m
  have e1 : fromYmdOpt y m 1 = some (ymd y m 1) := by
    unfold fromYmdOpt; rw [if_pos (by omega)]
  set f := ymd y m 1 with hf
  have hn := weekday_num f
  have hb := weekday_num_bounds f
  set n := (weekdayOf f).num with hnn
  let day : Int := 1 + 2 + (3 - (if (2 : Int) ≥ n then 1 else 0)) * 7 - n
  have hday : 15 ≤ day ∧ day ≤ 21 := by
    simp only [day]; split <;> omega
  have hlen : 28 ≤ monthLen y m := by
    unfold monthLen; have := leap_cases y; repeat' split
    all_goals omega
  have e2 : fromYmdOpt y m day = some (ymd y m day) := by
    unfold fromYmdOpt; rw [if_pos (by omega)]
  have hyr : yearOf (ymd y m day) = y := yearOf_ymd hm1 hm2 (by omega) (by omega)
  refine ⟨ymd y m day, ?_, ?_, hyr,
    monthOf_ymd hm1 hm2 (by omega) (by omega), ?_⟩
  · unfold nthWeekday
    rw [if_neg (by omega), e1]
    have hw : Weekday.wed.num = 2 := rfl
    simp only [unwrap, ok_bind, hw]
    rw [← hnn, if_neg (by split <;> omega), if_neg (by split <;> omega)]
    exact congrArg _ e2
  · rw [isImmDate_iff]
    refine ⟨?_, ?_, ?_, by simp⟩
    · rw [weekdayOf_eq_wed]
      have : ymd y m day = f + day - 1 := by rw [hf]; unfold ymd; omega
      rw [this]
      simp only [day]
      split <;> omega
    · rw [dayOf_ymd hm1 hm2 (by omega) (by omega)]; omega
    · rw [dayOf_ymd hm1 hm2 (by omega) (by omega)]; omega
  · rw [valid_iff_year, hyr]; omega

/-- Every month of the supported years has exactly one IMM date. -/
theorem C20_exists_unique {m : Int} (hy1 : -262143 ≤ y) (hy2 : y ≤ 262142) (hm1 : 1 ≤ m)
    (hm2 : m ≤ 12) : ∃! r, isImmDate r false = true ∧ yearOf r = y ∧ monthOf r = m := by
  obtain ⟨r, -, h1, h2, h3, -⟩ := nthWeekday_third hy1 hy2 hm1 hm2
  refine ⟨r, ⟨h1, h2, h3⟩, ?_⟩
  rintro x ⟨hx1, hx2, hx3⟩
  exact isImmDate_unique hx1 h1 ⟨by omega, by omega⟩

/-- 20 September 2023 is an IMM date, 18 October 2023 only off the main cycle. -/
example : isImmDate (ymd 2023 9 20) true = true ∧ isImmDate (ymd 2023 10 18) false = true ∧
    isImmDate (ymd 2023 10 18) true = false ∧ isImmDate (ymd 2023 9 13) false = false := by
  decide +kernel

/-! ## C22 next_date -/

/-- One unfolding of `next_date` in terms of the IMM date `r` of the month of `d`. -/
theorem immNextDate_step (hv : Valid d) (hr : isImmDate r false = true) (hs : SameMonth r d)
    (n : Nat) : immNextDate mc (n + 1) d =
      if monthOf d = 12 ∧ dayOf d > 21 then some .panic
      else if d < r then some (.ok r)
      else immNextDate mc n (ymd (yearOf d) (monthOf d) 22) := by
  rw [valid_iff_year] at hv
  have hb := monthOf_bounds d
  have hbump : ((((if mc = true then (3 : Int) else 1) - monthOf d % (if mc = true then (3 : Int) else 1)
      ≠ (if mc = true then (3 : Int) else 1) ∨ dayOf d > 21) ∧
      (if mc = true then (3 : Int) else 1) - monthOf d % (if mc = true then (3 : Int) else 1) +
        monthOf d > 12) ↔ (monthOf d = 12 ∧ dayOf d > 21)) := by
    cases mc <;> simp <;> omega
  have hlen : 28 ≤ monthLen (yearOf d) (monthOf d) := by
    unfold monthLen; have := leap_cases (yearOf d); repeat' split
    all_goals omega
  rw [immNextDate]
  simp only [hbump]
  by_cases hdec : monthOf d = 12 ∧ dayOf d > 21
  · simp only [hdec, decide_true, if_true, and_self]
    have hn : fromYmdOpt (yearOf d + 1) 0 1 = none := by
      unfold fromYmdOpt; rw [if_neg (by omega)]
    simp [nthWeekday, hn, unwrap]
  · simp only [hdec, decide_false, Bool.false_eq_true, if_false]
    obtain ⟨r', e, h1, h2, h3, -⟩ := nthWeekday_third hv.1 hv.2 hb.1 hb.2
    have : r' = r := isImmDate_unique h1 hr ⟨by rw [h2, hs.1], by rw [h3, hs.2]⟩
    subst this
    have e22 : fromYmdOpt (yearOf d) (monthOf d) 22 = some (ymd (yearOf d) (monthOf d) 22) := by
      unfold fromYmdOpt; rw [if_pos (by omega)]
    rw [if_neg (by omega), e]
    simp only [e22]
    by_cases hle : r' ≤ d
    · rw [if_pos hle, if_neg (by omega)]
    · rw [if_neg hle, if_pos (by omega)]

theorem immDate_of_month (hv : Valid d) :
    ∃ r, isImmDate r false = true ∧ SameMonth r d ∧ Valid r := by
  have hb := monthOf_bounds d
  have hv' := hv
  rw [valid_iff_year] at hv'
  obtain ⟨r, -, h1, h2, h3, h4⟩ := nthWeekday_third hv'.1 hv'.2 hb.1 hb.2
  exact ⟨r, h1, ⟨h2, h3⟩, h4⟩

/-- After the month's IMM date, `next_date` does not terminate (months 1-11):
the recursion calls itself with the 22nd of the same month forever. -/
theorem C22_diverges_false (hv : Valid d) (hm : monthOf d ≠ 12) (hr : isImmDate r false = true)
    (hs : SameMonth r d) (hle : r ≤ d) (n : Nat) : immNextDate mc n d = none := by
  induction n generalizing d with
  | zero => rfl
  | succ n ih =>
    have hb := monthOf_bounds d
    have hlen : 28 ≤ monthLen (yearOf d) (monthOf d) := by
      unfold monthLen; have := leap_cases (yearOf d); repeat' split
      all_goals omega
    rw [immNextDate_step hv hr hs, if_neg (by omega), if_neg (by omega)]
    have hy : yearOf (ymd (yearOf d) (monthOf d) 22) = yearOf d :=
      yearOf_ymd hb.1 hb.2 (by omega) (by omega)
    have hmm : monthOf (ymd (yearOf d) (monthOf d) 22) = monthOf d :=
      monthOf_ymd hb.1 hb.2 (by omega) (by omega)
    have hdd : dayOf (ymd (yearOf d) (monthOf d) 22) = 22 :=
      dayOf_ymd hb.1 hb.2 (by omega) (by omega)
    have hs' : SameMonth r (ymd (yearOf d) (monthOf d) 22) := ⟨by rw [hy, hs.1], by rw [hmm, hs.2]⟩
    apply ih
    · rw [valid_iff_year] at hv ⊢; rw [hy]; exact hv
    · rw [hmm]; exact hm
    · exact hs'
    · have := sameMonth_dayOf hs'
      rw [isImmDate_iff] at hr
      omega

/-- After the December IMM date, `next_date` panics (month 0). -/
theorem C22_december_panics_false (hv : Valid d) (hm : monthOf d = 12)
    (hr : isImmDate r false = true) (hs : SameMonth r d) (hle : r ≤ d) :
    immNextDate mc 2 d = some .panic := by
  have hb := monthOf_bounds d
  have hlen : 28 ≤ monthLen (yearOf d) (monthOf d) := by
    rw [hm]; simp [monthLen]
  rw [immNextDate_step hv hr hs]
  split
  · rfl
  · rw [if_neg (by omega)]
    have hy : yearOf (ymd (yearOf d) (monthOf d) 22) = yearOf d :=
      yearOf_ymd hb.1 hb.2 (by omega) (by omega)
    have hmm : monthOf (ymd (yearOf d) (monthOf d) 22) = monthOf d :=
      monthOf_ymd hb.1 hb.2 (by omega) (by omega)
    have hdd : dayOf (ymd (yearOf d) (monthOf d) 22) = 22 :=
      dayOf_ymd hb.1 hb.2 (by omega) (by omega)
    rw [immNextDate_step (r := r) (by rw [valid_iff_year] at hv ⊢; rw [hy]; exact hv) hr
      ⟨by rw [hy, hs.1], by rw [hmm, hs.2]⟩]
    rw [if_pos (by rw [hmm, hdd]; omega)]

/-- Exactly when `next_date` returns, and what: the IMM date of the *same* month, and
only if it is still ahead. -/
theorem C22_next_iff (hv : Valid d) :
    (∃ n, immNextDate mc n d = some (.ok r)) ↔
      isImmDate r false = true ∧ SameMonth r d ∧ d < r := by
  obtain ⟨q, hq, hs, hvq⟩ := immDate_of_month hv
  constructor
  · rintro ⟨n, hn⟩
    by_cases hlt : d < q
    · have hd21 : ¬ (monthOf d = 12 ∧ dayOf d > 21) := by
        have := sameMonth_dayOf hs
        rw [isImmDate_iff] at hq
        omega
      cases n with
      | zero => simp [immNextDate] at hn
      | succ n =>
        rw [immNextDate_step hv hq hs, if_neg hd21, if_pos hlt] at hn
        simp only [Option.some.injEq, ok.injEq] at hn
        subst hn
        exact ⟨hq, hs, hlt⟩
    · exfalso
      by_cases hm : monthOf d = 12
      · have hp := C22_december_panics_false (mc := mc) hv hm hq hs (by omega)
        -- more fuel does not change the outcome
        cases n with
        | zero => simp [immNextDate] at hn
        | succ n =>
          cases n with
          | zero =>
            rw [immNextDate_step hv hq hs, if_neg hlt] at hn
            split at hn
            · simp at hn
            · simp [immNextDate] at hn
          | succ n =>
            have hb := monthOf_bounds d
            have hlen : 28 ≤ monthLen (yearOf d) (monthOf d) := by rw [hm]; simp [monthLen]
            rw [immNextDate_step hv hq hs, if_neg hlt] at hn
            split at hn
            · simp at hn
            · have hy : yearOf (ymd (yearOf d) (monthOf d) 22) = yearOf d :=
                yearOf_ymd hb.1 hb.2 (by omega) (by omega)
              have hmm : monthOf (ymd (yearOf d) (monthOf d) 22) = monthOf d :=
                monthOf_ymd hb.1 hb.2 (by omega) (by omega)
              have hdd : dayOf (ymd (yearOf d) (monthOf d) 22) = 22 :=
                dayOf_ymd hb.1 hb.2 (by omega) (by omega)
              rw [immNextDate_step (r := q)
                (by rw [valid_iff_year] at hv ⊢; rw [hy]; exact hv) hq
                ⟨by rw [hy, hs.1], by rw [hmm, hs.2]⟩,
                if_pos (by rw [hmm, hdd]; omega)] at hn
              simp at hn
      · rw [C22_diverges_false hv hm hq hs (by omega)] at hn
        simp at hn
  · rintro ⟨h1, h2, h3⟩
    refine ⟨1, ?_⟩
    have hd21 : ¬ (monthOf d = 12 ∧ dayOf d > 21) := by
      have := sameMonth_dayOf h2
      rw [isImmDate_iff] at h1
      omega
    rw [immNextDate_step hv h1 h2, if_neg hd21, if_pos h3]

/-- The property holds while an IMM date of the requested cycle is still ahead in the
month of `d`.  Missing: all other dates (see the refutations). -/
theorem C22_next_partial (hv : Valid d) (hx : isImmDate x mc = true) (hs : SameMonth x d)
    (hlt : d < x) : immNextDate mc 1 d = some (.ok x) ∧
      IsLeast {z | d < z ∧ isImmDate z mc = true} x := by
  have hx0 : isImmDate x false = true := by
    rw [isImmDate_iff] at hx ⊢; exact ⟨hx.1, hx.2.1, hx.2.2.1, by simp⟩
  constructor
  · have hd21 : ¬ (monthOf d = 12 ∧ dayOf d > 21) := by
      have := sameMonth_dayOf hs
      rw [isImmDate_iff] at hx
      omega
    rw [immNextDate_step hv hx0 hs, if_neg hd21, if_pos hlt]
  · refine ⟨⟨hlt, hx⟩, ?_⟩
    rintro z ⟨hz, hzi⟩
    by_contra hzx
    have hz0 : isImmDate z false = true := by
      rw [isImmDate_iff] at hzi ⊢; exact ⟨hzi.1, hzi.2.1, hzi.2.2.1, by simp⟩
    have hsz : SameMonth z x := by
      have := SameMonth.between (SameMonth.symm hs) (le_of_lt hz) (by omega : z ≤ x)
      exact SameMonth.trans this (SameMonth.symm hs)
    have := isImmDate_unique hz0 hx0 hsz
    omega

/-- Witness: `next_date(20 September 2023)` never returns. -/
theorem C22_witness_diverges_false : ∀ n, immNextDate false n (ymd 2023 9 20) = none :=
  C22_diverges_false (r := ymd 2023 9 20) (by decide +kernel) (by decide +kernel)
    (by decide +kernel) ⟨rfl, rfl⟩ (le_refl _)

/-- Witness: the main-cycle date after 2 October 2023 should be 20 December 2023; the
code returns 18 October, which is not a main-cycle date. -/
theorem C22_main_cycle_false :
    immNextDate true 1 (ymd 2023 10 2) = some (.ok (ymd 2023 10 18)) ∧
    isImmDate (ymd 2023 10 18) true = false ∧ isImmDate (ymd 2023 12 20) true = true := by
  decide +kernel

/-- A case in which the property holds. -/
example : immNextDate true 1 (ymd 2023 9 4) = some (.ok (ymd 2023 9 20)) :=
  (C22_next_partial (x := ymd 2023 9 20) (by decide +kernel) (by decide +kernel)
    ⟨by decide +kernel, by decide +kernel⟩ (by decide +kernel)).1

/-! ## C21 codes -/

/-- The decimal digits. -/
def digits : List Char := ['0', '1', '2', '3', '4', '5', '6', '7', '8', '9']

theorem letter_spec : ∀ L ∈ immLetters, ∃ m : Int, immMonthNum L = .ok m ∧ 1 ≤ m ∧ m ≤ 12 ∧
    ∀ k : Int, 1 ≤ k → k ≤ 12 → (immLetters[(k - 1).toNat]? = some L ↔ k = m) := by
  intro L hL
  simp only [immLetters, List.mem_cons, List.not_mem_nil, or_false] at hL
  have cases12 : ∀ k : Int, 1 ≤ k → k ≤ 12 → k = 1 ∨ k = 2 ∨ k = 3 ∨ k = 4 ∨ k = 5 ∨ k = 6 ∨
      k = 7 ∨ k = 8 ∨ k = 9 ∨ k = 10 ∨ k = 11 ∨ k = 12 := by intro k _ _; omega
  rcases hL with rfl | rfl | rfl | rfl | rfl | rfl | rfl | rfl | rfl | rfl | rfl | rfl
  on_goal 1 => refine ⟨1, by decide +kernel, by omega, by omega, fun k h1 h2 => ?_⟩
  on_goal 2 => refine ⟨2, by decide +kernel, by omega, by omega, fun k h1 h2 => ?_⟩
  on_goal 3 => refine ⟨3, by decide +kernel, by omega, by omega, fun k h1 h2 => ?_⟩
  on_goal 4 => refine ⟨4, by decide +kernel, by omega, by omega, fun k h1 h2 => ?_⟩
  on_goal 5 => refine ⟨5, by decide +kernel, by omega, by omega, fun k h1 h2 => ?_⟩
  on_goal 6 => refine ⟨6, by decide +kernel, by omega, by omega, fun k h1 h2 => ?_⟩
  on_goal 7 => refine ⟨7, by decide +kernel, by omega, by omega, fun k h1 h2 => ?_⟩
  on_goal 8 => refine ⟨8, by decide +kernel, by omega, by omega, fun k h1 h2 => ?_⟩
  on_goal 9 => refine ⟨9, by decide +kernel, by omega, by omega, fun k h1 h2 => ?_⟩
  on_goal 10 => refine ⟨10, by decide +kernel, by omega, by omega, fun k h1 h2 => ?_⟩
  on_goal 11 => refine ⟨11, by decide +kernel, by omega, by omega, fun k h1 h2 => ?_⟩
  on_goal 12 => refine ⟨12, by decide +kernel, by omega, by omega, fun k h1 h2 => ?_⟩
  all_goals
    rcases cases12 k h1 h2 with rfl | rfl | rfl | rfl | rfl | rfl | rfl | rfl | rfl | rfl | rfl | rfl <;>
      decide +kernel

theorem digit_spec : ∀ D ∈ digits, ∃ v : Int, toDigit D = .ok v ∧ 0 ≤ v ∧ v ≤ 9 ∧
    ∀ k : Int, 0 ≤ k → k ≤ 9 → ((toString k).toList = [D] ↔ k = v) := by
  intro D hD
  simp only [digits, List.mem_cons, List.not_mem_nil, or_false] at hD
  have cases10 : ∀ k : Int, 0 ≤ k → k ≤ 9 → k = 0 ∨ k = 1 ∨ k = 2 ∨ k = 3 ∨ k = 4 ∨ k = 5 ∨ k = 6 ∨
      k = 7 ∨ k = 8 ∨ k = 9 := by intro k _ _; omega
  rcases hD with rfl | rfl | rfl | rfl | rfl | rfl | rfl | rfl | rfl | rfl
  on_goal 1 => refine ⟨0, by decide +kernel, by omega, by omega, fun k h1 h2 => ?_⟩
  on_goal 2 => refine ⟨1, by decide +kernel, by omega, by omega, fun k h1 h2 => ?_⟩
  on_goal 3 => refine ⟨2, by decide +kernel, by omega, by omega, fun k h1 h2 => ?_⟩
  on_goal 4 => refine ⟨3, by decide +kernel, by omega, by omega, fun k h1 h2 => ?_⟩
  on_goal 5 => refine ⟨4, by decide +kernel, by omega, by omega, fun k h1 h2 => ?_⟩
  on_goal 6 => refine ⟨5, by decide +kernel, by omega, by omega, fun k h1 h2 => ?_⟩
  on_goal 7 => refine ⟨6, by decide +kernel, by omega, by omega, fun k h1 h2 => ?_⟩
  on_goal 8 => refine ⟨7, by decide +kernel, by omega, by omega, fun k h1 h2 => ?_⟩
  on_goal 9 => refine ⟨8, by decide +kernel, by omega, by omega, fun k h1 h2 => ?_⟩
  on_goal 10 => refine ⟨9, by decide +kernel, by omega, by omega, fun k h1 h2 => ?_⟩
  all_goals
    rcases cases10 k h1 h2 with rfl | rfl | rfl | rfl | rfl | rfl | rfl | rfl | rfl | rfl <;>
      decide +kernel

theorem accepted : ∀ L ∈ immLetters, ∀ D ∈ digits, isImmCode [L, D] false = .ok true := by
  decide +kernel

/-- The delivery month letters of futures exchanges. -/
def deliveryLetters : List (Int × Char) := [(1, 'F'), (2, 'G'), (3, 'H'), (4, 'J'), (5, 'K'), (6, 'M'),
  (7, 'N'), (8, 'Q'), (9, 'U'), (10, 'V'), (11, 'X'), (12, 'Z')]

/-- `code` of a date with a non-negative year, in terms of month and last digit. -/
theorem immCode_iff {L D : Char} (hy : 0 ≤ yearOf x) :
    immCode x = .ok (some [L, D]) ↔ isImmDate x false = true ∧
      immLetters[(monthOf x - 1).toNat]? = some L ∧ (toString (yearOf x % 10)).toList = [D] := by
  have hb := monthOf_bounds x
  have ht : (yearOf x).tmod 10 = yearOf x % 10 := Int.tmod_eq_emod_of_nonneg hy
  unfold immCode
  by_cases h : isImmDate x false = true
  · simp only [h, not_true, if_false, true_and, ht]
    cases immLetters[(monthOf x - 1).toNat]? with
    | none => simp [unwrap]
    | some l => simp [unwrap]
  · simp [h]

/-- For every well-formed upper-case code and every reference date from 1910 on,
`date` returns the earliest date from the reference date on that has this code. -/
theorem C21_date_isLeast {L D : Char} {ref : Int} (hL : L ∈ immLetters) (hD : D ∈ digits)
    (h1910 : 1910 ≤ yearOf ref) (hmax : yearOf ref ≤ 262120) :
    ∃ r, immDate 1 [L, D] ref = some (.ok (some r)) ∧
      IsLeast {z | ref ≤ z ∧ immCode z = .ok (some [L, D])} r := by
  obtain ⟨m, hm, hm1, hm2, hmk⟩ := letter_spec L hL
  obtain ⟨v, hv, hv0, hv9, hvk⟩ := digit_spec D hD
  have hacc := accepted L hL D hD
  have ht : (yearOf ref).tmod 10 = yearOf ref % 10 := Int.tmod_eq_emod_of_nonneg (by omega)
  set y0 : Int := v + (yearOf ref - yearOf ref % 10) with hy0
  -- the candidate of the decade of `ref` and the one ten years later
  have cand : ∀ Y : Int, 1910 ≤ Y → Y ≤ 262142 → ∃ r, immNextDate false 1 (ymd Y m 1) = some (.ok r) ∧
      fromYmdOpt Y m 1 = some (ymd Y m 1) ∧ isImmDate r false = true ∧ yearOf r = Y ∧ monthOf r = m := by
    intro Y hY1 hY2
    have hl := monthLen_pos Y m
    obtain ⟨r, -, h1, h2, h3, -⟩ := nthWeekday_third (y := Y) (by omega) hY2 hm1 hm2
    have e1 : fromYmdOpt Y m 1 = some (ymd Y m 1) := by
      unfold fromYmdOpt; rw [if_pos (by omega)]
    have fy : yearOf (ymd Y m 1) = Y := yearOf_ymd hm1 hm2 (by omega) (by omega)
    have fm : monthOf (ymd Y m 1) = m := monthOf_ymd hm1 hm2 (by omega) (by omega)
    have fd : dayOf (ymd Y m 1) = 1 := dayOf_ymd hm1 hm2 (by omega) (by omega)
    have hs : SameMonth r (ymd Y m 1) := ⟨by omega, by omega⟩
    refine ⟨r, ?_, e1, h1, h2, h3⟩
    have hvd : Valid (ymd Y m 1) := by rw [valid_iff_year, fy]; omega
    rw [immNextDate_step hvd h1 hs, if_neg (by omega), if_pos]
    have := sameMonth_dayOf hs
    rw [isImmDate_iff] at h1
    omega
  obtain ⟨r0, n0, f0, i0, ry0, rm0⟩ := cand y0 (by omega) (by omega)
  obtain ⟨r1, n1, f1, i1, ry1, rm1⟩ := cand (y0 + 10) (by omega) (by omega)
  have code0 : immCode r0 = .ok (some [L, D]) := by
    rw [immCode_iff (by omega)]
    refine ⟨i0, ?_, ?_⟩
    · rw [hmk _ (by omega) (by omega)]; exact rm0
    · rw [hvk _ (by omega) (by omega)]; omega
  have code1 : immCode r1 = .ok (some [L, D]) := by
    rw [immCode_iff (by omega)]
    refine ⟨i1, ?_, ?_⟩
    · rw [hmk _ (by omega) (by omega)]; exact rm1
    · rw [hvk _ (by omega) (by omega)]; omega
  have other : ∀ z, ref ≤ z → immCode z = .ok (some [L, D]) →
      monthOf z = m ∧ yearOf z % 10 = v ∧ isImmDate z false = true ∧ yearOf ref ≤ yearOf z := by
    intro z hz hc
    have hyz := yearOf_mono hz
    rw [immCode_iff (by omega)] at hc
    obtain ⟨c1, c2, c3⟩ := hc
    have hb := monthOf_bounds z
    rw [hmk _ hb.1 hb.2] at c2
    rw [hvk _ (by omega) (by omega)] at c3
    exact ⟨c2, c3, c1, hyz⟩
  have yearle : ∀ z w, yearOf z = yearOf w → monthOf z = monthOf w → isImmDate z false = true →
      isImmDate w false = true → z = w := fun z w h1 h2 h3 h4 => isImmDate_unique h3 h4 ⟨h1, h2⟩
  have lower : ∀ z w, yearOf z < yearOf w → z < w := by
    intro z w h
    by_contra hge
    have := yearOf_mono (show w ≤ z by omega)
    omega
  have hdate : immDate 1 [L, D] ref = if r0 < ref then some (.ok (some r1)) else some (.ok (some r0)) := by
    unfold immDate
    simp only [hacc, nthChar, unwrap, List.getElem?_cons_zero, List.getElem?_cons_succ, ok_bind, hv, hm,
      ht]
    have hno : ¬ (v = 0 ∧ yearOf ref ≤ 1909) := by omega
    simp only [hno, if_false]
    rw [← hy0, f0]
    simp only [ok_bind, n0, f1, n1]
    rfl
  rw [hdate]
  by_cases hlt : r0 < ref
  · rw [if_pos hlt]
    refine ⟨r1, rfl, ⟨?_, code1⟩, ?_⟩
    · have := lower ref r1 (by omega)
      omega
    · rintro z ⟨hz, hc⟩
      obtain ⟨z1, z2, z3, z4⟩ := other z hz hc
      by_cases hyz : yearOf z = y0 + 10
      · exact le_of_eq (yearle r1 z (by omega) (by omega) i1 z3)
      · by_cases hyz0 : yearOf z = y0
        · have := yearle r0 z (by omega) (by omega) i0 z3
          omega
        · exact le_of_lt (lower r1 z (by omega))
  · rw [if_neg hlt]
    refine ⟨r0, rfl, ⟨by simpa using hlt, code0⟩, ?_⟩
    rintro z ⟨hz, hc⟩
    obtain ⟨z1, z2, z3, z4⟩ := other z hz hc
    by_cases hyz0 : yearOf z = y0
    · exact le_of_eq (yearle r0 z (by omega) (by omega) i0 z3)
    · exact le_of_lt (lower r0 z (by omega))

/-- Round trip: the code of an IMM date leads back to it from every reference date
not after it and in one of the ten calendar years up to it. -/
theorem C21_round_trip {ref : Int} (hd : isImmDate d false = true) (h1910 : 1910 ≤ yearOf ref)
    (hmax : yearOf ref ≤ 262120) (hle : ref ≤ d) (h10 : yearOf d < yearOf ref + 10) :
    ∃ s, immCode d = .ok (some s) ∧ immDate 1 s ref = some (.ok (some d)) := by
  have hb := monthOf_bounds d
  have hyd := yearOf_mono hle
  have hlt : (monthOf d - 1).toNat < immLetters.length := by simp [immLetters]; omega
  have hL : immLetters[(monthOf d - 1).toNat]? = some immLetters[(monthOf d - 1).toNat] :=
    List.getElem?_eq_getElem hlt
  have hLm : immLetters[(monthOf d - 1).toNat] ∈ immLetters := List.getElem_mem hlt
  have hDg : ∀ k : Int, 0 ≤ k → k ≤ 9 → ∃ D ∈ digits, (toString k).toList = [D] := by
    intro k h0 h9
    have : k = 0 ∨ k = 1 ∨ k = 2 ∨ k = 3 ∨ k = 4 ∨ k = 5 ∨ k = 6 ∨ k = 7 ∨ k = 8 ∨ k = 9 := by omega
    rcases this with rfl | rfl | rfl | rfl | rfl | rfl | rfl | rfl | rfl | rfl <;> decide +kernel
  obtain ⟨D, hD, hDe⟩ := hDg (yearOf d % 10) (by omega) (by omega)
  have hcode : immCode d = .ok (some [immLetters[(monthOf d - 1).toNat], D]) := by
    rw [immCode_iff (by omega)]; exact ⟨hd, hL, hDe⟩
  refine ⟨_, hcode, ?_⟩
  obtain ⟨r, hr, ⟨hr1, hr2⟩, hleast⟩ := C21_date_isLeast hLm hD h1910 hmax
  have hrd : r ≤ d := hleast ⟨hle, hcode⟩
  have hyr := yearOf_mono hr1
  have hyrd := yearOf_mono hrd
  rw [immCode_iff (by omega)] at hr2
  obtain ⟨c1, c2, c3⟩ := hr2
  have hbr := monthOf_bounds r
  obtain ⟨m, -, -, -, hmk⟩ := letter_spec _ hLm
  obtain ⟨v, -, -, -, hvk⟩ := digit_spec _ hD
  rw [hmk _ hbr.1 hbr.2] at c2
  rw [hvk _ (by omega) (by omega)] at c3
  rw [hmk _ hb.1 hb.2] at hL
  rw [hvk _ (by omega) (by omega)] at hDe
  have : r = d := isImmDate_unique c1 hd ⟨by omega, by omega⟩
  rw [hr, this]

/-- The code of an IMM date is the delivery letter of its month and the last digit of its year. -/
theorem C21_letter (hd : isImmDate d false = true) (hy : 0 ≤ yearOf d) :
    ∃ L D, (monthOf d, L) ∈ deliveryLetters ∧ (toString (yearOf d % 10)).toList = [D] ∧
      immCode d = .ok (some [L, D]) := by
  have hb := monthOf_bounds d
  have k10 : ∀ k : Fin 10, ∃ D ∈ digits, (toString (((k : Nat) : Int))).toList = [D] := by decide +kernel
  have k12 : ∀ k : Fin 12, ∃ L ∈ immLetters, (((k : Nat) : Int) + 1, L) ∈ deliveryLetters ∧
      immLetters[(((k : Nat) : Int) + 1 - 1).toNat]? = some L := by decide +kernel
  obtain ⟨D, -, hD⟩ := k10 ⟨(yearOf d % 10).toNat, by omega⟩
  obtain ⟨L, -, hL1, hL2⟩ := k12 ⟨(monthOf d - 1).toNat, by omega⟩
  have e1 : (((yearOf d % 10).toNat : Nat) : Int) = yearOf d % 10 := by omega
  have e2 : (((monthOf d - 1).toNat : Nat) : Int) + 1 = monthOf d := by omega
  simp only [e1] at hD
  simp only [e2] at hL1 hL2
  exact ⟨L, D, hL1, hD, (immCode_iff hy).2 ⟨hd, hL2, hD⟩⟩

example : immCode (ymd 2023 9 20) = .ok (some ['U', '3']) := by decide +kernel

/-- Strings that are not accepted give `None`. -/
theorem C21_rejected {s : List Char} {ref : Int} (n : Nat) (h : isImmCode s false = .ok false) :
    immDate n s ref = some (.ok none) := by
  unfold immDate; rw [h]

/-- Round trip of the September 2025 code from October 2023. -/
example : ∃ s, immCode (ymd 2025 9 17) = .ok (some s) ∧
    immDate 1 s (ymd 2023 10 29) = some (.ok (some (ymd 2025 9 17))) :=
  C21_round_trip (by decide +kernel) (by decide +kernel) (by decide +kernel) (by decide +kernel)
    (by decide +kernel)

/-- The "ten years" of the round trip are calendar years: a date less than ten years
after the reference date, but in the tenth calendar year, can be taken for its
predecessor with the same code. -/
theorem C21_ten_year_corner_false :
    immCode (ymd 2036 1 16) = .ok (some ['F', '6']) ∧
    immDate 1 ['F', '6'] (ymd 2026 1 20) = some (.ok (some (ymd 2026 1 21))) := by
  decide +kernel

/-- Lower-case codes are accepted by `is_imm_code`, but `date` panics on them. -/
theorem C21_lowercase_false :
    isImmCode ['h', '4'] true = .ok true ∧ immDate 1 ['h', '4'] (ymd 2023 10 29) = some .panic := by
  decide +kernel

/-- A single two-byte character makes `is_imm_code` panic. -/
theorem C21_two_byte_false : isImmCode ['é'] false = .panic := by
  decide +kernel

/-! ## C23 names -/

/-- The frequencies with a code of their own parse back from their names; two do not
occur as codes, one (`Once`) parses to a different frequency. -/
theorem C23_frequency_partial (f : Frequency) (h1 : f ≠ .noFrequency) (h2 : f ≠ .once)
    (h3 : f ≠ .other) : Frequency.fromCode f.name = some f := by
  cases f <;> first | (exact absurd rfl h1) | (exact absurd rfl h2) | (exact absurd rfl h3) | decide

/-- Refutation: the name of `Once` parses as `NoFrequency`, whose period is overnight
instead of none. -/
theorem C23_once_false :
    Frequency.fromCode Frequency.once.name = some .noFrequency ∧
    Frequency.period .once = none ∧ Frequency.period .noFrequency = some .on := by
  decide

/-- `from_code` never produces `Once` or `OtherFrequency`, for any string. -/
theorem C23_unreachable (s : String) :
    Frequency.fromCode s ≠ some .once ∧ Frequency.fromCode s ≠ some .other := by
  unfold Frequency.fromCode
  constructor <;> repeat' split
  all_goals simp

/-- Apart from `Once`, every code that parses gives a frequency whose name, with the
dashes removed, is the code with the dashes removed. -/
theorem C23_code_is_name (s : String) (f : Frequency) (h : Frequency.fromCode s = some f)
    (hs : s ≠ "Once") :
    s.toList.filter (· ≠ '-') = f.name.toList.filter (· ≠ '-') := by
  unfold Frequency.fromCode at h
  repeat' split at h
  all_goals first
    | (exfalso; contradiction)
    | (rename_i hh; simp only [Option.some.injEq] at h; subst h; subst hh; decide)
    | (rename_i hh; simp only [Option.some.injEq] at h; subst h; rcases hh with rfl | rfl <;> decide)
    | simp at h

/-- Every business-day convention parses back from its name. -/
theorem C23_bdc_round_trip (b : Bdc) : Bdc.fromCode b.name = some b := by
  cases b <;> decide

/-- Every string that parses is the convention's name up to blanks and dashes. -/
theorem C23_bdc_code_is_name (s : String) (b : Bdc) (h : Bdc.fromCode s = some b) :
    s.toList.filter (fun c => c ≠ ' ' && c ≠ '-') = b.name.toList.filter (fun c => c ≠ ' ' && c ≠ '-') := by
  unfold Bdc.fromCode at h
  repeat' split at h
  all_goals first
    | (rename_i hh; simp only [Option.some.injEq] at h; subst h; rcases hh with rfl | rfl <;> decide)
    | (rename_i hh; simp only [Option.some.injEq] at h; subst h; subst hh; decide)
    | simp at h

/-- The periods of the regular frequencies divide the year as their number says:
`k` payments per year for the month-based ones. -/
theorem C23_period_months (f : Frequency) (n : Nat) (h : f.period = some (.months n)) :
    f.toInt * n = 12 := by
  cases f <;> simp_all [Frequency.period, Frequency.toInt] <;> omega

example : Frequency.fromCode Frequency.everyFourthMonth.name = some .everyFourthMonth :=
  C23_frequency_partial _ (by decide) (by decide) (by decide)

end Verif
