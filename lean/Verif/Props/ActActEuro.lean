import Verif.Props.DayCount

/-! # C59: Actual/Actual (Euro) -/

namespace Verif
open Outcome

variable {d d1 d2 : Int} {n : Nat}

/-- The anniversary `n` years before `d`: same day and month, but 28 and 29 February belong to the end
of February. -/
def yearsBefore (d : Int) (n : Nat) : Int :=
  if n = 0 then d
  else if monthOf d = 2 ∧ 28 ≤ dayOf d then ymd (yearOf d - n) 3 1 - 1
  else ymd (yearOf d - n) (monthOf d) (dayOf d)

/-- `v` is the Actual/Actual (Euro, AFB) fraction from `d1` to `d2`: the whole years counted back from
`d2`, plus the days left over 366 or 365 according to whether they contain a leap day. -/
def IsEuroFraction (d1 d2 : Int) (v : ℚ) : Prop :=
  ∃ n : Nat, d1 ≤ yearsBefore d2 n ∧ yearsBefore d2 (n + 1) < d1 ∧
    v = n + ((Finset.Ico d1 (yearsBefore d2 n)).card : ℚ) /
      (365 + ((Finset.Ico d1 (yearsBefore d2 n)).filter IsLeapDay).card)

/-! ## Anniversaries -/

theorem yearsBefore_facts (d : Int) (n : Nat) :
    yearOf (yearsBefore d n) = yearOf d - n ∧ monthOf (yearsBefore d n) = monthOf d ∧
    dayOf (yearsBefore d n) =
      if n = 0 then dayOf d else if monthOf d = 2 ∧ 28 ≤ dayOf d then 28 + leap (yearOf d - n) else dayOf d := by
  unfold yearsBefore
  have hm := monthOf_bounds d
  have hd := dayOf_bounds d
  by_cases h0 : n = 0
  · subst h0; simp
  simp only [h0, if_false]
  by_cases h : monthOf d = 2 ∧ 28 ≤ dayOf d
  · have hl := leap_cases (yearOf d - n)
    have e : ymd (yearOf d - n) 3 1 - 1 = ymd (yearOf d - n) 2 (28 + leap (yearOf d - n)) := by
      unfold ymd monthStart; norm_num; omega
    have hlen : monthLen (yearOf d - n) 2 = 28 + leap (yearOf d - n) := by simp [monthLen]
    have a1 : 1 ≤ 28 + leap (yearOf d - n) := by omega
    have a2 : 28 + leap (yearOf d - n) ≤ monthLen (yearOf d - n) 2 := by omega
    simp only [h, and_self, if_true]
    rw [e, yearOf_ymd (by omega) (by omega) a1 a2, monthOf_ymd (by omega) (by omega) a1 a2,
      dayOf_ymd (by omega) (by omega) a1 a2]
    simp
  · have a2 : dayOf d ≤ monthLen (yearOf d - n) (monthOf d) := by
      have := leap_cases (yearOf d - n)
      have := leap_cases (yearOf d)
      unfold monthLen at hd ⊢
      split_ifs at hd ⊢ <;> omega
    simp only [h, if_false]
    rw [yearOf_ymd hm.1 hm.2 hd.1 a2, monthOf_ymd hm.1 hm.2 hd.1 a2, dayOf_ymd hm.1 hm.2 hd.1 a2]
    simp

theorem lt_of_yearOf_lt {a b : Int} (h : yearOf a < yearOf b) : a < b := by
  by_contra hc
  have := yearOf_mono (show b ≤ a by omega)
  omega

theorem yearsBefore_lt (d : Int) {m n : Nat} (h : m < n) : yearsBefore d n < yearsBefore d m := by
  apply lt_of_yearOf_lt
  rw [(yearsBefore_facts d n).1, (yearsBefore_facts d m).1]
  omega

theorem yearsBefore_zero (d : Int) : yearsBefore d 0 = d := by simp [yearsBefore]

/-- The number of whole years is unique. -/
theorem whole_years_unique {m : Nat} (h1 : d1 ≤ yearsBefore d2 n) (h2 : yearsBefore d2 (n + 1) < d1)
    (h3 : d1 ≤ yearsBefore d2 m) (h4 : yearsBefore d2 (m + 1) < d1) : n = m := by
  rcases Nat.lt_trichotomy n m with h | h | h
  · rcases Nat.lt_or_ge (n + 1) m with h' | h'
    · have := yearsBefore_lt d2 h'; omega
    · have : m = n + 1 := by omega
      subst this; omega
  · exact h
  · rcases Nat.lt_or_ge (m + 1) n with h' | h'
    · have := yearsBefore_lt d2 h'; omega
    · have : n = m + 1 := by omega
      subst this; omega

theorem leap_step (y : Int) (h : leap y = 1) : leap (y - 1) = 0 := by
  unfold leap at *
  split_ifs at h ⊢ <;> omega

theorem euroYearBack_eq (hv : Valid d) (hy : -262143 ≤ yearOf d - n - 1) :
    euroYearBack (yearsBefore d n) = .ok (yearsBefore d (n + 1)) := by
  obtain ⟨y0, m0, k0⟩ := yearsBefore_facts d n
  obtain ⟨y1, m1, k1⟩ := yearsBefore_facts d (n + 1)
  have hvy := (valid_iff_year d).1 hv
  have hm := monthOf_bounds d
  have hd := dayOf_bounds d
  obtain ⟨t, ht⟩ := MonthsLater.exists (yearsBefore d n) (-12)
  have htm := monthOf_bounds t
  have hty : yearOf t = yearOf d - n - 1 := by have := ht.month; omega
  have htmo : monthOf t = monthOf d := by have := ht.month; omega
  have hvt : Valid t := (valid_iff_year t).2 (by omega)
  have hday := ht.day
  rw [hty, htmo, k0] at hday
  unfold euroYearBack
  rw [addMonths_ok.2 ⟨ht, hvt⟩, ok_bind]
  have hl := leap_cases (yearOf d - n - 1)
  have hl0 := leap_cases (yearOf d)
  have hl1 := leap_cases (yearOf d - n)
  have hls := leap_step (yearOf d - n)
  have e1 : yearOf d - ((n + 1 : Nat) : Int) = yearOf d - n - 1 := by push_cast; ring
  rw [e1] at y1 k1
  simp only [Nat.add_eq_zero_iff, one_ne_zero, and_false, if_false] at k1
  have hn0 : n = 0 → yearOf d - n = yearOf d := by rintro rfl; simp
  have hfeb : monthLen (yearOf d - n - 1) 2 = 28 + leap (yearOf d - n - 1) := by simp [monthLen]
  have hfeb0 : monthLen (yearOf d) 2 = 28 + leap (yearOf d) := by simp [monthLen]
  rw [hty, htmo]
  by_cases hf : monthOf d = 2 ∧ 28 ≤ dayOf d
  · rw [hf.1, hfeb] at hday
    rw [hf.1, hfeb0] at hd
    rw [if_pos hf] at k1
    simp only [hf, and_self, if_true] at hday
    have hn : n = 0 ∨ n ≠ 0 := by omega
    by_cases hlp : leap (yearOf d - n - 1) = 1
    · have h28 : dayOf t = 28 := by
        rcases hn with h | h
        · have := hn0 h
          simp only [h, if_true] at hday
          have h2 : leap (yearOf d) = 0 := by
            have h3 : yearOf d - (n : Int) - 1 = yearOf d - 1 := by omega
            rw [h3] at hlp
            rcases hl0 with h0 | h0
            · exact h0
            · have := leap_step _ h0; omega
          have h3 : yearOf d - ((0 : Nat) : Int) - 1 = yearOf d - n - 1 := by simp [h]
          rw [h3, hlp] at hday
          omega
        · simp only [h, if_false] at hday
          have : leap (yearOf d - n) = 0 := by
            rcases hl1 with h0 | h0
            · exact h0
            · have := hls h0; omega
          omega
      rw [if_pos ⟨h28, hf.1, hlp⟩]
      have hg : t + 1 = yearsBefore d (n + 1) := by
        have a := ymd_yearOf t
        have b := ymd_yearOf (yearsBefore d (n + 1))
        rw [hty, htmo, h28] at a
        rw [y1, m1, k1, hlp] at b
        rw [← a, ← b]; unfold ymd; ring
      unfold addDays
      rw [hg, if_pos]
      exact (valid_iff_year _).2 (by rw [y1]; omega)
    · have hl00 : leap (yearOf d - n - 1) = 0 := by omega
      rw [if_neg (fun h => hlp h.2.2)]
      congr 1
      have h28 : dayOf t = 28 := by
        rcases hn with h | h
        · simp only [h, if_true] at hday
          have h3 : yearOf d - ((0 : Nat) : Int) - 1 = yearOf d - n - 1 := by simp [h]
          rw [h3] at hday
          omega
        · simp only [h, if_false] at hday
          omega
      have a := ymd_yearOf t
      have b := ymd_yearOf (yearsBefore d (n + 1))
      rw [hty, htmo, h28] at a
      rw [y1, m1, k1, hl00] at b
      rw [← a, ← b]; norm_num
  · rw [if_neg hf] at k1
    simp only [hf, if_false, ite_self] at hday
    have a2 : dayOf d ≤ monthLen (yearOf d - n - 1) (monthOf d) := by
      unfold monthLen at hd ⊢
      split_ifs at hd ⊢ <;> omega
    rw [min_eq_left a2] at hday
    rw [if_neg (fun h => hf ⟨h.2.1, by omega⟩)]
    congr 1
    rw [← ymd_yearOf t, ← ymd_yearOf (yearsBefore d (n + 1)), hty, htmo, hday, y1, m1, k1]

theorem euroLoop_eq (hv : Valid d2) (hy : -262143 < yearOf d1) :
    ∀ (fuel n : Nat), d1 < yearsBefore d2 n → yearsBefore d2 n - d1 ≤ fuel →
      ∃ m : Nat, d1 ≤ yearsBefore d2 m ∧ yearsBefore d2 (m + 1) < d1 ∧
        euroLoop d1 fuel n (yearsBefore d2 n) = .ok ((m : Int), yearsBefore d2 m)
  | 0, n, h, hf => by simp at hf; omega
  | fuel + 1, n, h, hf => by
    have hyy := yearOf_mono (le_of_lt h)
    rw [(yearsBefore_facts d2 n).1] at hyy
    have hlt := yearsBefore_lt d2 (show n < n + 1 by omega)
    rw [euroLoop, euroYearBack_eq hv (by omega), ok_bind]
    by_cases h1 : yearsBefore d2 (n + 1) ≥ d1
    · rw [if_pos h1]
      by_cases h2 : yearsBefore d2 (n + 1) > d1
      · rw [if_pos h2]
        have hc : ((fuel + 1 : Nat) : Int) = fuel + 1 := by push_cast; rfl
        obtain ⟨m, a, b, c⟩ := euroLoop_eq hv hy fuel (n + 1) h2 (by omega)
        refine ⟨m, a, b, ?_⟩
        rw [← c]; push_cast; rfl
      · rw [if_neg h2]
        have := yearsBefore_lt d2 (show n + 1 < n + 1 + 1 by omega)
        exact ⟨n + 1, h1, by omega, by push_cast; rfl⟩
    · rw [if_neg h1]
      exact ⟨n, le_of_lt h, by omega, rfl⟩

/-! ## Leap days in the remainder -/

theorem leapDay_eq {x : Int} (h : IsLeapDay x) : x = ymd (yearOf x) 2 29 ∧ leap (yearOf x) = 1 := by
  have hd := dayOf_bounds x
  have hl := leap_cases (yearOf x)
  have hx := ymd_yearOf x
  unfold IsLeapDay at h
  rw [h.1, h.2] at hx hd
  have hfeb : monthLen (yearOf x) 2 = 28 + leap (yearOf x) := by simp [monthLen]
  exact ⟨hx.symm, by omega⟩

theorem isLeapDay_ymd {y : Int} (h : leap y = 1) : IsLeapDay (ymd y 2 29) := by
  have hfeb : monthLen y 2 = 29 := by simp [monthLen, h]
  exact ⟨monthOf_ymd (by omega) (by omega) (by omega) (by omega),
    dayOf_ymd (by omega) (by omega) (by omega) (by omega)⟩

theorem leapCount_one {a b y : Int} (hy : leap y = 1)
    (h : ∀ x, a ≤ x → x < b → IsLeapDay x → yearOf x = y) :
    ((Finset.Ico a b).filter IsLeapDay).card = if b > ymd y 2 29 ∧ a ≤ ymd y 2 29 then 1 else 0 := by
  split
  · rename_i hc
    rw [Finset.card_eq_one]
    refine ⟨ymd y 2 29, ?_⟩
    ext x
    simp only [Finset.mem_filter, Finset.mem_Ico, Finset.mem_singleton]
    constructor
    · rintro ⟨⟨h1, h2⟩, h3⟩
      have := (leapDay_eq h3).1
      rw [h x h1 h2 h3] at this
      exact this
    · rintro rfl
      exact ⟨⟨hc.2, hc.1⟩, isLeapDay_ymd hy⟩
  · rename_i hc
    rw [Finset.card_eq_zero, Finset.filter_eq_empty_iff]
    intro x hx h3
    rw [Finset.mem_Ico] at hx
    have := (leapDay_eq h3).1
    rw [h x hx.1 hx.2 h3] at this
    exact hc ⟨by omega, by omega⟩

/-! ## The property -/

/-- From `d1` to a later or equal `d2` the code counts the whole years and finds the right denominator,
but subtracts the days left over instead of adding them.  Missing relative to the property: the sign
of the remainder. -/
theorem C59_value_partial (hv : Valid d2) (hy : -262143 < yearOf d1) (h : d1 ≤ d2) :
    ∃ n : Nat, d1 ≤ yearsBefore d2 n ∧ yearsBefore d2 (n + 1) < d1 ∧
      euroYf d1 d2 = .ok (n - ((Finset.Ico d1 (yearsBefore d2 n)).card : ℚ) /
        (365 + ((Finset.Ico d1 (yearsBefore d2 n)).filter IsLeapDay).card)) := by
  rcases eq_or_lt_of_le h with rfl | hlt
  · refine ⟨0, by rw [yearsBefore_zero], ?_, by simp [euroYf, yearsBefore_zero]⟩
    have := yearsBefore_lt d1 (show 0 < 0 + 1 by omega)
    rwa [yearsBefore_zero] at this
  have h0 := yearsBefore_zero d2
  obtain ⟨n, a, b, c⟩ := euroLoop_eq (n := 0) hv hy (d2 - d1).toNat (by rw [h0]; exact hlt) (by rw [h0]; omega)
  rw [h0] at c
  refine ⟨n, a, b, ?_⟩
  unfold euroYf
  rw [if_neg (by omega), if_pos hlt]
  simp only [Nat.cast_zero] at c
  rw [c, ok_bind]
  set e := yearsBefore d2 n with he
  have hyb := yearOf_mono (le_of_lt b)
  have hye : yearOf (yearsBefore d2 (n + 1)) = yearOf e - 1 := by
    rw [(yearsBefore_facts d2 (n + 1)).1, he, (yearsBefore_facts d2 n).1]; push_cast; ring
  rw [hye] at hyb
  have hya := yearOf_mono a
  have hcard : ((Finset.Ico d1 e).card : ℚ) = ((e - d1 : Int) : ℚ) := by
    rw [Int.card_Ico]
    exact_mod_cast (show (((e - d1).toNat : Nat) : Int) = e - d1 by omega)
  have hbetween : ∀ x, d1 ≤ x → x < e → IsLeapDay x →
      (yearOf x = yearOf e ∨ yearOf x = yearOf e - 1) ∧ leap (yearOf x) = 1 ∧ yearOf d1 ≤ yearOf x := by
    intro x h1 h2 h3
    have i1 := yearOf_mono h1
    have i2 := yearOf_mono (le_of_lt h2)
    exact ⟨by omega, (leapDay_eq h3).2, i1⟩
  simp only [ok.injEq]
  rw [hcard]
  have hden : (match (if leap (yearOf e) = 1 then some (yearOf e)
        else if leap (yearOf d1) = 1 then some (yearOf d1) else none) with
      | some y => if e > ymd y 2 29 ∧ d1 ≤ ymd y 2 29 then (366 : ℚ) else 365
      | none => 365) = 365 + (((Finset.Ico d1 e).filter IsLeapDay).card : ℚ) := by
    by_cases l1 : leap (yearOf e) = 1
    · rw [if_pos l1]
      rw [leapCount_one l1 (fun x h1 h2 h3 => by
        obtain ⟨i, j, -⟩ := hbetween x h1 h2 h3
        rcases i with i | i
        · exact i
        · have := leap_step _ l1; rw [i] at j; omega)]
      simp only
      split <;> norm_num
    · rw [if_neg l1]
      by_cases l2 : leap (yearOf d1) = 1
      · rw [if_pos l2]
        rw [leapCount_one l2 (fun x h1 h2 h3 => by
          obtain ⟨i, j, k⟩ := hbetween x h1 h2 h3
          rcases i with i | i
          · rw [i] at j; exact absurd j l1
          · have : yearOf d1 ≠ yearOf e := by intro h; rw [h] at l2; exact l1 l2
            omega)]
        simp only
        split <;> norm_num
      · rw [if_neg l2]
        have : (Finset.Ico d1 e).filter IsLeapDay = ∅ := by
          rw [Finset.filter_eq_empty_iff]
          intro x hx h3
          rw [Finset.mem_Ico] at hx
          obtain ⟨i, j, k⟩ := hbetween x hx.1 hx.2 h3
          rcases i with i | i
          · rw [i] at j; exact l1 j
          · have : yearOf d1 = yearOf x := by
              rcases eq_or_lt_of_le k with h | h
              · exact h
              · have h5 : yearOf d1 ≥ yearOf e - 1 := hyb
                omega
            rw [this] at l2; exact l2 j
        rw [this]; simp
  refine Eq.trans (congrArg (fun q : ℚ => (((n : Nat) : Int) : ℚ) + ((d1 - e : Int) : ℚ) / q) hden) ?_
  push_cast
  ring

/-- The specification determines the fraction: two values that satisfy it are equal. -/
theorem C59_spec_unique {v w : ℚ} (h1 : IsEuroFraction d1 d2 v) (h2 : IsEuroFraction d1 d2 w) : v = w := by
  obtain ⟨n, a, b, rfl⟩ := h1
  obtain ⟨m, c, e, rfl⟩ := h2
  rw [whole_years_unique a b c e]

/-- The result is the Euro fraction exactly when the period is a whole number of years. -/
theorem C59_correct_iff (hv : Valid d2) (hy : -262143 < yearOf d1) (h : d1 ≤ d2) :
    (∃ v, euroYf d1 d2 = .ok v ∧ IsEuroFraction d1 d2 v) ↔ ∃ n, d1 = yearsBefore d2 n := by
  obtain ⟨n, a, b, e⟩ := C59_value_partial hv hy h
  rw [e]
  have hpos : (0 : ℚ) < 365 + ((Finset.Ico d1 (yearsBefore d2 n)).filter IsLeapDay).card := by positivity
  constructor
  · rintro ⟨v, hv', hs⟩
    refine ⟨n, ?_⟩
    obtain ⟨m, c, g, hm⟩ := hs
    obtain rfl := whole_years_unique a b c g
    have hq := ok.inj hv'
    rw [hm] at hq
    have hz : ((Finset.Ico d1 (yearsBefore d2 n)).card : ℚ) /
        (365 + ((Finset.Ico d1 (yearsBefore d2 n)).filter IsLeapDay).card) = 0 := by linarith
    rw [div_eq_zero_iff] at hz
    rcases hz with hz | hz
    · have hz' : (Finset.Ico d1 (yearsBefore d2 n)).card = 0 := by exact_mod_cast hz
      rw [Int.card_Ico] at hz'
      omega
    · exact absurd hz hpos.ne'
  · rintro ⟨m, hm⟩
    have hnm : n = m := by
      have hlt := yearsBefore_lt d2 (show m < m + 1 by omega)
      exact whole_years_unique a b (le_of_eq hm) (by omega)
    subst hnm
    refine ⟨_, rfl, n, a, b, ?_⟩
    rw [← hm]; simp

example : euroYf (ymd 2020 2 29) (ymd 2023 2 28) = .ok 3 ∧ ymd 2020 2 29 = yearsBefore (ymd 2023 2 28) 3 := by
  decide +kernel

/-- Half of 2023 counts minus 182/365 years. -/
theorem C59_half_year_false : euroYf (ymd 2023 1 1) (ymd 2023 7 2) = .ok (-182 / 365) ∧
    IsEuroFraction (ymd 2023 1 1) (ymd 2023 7 2) (182 / 365) := by
  refine ⟨by decide +kernel, 0, by decide +kernel, by decide +kernel, ?_⟩
  have e1 : (Finset.Ico (ymd 2023 1 1) (yearsBefore (ymd 2023 7 2) 0)).card = 182 := by decide +kernel
  have e2 : ((Finset.Ico (ymd 2023 1 1) (yearsBefore (ymd 2023 7 2) 0)).filter IsLeapDay).card = 0 := by
    decide +kernel
  rw [e1, e2]; norm_num

/-- With the dates reversed the result is the positive number of days over 365. -/
theorem C59_reversed_false (h : d2 < d1) : euroYf d1 d2 = .ok (((d1 - d2 : Int) : ℚ) / 365) := by
  unfold euroYf
  rw [if_neg (by omega), if_neg (by omega), ok_bind]
  simp only [ok.injEq, Int.cast_zero, zero_add]
  congr 1
  split
  · rename_i y _
    rw [if_neg]
    omega
  · rfl

example : euroYf (ymd 2024 7 1) (ymd 2024 1 1) = .ok (182 / 365) := by decide +kernel

end Verif
