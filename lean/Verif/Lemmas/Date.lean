import Verif.Model.Date
import Mathlib.Tactic.Linarith

/-! # The day-number decoding is a bijection with calendar triples -/

namespace Verif

theorem leap_cases (y : Int) : leap y = 0 ∨ leap y = 1 := by
  unfold leap; split <;> simp

theorem yearStart_succ (y : Int) : yearStart (y + 1) = yearStart y + 365 + leap y := by
  unfold yearStart leap
  split <;> omega

theorem yearStart_add_nat (y : Int) (k : Nat) :
    yearStart y + 365 * k ≤ yearStart (y + k) := by
  induction k with
  | zero => simp
  | succ k ih =>
    have h := yearStart_succ (y + k)
    have := leap_cases (y + k)
    push_cast
    rw [← add_assoc, h]
    omega

theorem yearStart_lt {y z : Int} (h : y < z) : yearStart y + 365 ≤ yearStart z := by
  have := yearStart_add_nat y (z - y).toNat
  have e : y + ((z - y).toNat : Int) = z := by omega
  rw [e] at this
  have : (1 : Int) ≤ ((z - y).toNat : Int) := by omega
  omega

theorem yearStart_mono {y z : Int} (h : y ≤ z) : yearStart y ≤ yearStart z := by
  rcases eq_or_lt_of_le h with h | h
  · rw [h]
  · have := yearStart_lt h; omega

theorem yearOf_spec (n : Int) : yearStart (yearOf n) < n ∧ n ≤ yearStart (yearOf n + 1) := by
  unfold yearOf
  simp only
  split
  · rename_i h
    refine ⟨?_, h⟩
    unfold yearStart
    omega
  · rename_i h
    refine ⟨by omega, ?_⟩
    unfold yearStart
    omega

theorem yearOf_unique {n y : Int} (h1 : yearStart y < n) (h2 : n ≤ yearStart (y + 1)) :
    yearOf n = y := by
  obtain ⟨a, b⟩ := yearOf_spec n
  rcases lt_trichotomy (yearOf n) y with h | h | h
  · have := yearStart_mono (show yearOf n + 1 ≤ y by omega); omega
  · exact h
  · have := yearStart_mono (show y + 1 ≤ yearOf n by omega); omega

theorem ordinal_bounds (n : Int) : 1 ≤ ordinal n ∧ ordinal n ≤ 365 + leap (yearOf n) := by
  obtain ⟨a, b⟩ := yearOf_spec n
  rw [yearStart_succ] at b
  unfold ordinal
  omega

theorem monthOf_bounds (n : Int) : 1 ≤ monthOf n ∧ monthOf n ≤ 12 := by
  unfold monthOf monthOfOrd
  omega

theorem monthLen_pos (y m : Int) : 28 ≤ monthLen y m ∧ monthLen y m ≤ 31 := by
  have := leap_cases y
  unfold monthLen
  split_ifs <;> omega

theorem monthStart_succ (y m : Int) (h1 : 1 ≤ m) (h2 : m ≤ 12) :
    monthStart (leap y) (m + 1) = monthStart (leap y) m + monthLen y m := by
  have : m = 1 ∨ m = 2 ∨ m = 3 ∨ m = 4 ∨ m = 5 ∨ m = 6 ∨ m = 7 ∨ m = 8 ∨ m = 9 ∨ m = 10
    ∨ m = 11 ∨ m = 12 := by omega
  rcases this with h | h | h | h | h | h | h | h | h | h | h | h <;> subst h <;>
    simp [monthStart, monthLen] <;> omega

theorem monthOfOrd_spec (y o : Int) (h1 : 1 ≤ o) (h2 : o ≤ 365 + leap y) :
    monthStart (leap y) (monthOfOrd (leap y) o) < o ∧
      o ≤ monthStart (leap y) (monthOfOrd (leap y) o + 1) := by
  have := leap_cases y
  unfold monthOfOrd
  repeat' split
  all_goals (simp [monthStart]; omega)

theorem monthStart_mono (L : Int) (hL : L = 0 ∨ L = 1) {m k : Int} (h1 : 1 ≤ m) (h : m ≤ k)
    (hk : k ≤ 13) : monthStart L m ≤ monthStart L k := by
  have step : ∀ j : Nat, m + j ≤ 13 → monthStart L m ≤ monthStart L (m + j) := by
    intro j
    induction j with
    | zero => intro _; simp
    | succ j ih =>
      intro hj
      push_cast at hj ⊢
      have e := ih (by omega)
      have : monthStart L (m + j) ≤ monthStart L (m + j + 1) := by
        have : m + j = 1 ∨ m + j = 2 ∨ m + j = 3 ∨ m + j = 4 ∨ m + j = 5 ∨ m + j = 6 ∨ m + j = 7
          ∨ m + j = 8 ∨ m + j = 9 ∨ m + j = 10 ∨ m + j = 11 ∨ m + j = 12 := by omega
        rcases this with h | h | h | h | h | h | h | h | h | h | h | h <;> rw [h] <;>
          simp [monthStart] <;> omega
      rw [← add_assoc]
      omega
  have := step (k - m).toNat (by omega)
  rwa [show m + ((k - m).toNat : Int) = k by omega] at this

theorem monthOfOrd_unique {y o m : Int} (hm1 : 1 ≤ m) (hm2 : m ≤ 12)
    (h1 : monthStart (leap y) m < o) (h2 : o ≤ monthStart (leap y) (m + 1)) :
    monthOfOrd (leap y) o = m := by
  have hL := leap_cases y
  have : m = 1 ∨ m = 2 ∨ m = 3 ∨ m = 4 ∨ m = 5 ∨ m = 6 ∨ m = 7 ∨ m = 8 ∨ m = 9 ∨ m = 10
    ∨ m = 11 ∨ m = 12 := by omega
  rcases this with h | h | h | h | h | h | h | h | h | h | h | h <;> subst h <;>
    simp [monthStart] at h1 h2 <;> unfold monthOfOrd <;> omega

theorem dayOf_bounds (n : Int) : 1 ≤ dayOf n ∧ dayOf n ≤ monthLen (yearOf n) (monthOf n) := by
  obtain ⟨a, b⟩ := ordinal_bounds n
  obtain ⟨c, d⟩ := monthOfOrd_spec _ _ a b
  obtain ⟨e, f⟩ := monthOf_bounds n
  have h := monthStart_succ (yearOf n) (monthOf n) e f
  unfold dayOf
  change monthStart _ (monthOf n) < _ at c
  change _ ≤ monthStart _ (monthOf n + 1) at d
  omega

/-- Encoding the decoded triple gives back the day. -/
theorem ymd_yearOf (n : Int) : ymd (yearOf n) (monthOf n) (dayOf n) = n := by
  unfold ymd dayOf ordinal; omega

theorem monthStart_bounds (L m : Int) (hL : L = 0 ∨ L = 1) : 0 ≤ monthStart L m := by
  unfold monthStart; omega

section
variable {y m d : Int}

theorem monthStart_le_year (hm1 : 1 ≤ m) (hm2 : m ≤ 12) :
    monthStart (leap y) m + monthLen y m ≤ 365 + leap y := by
  have h := monthStart_succ y m hm1 hm2
  have := monthStart_mono (leap y) (leap_cases y) (show 1 ≤ m + 1 by omega)
    (show m + 1 ≤ 13 by omega) le_rfl
  have e : monthStart (leap y) 13 = 365 + leap y := by simp [monthStart]
  omega

theorem yearOf_ymd (hm1 : 1 ≤ m) (hm2 : m ≤ 12) (hd1 : 1 ≤ d) (hd2 : d ≤ monthLen y m) :
    yearOf (ymd y m d) = y := by
  have h := monthStart_le_year (y := y) hm1 hm2
  have h0 := monthStart_bounds (leap y) m (leap_cases y)
  apply yearOf_unique
  · unfold ymd; omega
  · rw [yearStart_succ]; unfold ymd; omega

theorem ordinal_ymd (hm1 : 1 ≤ m) (hm2 : m ≤ 12) (hd1 : 1 ≤ d) (hd2 : d ≤ monthLen y m) :
    ordinal (ymd y m d) = monthStart (leap y) m + d := by
  unfold ordinal
  rw [yearOf_ymd hm1 hm2 hd1 hd2]
  unfold ymd; omega

theorem monthOf_ymd (hm1 : 1 ≤ m) (hm2 : m ≤ 12) (hd1 : 1 ≤ d) (hd2 : d ≤ monthLen y m) :
    monthOf (ymd y m d) = m := by
  unfold monthOf
  rw [yearOf_ymd hm1 hm2 hd1 hd2, ordinal_ymd hm1 hm2 hd1 hd2]
  apply monthOfOrd_unique hm1 hm2
  · omega
  · rw [monthStart_succ y m hm1 hm2]; omega

theorem dayOf_ymd (hm1 : 1 ≤ m) (hm2 : m ≤ 12) (hd1 : 1 ≤ d) (hd2 : d ≤ monthLen y m) :
    dayOf (ymd y m d) = d := by
  unfold dayOf
  rw [monthOf_ymd hm1 hm2 hd1 hd2, yearOf_ymd hm1 hm2 hd1 hd2, ordinal_ymd hm1 hm2 hd1 hd2]
  omega

end

/-- Lexicographic comparison of the (year, month) part. -/
def monthIndex (n : Int) : Int := yearOf n * 12 + (monthOf n - 1)

theorem yearOf_mono {a b : Int} (h : a ≤ b) : yearOf a ≤ yearOf b := by
  by_contra hc
  have := yearStart_mono (show yearOf b + 1 ≤ yearOf a by omega)
  have := yearOf_spec a
  have := yearOf_spec b
  omega

/-- First day of the month of `n`. -/
theorem ymd_lt_of_monthIndex {y m d y' m' d' : Int} (hm1 : 1 ≤ m) (hm2 : m ≤ 12)
    (hd2 : d ≤ monthLen y m) (hm1' : 1 ≤ m') (hm2' : m' ≤ 12) (hd1' : 1 ≤ d')
    (h : y * 12 + (m - 1) < y' * 12 + (m' - 1)) : ymd y m d < ymd y' m' d' := by
  have h1 := monthStart_le_year (y := y) hm1 hm2
  have h0' := monthStart_bounds (leap y') m' (leap_cases y')
  rcases lt_trichotomy y y' with hy | hy | hy
  · have := yearStart_mono (show y + 1 ≤ y' by omega)
    rw [yearStart_succ] at this
    unfold ymd; omega
  · subst hy
    have := monthStart_succ y m hm1 hm2
    have := monthStart_mono (leap y) (leap_cases y) (show 1 ≤ m + 1 by omega)
      (show m + 1 ≤ m' by omega) (by omega)
    unfold ymd; omega
  · omega

theorem monthIndex_mono {a b : Int} (h : a ≤ b) : monthIndex a ≤ monthIndex b := by
  by_contra hc
  obtain ⟨a1, a2⟩ := monthOf_bounds a
  obtain ⟨b1, b2⟩ := monthOf_bounds b
  have := ymd_lt_of_monthIndex b1 b2 (dayOf_bounds b).2 a1 a2 (dayOf_bounds a).1
    (show yearOf b * 12 + (monthOf b - 1) < yearOf a * 12 + (monthOf a - 1) by
      unfold monthIndex at hc; omega)
  rw [ymd_yearOf, ymd_yearOf] at this
  omega

theorem yearOf_eq_div (n : Int) : yearOf n = monthIndex n / 12 := by
  have := monthOf_bounds n
  unfold monthIndex; omega

theorem monthOf_eq_mod (n : Int) : monthOf n = monthIndex n % 12 + 1 := by
  have := monthOf_bounds n
  unfold monthIndex; omega

/-- Within one month the day of the month moves with the day number. -/
theorem dayOf_sub {a b : Int} (h : monthIndex a = monthIndex b) : dayOf b - dayOf a = b - a := by
  have hy : yearOf a = yearOf b := by rw [yearOf_eq_div, yearOf_eq_div, h]
  have hm : monthOf a = monthOf b := by rw [monthOf_eq_mod, monthOf_eq_mod, h]
  have ha := ymd_yearOf a
  have hb := ymd_yearOf b
  unfold ymd at ha hb
  rw [hy, hm] at ha
  omega

theorem valid_iff_year (n : Int) : Valid n ↔ -262143 ≤ yearOf n ∧ yearOf n ≤ 262142 := by
  have hmin : minDay = yearStart (-262143) + 1 := by decide
  have hmax : maxDay = yearStart (262142 + 1) := by decide
  have s := yearOf_spec n
  unfold Valid
  rw [hmin, hmax]
  constructor
  · rintro ⟨h1, h2⟩
    constructor
    · by_contra hc
      have := yearStart_mono (show yearOf n + 1 ≤ -262143 by omega)
      omega
    · by_contra hc
      have := yearStart_mono (show 262142 + 1 ≤ yearOf n by omega)
      omega
  · rintro ⟨h1, h2⟩
    have := yearStart_mono h1
    have := yearStart_mono (show yearOf n + 1 ≤ 262142 + 1 by omega)
    omega

theorem fromYmdOpt_eq_some {y m d n : Int} :
    fromYmdOpt y m d = some n ↔ Valid n ∧ yearOf n = y ∧ monthOf n = m ∧ dayOf n = d := by
  unfold fromYmdOpt
  constructor
  · split
    · rename_i h
      intro e
      obtain ⟨h1, h2, h3, h4, h5, h6⟩ := h
      simp only [Option.some.injEq] at e
      subst e
      have e1 := yearOf_ymd h3 h4 h5 h6
      refine ⟨?_, e1, monthOf_ymd h3 h4 h5 h6, dayOf_ymd h3 h4 h5 h6⟩
      rw [valid_iff_year, e1]; omega
    · intro h; simp at h
  · rintro ⟨hv, rfl, rfl, rfl⟩
    rw [valid_iff_year] at hv
    have := monthOf_bounds n
    have := dayOf_bounds n
    rw [if_pos ⟨hv.1, hv.2, this.1 |> fun _ => (monthOf_bounds n).1, (monthOf_bounds n).2,
      (dayOf_bounds n).1, (dayOf_bounds n).2⟩, ymd_yearOf]

theorem weekday_num (n : Int) : (weekdayOf n).num = (n - 1) % 7 := by
  unfold weekdayOf
  split_ifs <;> simp only [Weekday.num] <;> omega

theorem weekday_num_inj {a b : Weekday} (h : a.num = b.num) : a = b := by
  cases a <;> cases b <;> simp [Weekday.num] at h ⊢

end Verif
