import Verif.Model.YfToDate
import Verif.Props.Period
import Mathlib.Tactic.Linarith
import Mathlib.Tactic.FieldSimp
import Mathlib.Tactic.Ring

/-! # C75: from a year fraction back to a date -/

namespace Verif
open Outcome

/-! ## Rounding -/

/-- Rounding a ratio of integers in integer arithmetic. -/
theorem roundAway_ratio (p : Int) (q : ℕ) (hq : 0 < q) :
    roundAway ((p : ℚ) / q) =
      if 0 ≤ p then (2 * p + q) / (2 * q) else -((-2 * p + q) / (2 * q)) := by
  have hq' : (0 : ℚ) < q := by exact_mod_cast hq
  have key : ∀ a : Int, ⌊((a : ℚ)) / ((2 * q : ℕ) : ℚ)⌋ = a / (2 * (q : Int)) := by
    intro a; rw [Rat.floor_intCast_div_natCast]; push_cast; rfl
  unfold roundAway
  by_cases h : 0 ≤ p
  · have h' : (0 : ℚ) ≤ p := by exact_mod_cast h
    rw [if_pos h, if_pos (by positivity), ← key]
    congr 1
    push_cast
    field_simp
  · have h' : (p : ℚ) < 0 := by push Not at h; exact_mod_cast h
    rw [if_neg h, if_neg (by push Not; exact div_neg_of_neg_of_pos h' hq'), ← key, ← Int.ceil_neg]
    congr 1
    push_cast
    field_simp
    ring

/-- Rounding moves by at most one half. -/
theorem roundAway_near (x : ℚ) : |(roundAway x : ℚ) - x| ≤ 1 / 2 := by
  unfold roundAway
  split_ifs
  · have a := Int.floor_le (x + 1 / 2)
    have b := Int.lt_floor_add_one (x + 1 / 2)
    rw [abs_le]; constructor <;> linarith
  · have a := Int.le_ceil (x - 1 / 2)
    have b := Int.ceil_lt_add_one (x - 1 / 2)
    rw [abs_le]; constructor <;> linarith

theorem addPeriod_days_ok {d n : Int} (hn : -maxDurDays ≤ n ∧ n ≤ maxDurDays) (hv : Valid (d + n)) :
    addPeriod d (.days n) = .ok (d + n) := (C16_add_days_iff n).2 ⟨hn.1, hn.2, rfl, hv⟩

/-! ## The theorems -/

/-- The counters that divide the number of days by a constant, with that constant and the longest
distance in days over which the round trip is claimed. -/
def roundTripTable : List (DayCounter × ℕ × Int) :=
  [(.actual360, 360, 2365), (.actual364, 364, 42369), (.actual365 none, 365, 1065069),
    (.actual365 (some .standard), 365, 1065069), (.actual366, 366, 119316)]

/-- The two steps on whole days. -/
theorem yfToDate_steps {c : DayCounter} {N : ℕ} (hN : 0 < N)
    (hc : ∀ a b, c.yearFraction a b = .ok (((b - a : Int) : ℚ) / N)) (ref n : Int) :
    yearFractionToDate c ref ((n : ℚ) / N) = (do
      let guess ← addPeriod ref (.days (roundAway (((1461 * n : Int) : ℚ) / ((4 * N : ℕ) : ℚ))))
      addPeriod guess (.days
        (roundAway (((1461 * (n - (guess - ref)) : Int) : ℚ) / ((4 * N : ℕ) : ℚ))))) := by
  have hN' : (N : ℚ) ≠ 0 := by exact_mod_cast hN.ne'
  have e1 : (n : ℚ) / N * (1461 / 4) = ((1461 * n : Int) : ℚ) / ((4 * N : ℕ) : ℚ) := by
    push_cast; field_simp
  unfold yearFractionToDate
  rw [e1]
  generalize addPeriod ref _ = g
  cases g with
  | ok g =>
    simp only [ok_bind, hc]
    have e2 : ((n : ℚ) / N - ((g - ref : Int) : ℚ) / N) * (1461 / 4)
        = ((1461 * (n - (g - ref)) : Int) : ℚ) / ((4 * N : ℕ) : ℚ) := by
      push_cast; field_simp
    rw [e2]
  | fail e => rfl
  | panic => rfl

theorem table_fraction {c : DayCounter} {N : ℕ} {B : Int} (h : (c, N, B) ∈ roundTripTable) :
    0 < N ∧ ∀ a b, c.yearFraction a b = .ok (((b - a : Int) : ℚ) / N) := by
  simp only [roundTripTable, List.mem_cons, Prod.mk.injEq, List.not_mem_nil, or_false] at h
  rcases h with ⟨rfl, rfl, rfl⟩ | ⟨rfl, rfl, rfl⟩ | ⟨rfl, rfl, rfl⟩ | ⟨rfl, rfl, rfl⟩ |
    ⟨rfl, rfl, rfl⟩ <;>
    exact ⟨by norm_num, fun a b => by simp [DayCounter.yearFraction, actualYf, actualDays]⟩

/-- The whole-day arithmetic of the round trip. -/
theorem round_trip_arith {c : DayCounter} {N : ℕ} {B : Int} (h : (c, N, B) ∈ roundTripTable)
    (n : Int) :
    (let e := roundAway (((1461 * n : Int) : ℚ) / ((4 * N : ℕ) : ℚ))
     let f := roundAway (((1461 * (n - e) : Int) : ℚ) / ((4 * N : ℕ) : ℚ))
     (e + f = n ↔ |n| ≤ B) ∧ (|n| ≤ B → |e - n| ≤ 730 ∧ |f| ≤ 730)) := by
  intro e f
  have he : e = _ := roundAway_ratio (1461 * n) (4 * N) (by have := (table_fraction h).1; omega)
  have hf : f = _ := roundAway_ratio (1461 * (n - e)) (4 * N) (by have := (table_fraction h).1; omega)
  clear_value f
  clear_value e
  simp only [roundTripTable, List.mem_cons, Prod.mk.injEq, List.not_mem_nil, or_false] at h
  rcases h with ⟨rfl, rfl, rfl⟩ | ⟨rfl, rfl, rfl⟩ | ⟨rfl, rfl, rfl⟩ | ⟨rfl, rfl, rfl⟩ |
    ⟨rfl, rfl, rfl⟩ <;>
  · push_cast at he hf
    norm_num at he hf
    rw [abs_le, abs_le, abs_le]
    split_ifs at he hf <;> omega

/-- For an Actual/x counter the year fraction of a date leads back to the date exactly when the
two dates are at most the tabulated number of days apart: 6.5 years for Actual/360. -/
theorem C75_round_trip {c : DayCounter} {N : ℕ} {B : Int} (h : (c, N, B) ∈ roundTripTable)
    {ref d : Int} (hr : Valid ref) (h1 : minDay + 730 ≤ d) (h2 : d ≤ maxDay - 730) :
    ∃ t, c.yearFraction ref d = .ok t ∧ (yearFractionToDate c ref t = .ok d ↔ |d - ref| ≤ B) := by
  obtain ⟨hN, hc⟩ := table_fraction h
  refine ⟨_, hc ref d, ?_⟩
  rw [yfToDate_steps hN hc]
  obtain ⟨hiff, hsmall⟩ := round_trip_arith h (d - ref)
  generalize he : roundAway (((1461 * (d - ref) : Int) : ℚ) / ((4 * N : ℕ) : ℚ)) = e at hiff hsmall ⊢
  constructor
  · intro hok
    obtain ⟨g, hg, hok⟩ := bind_eq_ok.1 hok
    obtain ⟨-, -, rfl, -⟩ := (C16_add_days_iff _).1 hg
    obtain ⟨-, -, hd, -⟩ := (C16_add_days_iff _).1 hok
    rw [← hiff]
    have : ref + e - ref = e := by ring
    rw [this] at hd
    omega
  · intro hb
    obtain ⟨s1, s2⟩ := hsmall hb
    rw [abs_le] at s1 s2
    unfold Valid at hr
    have hmin : (-100000000 : Int) ≤ minDay := by decide +kernel
    have hmax : maxDay ≤ (100000000 : Int) := by decide +kernel
    have q1 : maxDurDays = 106751991167 := rfl
    rw [addPeriod_days_ok (by omega) (by unfold Valid; omega), ok_bind]
    have : ref + e - ref = e := by ring
    rw [this]
    generalize roundAway (((1461 * (d - ref - e) : Int) : ℚ) / ((4 * N : ℕ) : ℚ)) = f at hiff s2 ⊢
    have hfe := hiff.2 hb
    rw [addPeriod_days_ok (by omega) (by unfold Valid; omega)]
    exact congrArg Outcome.ok (by omega)

/-- A five-year point in Actual/360. -/
example : Valid (ymd 2023 11 4) ∧ minDay + 730 ≤ ymd 2028 11 4 ∧ ymd 2028 11 4 ≤ maxDay - 730 ∧
    |ymd 2028 11 4 - ymd 2023 11 4| ≤ 2365 ∧
    yearFractionToDate .actual360 (ymd 2023 11 4) (1827 / 360) = .ok (ymd 2028 11 4) := by
  decide +kernel

/-- Ten years in Actual/360 come back one day early. -/
theorem C75_actual360_false : DayCounter.actual360.yearFraction (ymd 2023 11 4) (ymd 2033 11 4)
      = .ok (3653 / 360) ∧
    yearFractionToDate .actual360 (ymd 2023 11 4) (3653 / 360) = .ok (ymd 2033 11 3) := by
  decide +kernel

/-- For every time, the date found has a year fraction within the stated distance of it: half a
day for the final rounding and the square of the relative error of 365.25 days. -/
theorem C75_close {c : DayCounter} {N : ℕ} {B : Int} (h : (c, N, B) ∈ roundTripTable)
    {ref d : Int} {t : ℚ} (hok : yearFractionToDate c ref t = .ok d) :
    ∃ u, c.yearFraction ref d = .ok u ∧
      |t - u| ≤ |t| * (1 - 1461 / (4 * N)) ^ 2 + (1 + |1 - 1461 / (4 * (N : ℚ))|) / (2 * N) := by
  obtain ⟨hN, hc⟩ := table_fraction h
  have hN' : (0 : ℚ) < N := by exact_mod_cast hN
  refine ⟨_, hc ref d, ?_⟩
  obtain ⟨g, hg, hok⟩ := bind_eq_ok.1 hok
  obtain ⟨-, -, rfl, -⟩ := (C16_add_days_iff _).1 hg
  rw [hc, ok_bind] at hok
  obtain ⟨-, -, rfl, -⟩ := (C16_add_days_iff _).1 hok
  have r1 := roundAway_near (t * (1461 / 4))
  generalize roundAway (t * (1461 / 4)) = g at r1 ⊢
  have e1 : ref + g - ref = g := by ring
  rw [e1]
  have r2 := roundAway_near ((t - (g : ℚ) / N) * (1461 / 4))
  generalize roundAway ((t - (g : ℚ) / N) * (1461 / 4)) = f at r2 ⊢
  have e2 : ref + g + f - ref = g + f := by ring
  rw [e2]
  have id : t - ((g + f : Int) : ℚ) / N = t * (1 - 1461 / (4 * N)) ^ 2
      + (-((g : ℚ) - t * (1461 / 4)) / N * (1 - 1461 / (4 * N))
        - (f - (t - (g : ℚ) / N) * (1461 / 4)) / N) := by
    push_cast; field_simp; ring
  rw [id]
  refine (abs_add_le _ _).trans ?_
  rw [abs_mul, abs_of_nonneg (sq_nonneg (1 - 1461 / (4 * (N : ℚ))))]
  gcongr
  refine (abs_sub _ _).trans ?_
  rw [abs_mul, abs_div, abs_div, abs_neg, abs_of_pos hN']
  have p := abs_nonneg (1 - 1461 / (4 * (N : ℚ)))
  have a1 : |(g : ℚ) - t * (1461 / 4)| / N ≤ 1 / 2 / N := by gcongr
  have a2 : |(f : ℚ) - (t - (g : ℚ) / N) * (1461 / 4)| / N ≤ 1 / 2 / N := by gcongr
  calc _ ≤ 1 / 2 / N * |1 - 1461 / (4 * (N : ℚ))| + 1 / 2 / N := by gcongr
    _ = _ := by field_simp; ring

/-- One and a quarter years from 4 November 2023 in Actual/365. -/
example : yearFractionToDate (.actual365 none) (ymd 2023 11 4) (5 / 4) = .ok (ymd 2025 2 2) := by
  decide +kernel

/-- Any counter: when the first guess has the requested year fraction it is the result. -/
theorem C75_guess {c : DayCounter} {ref g : Int} {t : ℚ} (hg : Valid g)
    (h : addPeriod ref (.days (roundAway (t * (1461 / 4)))) = .ok g)
    (hy : c.yearFraction ref g = .ok t) : yearFractionToDate c ref t = .ok g := by
  unfold yearFractionToDate
  rw [h, ok_bind, hy, ok_bind]
  have e : roundAway ((t - t) * (1461 / 4)) = 0 := by
    rw [sub_self, zero_mul]; decide +kernel
  rw [e, addPeriod_days_ok (by decide +kernel) (by simpa using hg), add_zero]

/-- Four years from 1 March 2023 in 30/360. -/
example : yearFractionToDate (.thirty360 .european) (ymd 2023 3 1) 4 = .ok (ymd 2027 3 1) :=
  C75_guess (by decide +kernel) (by decide +kernel) (by decide +kernel)

/-- With Actual/Actual (ISDA), the default, one year from 1 January 2023 is 1 January 2026: the
year fraction has the wrong sign (C27), so the correction moves away from the date. -/
theorem C75_isda_false : yearFractionToDate (.actualActual none) (ymd 2023 1 1) 1
    = .ok (ymd 2026 1 1) := by decide +kernel

/-- With Actual/Actual (Euro) half a year from 1 January 2023 ends in July 2024. -/
theorem C75_euro_false : yearFractionToDate (.actualActual (some .euro)) (ymd 2023 1 1) (1 / 2)
    = .ok (ymd 2024 7 3) := by decide +kernel

end Verif
