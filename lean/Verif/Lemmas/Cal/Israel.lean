import Verif.Lemmas.CalWindow
import Verif.Model.Cal.Israel

/-! # Open days of the calendar `israel`

The holiday tables cover 2000-2050.  For these years the kernel checks a faster
calendar with more holidays; for the others the tables are empty. -/

namespace Verif

namespace Israel

/-- The feast days of year `y` in a table. -/
def feast (s : List (Int × Int × Int)) (y : Int) : List Int :=
  (s[(y - 2000).toNat]?.toList.filter fun e => e.2.2 == y).map fun e => ymd e.2.2 e.2.1 e.1

/-- The tables hold dates well inside a year, one for each year from 2000 to 2050. -/
def Inside (s : List (Int × Int × Int)) : Prop :=
  ∀ e ∈ s, 2 ≤ e.2.1 ∧ e.2.1 ≤ 10 ∧ 1 ≤ e.1 ∧ e.1 ≤ 31 ∧ 2000 ≤ e.2.2 ∧ e.2.2 ≤ 2050 ∧
    s[(e.2.2 - 2000).toNat]? = some e

theorem purim_inside : Inside purim := by unfold Inside; decide +kernel
theorem passover_inside : Inside passover := by unfold Inside; decide +kernel
theorem independenceDay_inside : Inside independenceDay := by unfold Inside; decide +kernel
theorem shavuot_inside : Inside shavuot := by unfold Inside; decide +kernel
theorem fastDay_inside : Inside fastDay := by unfold Inside; decide +kernel
theorem newYear_inside : Inside newYear := by unfold Inside; decide +kernel

theorem mem_feast {s : List (Int × Int × Int)} (hs : Inside s) {date k : Int}
    (h : named s (date + k) = true) (k1 : -21 ≤ k) (k2 : k ≤ 1) :
    date + k ∈ feast s (yearOf date) ∧ 2000 ≤ yearOf date ∧ yearOf date ≤ 2050 := by
  unfold named at h
  rw [List.contains_eq_mem, decide_eq_true_eq] at h
  obtain ⟨a1, a2, a3, a4, a5, a6, a7⟩ := hs _ h
  simp only at a1 a2 a3 a4 a5 a6 a7
  have hy : yearOf date = yearOf (date + k) := by
    have e := ymd_yearOf (date + k)
    unfold ymd at e
    have hL := leap_cases (yearOf (date + k))
    have b1 := monthStart_mono (leap (yearOf (date + k))) hL (show (1 : Int) ≤ 2 by omega) a1 (by omega)
    have b2 := monthStart_mono (leap (yearOf (date + k))) hL (show (1 : Int) ≤ monthOf (date + k) by omega)
      a2 (by omega)
    have c1 : monthStart (leap (yearOf (date + k))) 2 = 31 := by
      rcases hL with h | h <;> rw [h] <;> decide
    have c2 : monthStart (leap (yearOf (date + k))) 10 ≤ 274 := by
      rcases hL with h | h <;> rw [h] <;> decide
    have c3 := yearStart_succ (yearOf (date + k))
    apply yearOf_unique <;> omega
  rw [hy]
  refine ⟨?_, a5, a6⟩
  unfold feast
  rw [List.mem_map]
  refine ⟨?_, List.mem_filter.mpr ⟨?_, ?_⟩, ?_⟩
  · exact (dayOf (date + k), monthOf (date + k), yearOf (date + k))
  · rw [a7]; simp
  · simp
  · exact ymd_yearOf _

/-- All days of year `y` that a table can close in Tel Aviv. -/
def closedT (y : Int) : List Int :=
  feast purim y ++ (feast passover y).flatMap (fun f => [f - 1, f, f + 5, f + 6])
  ++ (feast independenceDay y).flatMap (fun f => [f - 1, f])
  ++ (feast shavuot y).flatMap (fun f => [f - 1, f]) ++ feast fastDay y
  ++ (feast newYear y).flatMap
    (fun f => [f - 1, f, f + 1, f + 8, f + 9, f + 13, f + 14, f + 20, f + 21])

theorem telAvivHoliday_mem {date : Int} (h : telAvivHoliday date = true) :
    date ∈ closedT (yearOf date) ∧ 2000 ≤ yearOf date ∧ yearOf date ≤ 2050 := by
  have shift : ∀ {s : List (Int × Int × Int)}, Inside s → ∀ k : Int, -21 ≤ k → k ≤ 1 →
      named s (date + k) = true → date + k ∈ feast s (yearOf date) ∧
        2000 ≤ yearOf date ∧ yearOf date ≤ 2050 :=
    fun hs k h1 h2 hn => mem_feast hs hn h1 h2
  simp only [telAvivHoliday, Bool.or_eq_true, Bool.and_eq_true] at h
  simp only [closedT, List.mem_append, List.mem_flatMap, List.mem_cons, List.not_mem_nil, or_false]
  have h0 : ∀ {s : List (Int × Int × Int)}, Inside s → named s date = true →
      date ∈ feast s (yearOf date) ∧ 2000 ≤ yearOf date ∧ yearOf date ≤ 2050 := by
    intro s hs hn
    have := shift hs 0 (by omega) (by omega) (by rwa [Int.add_zero])
    rwa [Int.add_zero] at this
  rcases h with ((((((((((((((((((h | ⟨-, h⟩) | h) | h) | h) | h) | h) | ⟨-, h⟩) | h) | h) | ⟨-, h⟩) | h) | h) | h) | h) | h) | h) | h) | h)
  · obtain ⟨a, b⟩ := h0 purim_inside h; exact ⟨by simp [a], b⟩
  · obtain ⟨a, b⟩ := shift passover_inside 1 (by omega) (by omega) h
    exact ⟨.inl (.inl (.inl (.inl (.inr ⟨_, a, by omega⟩)))), b⟩
  · obtain ⟨a, b⟩ := h0 passover_inside h
    exact ⟨.inl (.inl (.inl (.inl (.inr ⟨_, a, by omega⟩)))), b⟩
  · obtain ⟨a, b⟩ := shift passover_inside (-5) (by omega) (by omega) h
    exact ⟨.inl (.inl (.inl (.inl (.inr ⟨_, a, by omega⟩)))), b⟩
  · obtain ⟨a, b⟩ := shift passover_inside (-6) (by omega) (by omega) h
    exact ⟨.inl (.inl (.inl (.inl (.inr ⟨_, a, by omega⟩)))), b⟩
  · obtain ⟨a, b⟩ := shift independenceDay_inside 1 (by omega) (by omega) h
    exact ⟨.inl (.inl (.inl (.inr ⟨_, a, by omega⟩))), b⟩
  · obtain ⟨a, b⟩ := h0 independenceDay_inside h
    exact ⟨.inl (.inl (.inl (.inr ⟨_, a, by omega⟩))), b⟩
  · obtain ⟨a, b⟩ := shift shavuot_inside 1 (by omega) (by omega) h
    exact ⟨.inl (.inl (.inr ⟨_, a, by omega⟩)), b⟩
  · obtain ⟨a, b⟩ := h0 shavuot_inside h
    exact ⟨.inl (.inl (.inr ⟨_, a, by omega⟩)), b⟩
  · obtain ⟨a, b⟩ := h0 fastDay_inside h; exact ⟨.inl (.inr a), b⟩
  · obtain ⟨a, b⟩ := shift newYear_inside 1 (by omega) (by omega) h
    exact ⟨.inr ⟨_, a, by omega⟩, b⟩
  · obtain ⟨a, b⟩ := h0 newYear_inside h
    exact ⟨.inr ⟨_, a, by omega⟩, b⟩
  · obtain ⟨a, b⟩ := shift newYear_inside (-1) (by omega) (by omega) h
    exact ⟨.inr ⟨_, a, by omega⟩, b⟩
  · obtain ⟨a, b⟩ := shift newYear_inside (-8) (by omega) (by omega) h
    exact ⟨.inr ⟨_, a, by omega⟩, b⟩
  · obtain ⟨a, b⟩ := shift newYear_inside (-9) (by omega) (by omega) h
    exact ⟨.inr ⟨_, a, by omega⟩, b⟩
  · obtain ⟨a, b⟩ := shift newYear_inside (-13) (by omega) (by omega) h
    exact ⟨.inr ⟨_, a, by omega⟩, b⟩
  · obtain ⟨a, b⟩ := shift newYear_inside (-14) (by omega) (by omega) h
    exact ⟨.inr ⟨_, a, by omega⟩, b⟩
  · obtain ⟨a, b⟩ := shift newYear_inside (-20) (by omega) (by omega) h
    exact ⟨.inr ⟨_, a, by omega⟩, b⟩
  · obtain ⟨a, b⟩ := shift newYear_inside (-21) (by omega) (by omega) h
    exact ⟨.inr ⟨_, a, by omega⟩, b⟩

/-- All days of year `y` that a table can close for the Shir fixing. -/
def closedS (y : Int) : List Int :=
  (feast purim y).flatMap (fun f => [f, f + 1])
  ++ (feast passover y).flatMap (fun f => [f - 1, f, f + 6])
  ++ feast independenceDay y ++ feast shavuot y ++ feast fastDay y
  ++ (feast newYear y).flatMap (fun f => [f - 1, f, f + 1, f + 8, f + 9, f + 14, f + 21])

/-- The holidays of the Shir fixing that are not in the tables. -/
def shirRest (t : DateInfo) (em : Int) : Bool :=
  (t.d == 27 && t.m == 2 && t.y == 2024)
  || (t.d == 1 && t.m == 1)
  || t.dd == em - 3
  || (decide (t.d ≥ 25) && t.w == .mon && t.m == 5 && !(t.y == 2022))
  || (t.d == 3 && t.m == 6 && t.y == 2022)
  || (t.d == 25 && t.m == 12)
  || (t.d == 26 && t.m == 12)
  || (t.d == 1 && t.m == 11 && t.y == 2022)
  || (t.d == 2 && t.m == 1 && t.y == 2023)
  || (t.d == 10 && t.m == 4 && t.y == 2023)

theorem shirHoliday_mem {date em : Int} (h : shirHoliday date em = true) :
    shirRest (info date) em = true ∨
      (date ∈ closedS (yearOf date) ∧ 2000 ≤ yearOf date ∧ yearOf date ≤ 2050) := by
  have shift : ∀ {s : List (Int × Int × Int)}, Inside s → ∀ k : Int, -21 ≤ k → k ≤ 1 →
      named s (date + k) = true → date + k ∈ feast s (yearOf date) ∧
        2000 ≤ yearOf date ∧ yearOf date ≤ 2050 :=
    fun hs k h1 h2 hn => mem_feast hs hn h1 h2
  have h0 : ∀ {s : List (Int × Int × Int)}, Inside s → named s date = true →
      date ∈ feast s (yearOf date) ∧ 2000 ≤ yearOf date ∧ yearOf date ≤ 2050 := by
    intro s hs hn
    have := shift hs 0 (by omega) (by omega) (by rwa [Int.add_zero])
    rwa [Int.add_zero] at this
  by_cases hr : shirRest (info date) em = true
  · exact .inl hr
  · right
    rw [Bool.not_eq_true] at hr
    simp only [shirRest, Bool.or_eq_false_iff] at hr
    obtain ⟨⟨⟨⟨⟨⟨⟨⟨⟨r1, r2⟩, r3⟩, r4⟩, r5⟩, r6⟩, r7⟩, r8⟩, r9⟩, r10⟩ := hr
    simp only [shirHoliday, r1, r2, r3, r4, r5, r6, r7, r8, r9, r10, Bool.or_eq_true, Bool.or_false]
      at h
    simp only [closedS, List.mem_append, List.mem_flatMap, List.mem_cons, List.not_mem_nil, or_false]
    rcases h with ((((((((((((((h | h) | h) | h) | h) | h) | h) | h) | h) | h) | h) | h) | h) | h) | h)
    · obtain ⟨a, b⟩ := h0 purim_inside h
      exact ⟨.inl (.inl (.inl (.inl (.inl ⟨_, a, by omega⟩)))), b⟩
    · obtain ⟨a, b⟩ := shift purim_inside (-1) (by omega) (by omega) h
      exact ⟨.inl (.inl (.inl (.inl (.inl ⟨_, a, by omega⟩)))), b⟩
    · obtain ⟨a, b⟩ := shift passover_inside 1 (by omega) (by omega) h
      exact ⟨.inl (.inl (.inl (.inl (.inr ⟨_, a, by omega⟩)))), b⟩
    · obtain ⟨a, b⟩ := h0 passover_inside h
      exact ⟨.inl (.inl (.inl (.inl (.inr ⟨_, a, by omega⟩)))), b⟩
    · obtain ⟨a, b⟩ := shift passover_inside (-6) (by omega) (by omega) h
      exact ⟨.inl (.inl (.inl (.inl (.inr ⟨_, a, by omega⟩)))), b⟩
    · obtain ⟨a, b⟩ := h0 independenceDay_inside h; exact ⟨.inl (.inl (.inl (.inr a))), b⟩
    · obtain ⟨a, b⟩ := h0 shavuot_inside h; exact ⟨.inl (.inl (.inr a)), b⟩
    · obtain ⟨a, b⟩ := h0 fastDay_inside h; exact ⟨.inl (.inr a), b⟩
    · obtain ⟨a, b⟩ := shift newYear_inside 1 (by omega) (by omega) h
      exact ⟨.inr ⟨_, a, by omega⟩, b⟩
    · obtain ⟨a, b⟩ := h0 newYear_inside h
      exact ⟨.inr ⟨_, a, by omega⟩, b⟩
    · obtain ⟨a, b⟩ := shift newYear_inside (-1) (by omega) (by omega) h
      exact ⟨.inr ⟨_, a, by omega⟩, b⟩
    · obtain ⟨a, b⟩ := shift newYear_inside (-8) (by omega) (by omega) h
      exact ⟨.inr ⟨_, a, by omega⟩, b⟩
    · obtain ⟨a, b⟩ := shift newYear_inside (-9) (by omega) (by omega) h
      exact ⟨.inr ⟨_, a, by omega⟩, b⟩
    · obtain ⟨a, b⟩ := shift newYear_inside (-14) (by omega) (by omega) h
      exact ⟨.inr ⟨_, a, by omega⟩, b⟩
    · obtain ⟨a, b⟩ := shift newYear_inside (-21) (by omega) (by omega) h
      exact ⟨.inr ⟨_, a, by omega⟩, b⟩

/-- A calendar with the table holidays of both years, in a form the kernel can run. -/
def fastT : Cal := fun date => .ok (!isWeekend date && !(closedT (yearOf date)).contains date)

/-- The same for the Shir fixing, without Easter: Fridays are left out. -/
def fastS : Cal := fun date => .ok (!isWeekend date && !(weekdayOf date == .fri) &&
  !(shirRest (info date) (ordinal date) || (closedS (yearOf date)).contains date))

theorem fastT_check : checkYears fastT 2000 51 = true := by decide +kernel

theorem fastS_check : checkYears fastS 2000 51 = true := by decide +kernel

end Israel

open Israel

theorem telAviv_half {y : Int} (h1 : -262143 < y) (h2 : y < 262142) : HalfMonthsOpen telAviv y := by
  have key : ∀ n, yearOf n = y → isWeekend n = false → telAvivHoliday n = false →
      telAviv n = .ok true := by
    intro n hn hw hh
    have e1 : minDay = yearStart (-262143) + 1 := by decide
    have e2 : maxDay = yearStart 262143 := by decide
    have s := yearOf_spec n
    rw [hn] at s
    have m1 := yearStart_mono (show (-262143 : Int) + 1 ≤ y by omega)
    have m2 := yearStart_mono (show y + 1 ≤ 262142 by omega)
    have d1 : yearStart (-262143) + 300 < yearStart (-262143 + 1) := by decide
    have d2 : yearStart 262142 + 300 < yearStart 262143 := by decide
    unfold telAviv
    rw [hw, hh, if_neg (by simp), if_neg (by omega)]
    rfl
  rcases (show (2000 ≤ y ∧ y < 2000 + (51 : Nat)) ∨ (y < 2000 ∨ 2050 < y) by omega) with h | h
  · refine HalfMonthsOpen.mono (half_of_check fastT_check h.1 h.2) fun n hn ho => ?_
    simp only [fastT, Outcome.ok.injEq, Bool.and_eq_true, Bool.not_eq_true', List.contains_eq_mem,
      decide_eq_false_iff_not] at ho
    refine key n hn ho.1 ?_
    rw [← Bool.not_eq_true]
    exact fun hh => ho.2 (telAvivHoliday_mem hh).1
  · refine half_of_excl (n := 0) (E := []) (by decide +kernel) fun m d a1 a2 a3 a4 ⟨j, hj, hw⟩ _ => ?_
    have hy := yearOf_ymd a1 a2 a3 a4
    refine key _ hy ?_ ?_
    · unfold isWeekend
      rw [weekdayOf_eq_of_mod (w := .wed)]
      · rfl
      · rw [hw]; simp only [Weekday.num]; omega
    · rw [← Bool.not_eq_true]
      intro hh
      have := telAvivHoliday_mem hh
      omega

theorem shir_of_not_holiday {y n : Int} (h1 : 1901 ≤ y) (h2 : y ≤ 2199) (hn : yearOf n = y)
    (hw : isWeekend n = false) (hf : weekdayOf n ≠ .fri)
    (hr : shirRest (info n) (ordinal n) = false) (hm : n ∉ closedS y ∨ y < 2000 ∨ 2050 < y) :
    shir n = .ok true := by
  obtain ⟨em, e1, e2⟩ := easter_monday_mod h1 h2
  unfold shir
  rw [hn, e1, Outcome.ok_bind, hw, if_neg (by simp)]
  have : shirHoliday n em = false := by
    rw [← Bool.not_eq_true]
    intro hh
    rcases shirHoliday_mem hh with hx | ⟨hx, hy⟩
    · have hne : ordinal n ≠ em - 3 := by
        intro hc
        apply hf
        apply weekdayOf_eq_of_mod
        unfold ordinal at hc
        rw [hn] at hc
        simp only [Weekday.num]; omega
      have h3 : (ordinal n == em - 3) = (ordinal n == ordinal n - 3) := by
        rw [beq_eq_false_iff_ne.mpr hne, beq_eq_false_iff_ne.mpr (by omega)]
      unfold shirRest at hx hr
      simp only [info] at hx hr
      rw [h3, hr] at hx
      exact absurd hx (by decide)
    · rw [hn] at hx hy
      rcases hm with hm | hm
      · exact hm hx
      · omega
  rw [this]; rfl

/-- Fixed dates on which a Wednesday can be closed outside 2000-2050. -/
def Israel.shirExcl : List (Int × Int) :=
  [(1, 1), (2, 27), (6, 3), (12, 25), (12, 26), (11, 1), (1, 2), (4, 10)]

theorem shir_wed {y m d : Int} (h1 : 1901 ≤ y) (h2 : y ≤ 2199) (h : y < 2000 ∨ 2050 < y)
    (a1 : 1 ≤ m) (a2 : m ≤ 12) (a3 : 1 ≤ d) (a4 : d ≤ monthLen y m)
    (hw : (ymd y m d - 1) % 7 = 2) (hE : (m, d) ∉ Israel.shirExcl) : shir (ymd y m d) = .ok true := by
  have hy := yearOf_ymd a1 a2 a3 a4
  have hwd : weekdayOf (ymd y m d) = .wed := by
    apply weekdayOf_eq_of_mod
    rw [hw]; rfl
  refine shir_of_not_holiday h1 h2 hy ?_ ?_ ?_ (.inr h)
  · unfold isWeekend; rw [hwd]; rfl
  · rw [hwd]; decide
  · rw [info_ymd a1 a2 a3 a4, ordinal_ymd a1 a2 a3 a4, ← Bool.not_eq_true]
    intro hr
    apply hE
    revert hr
    unfold Israel.shirExcl
    simp only [shirRest, hwd, excl_rules]
    and_intros <;> first
      | (simp +contextual only [Int.reduceEq, implies_true, excl_rules]; done)
      | (intro h; omega)

theorem shir_half {y : Int} (h1 : 1901 ≤ y) (h2 : y ≤ 2199) : HalfMonthsOpen shir y := by
  rcases (show (2000 ≤ y ∧ y < 2000 + (51 : Nat)) ∨ (y < 2000 ∨ 2050 < y) by omega) with h | h
  · refine HalfMonthsOpen.mono (half_of_check fastS_check h.1 h.2) fun n hn ho => ?_
    simp only [fastS, Outcome.ok.injEq, Bool.and_eq_true, Bool.not_eq_true', List.contains_eq_mem,
      decide_eq_false_iff_not, Bool.or_eq_false_iff, beq_eq_false_iff_ne] at ho
    obtain ⟨⟨o1, o2⟩, o3, o4⟩ := ho
    exact shir_of_not_holiday h1 h2 hn o1 o2 o3 (.inl (hn ▸ o4))
  · refine half_of_excl (n := 0) (E := Israel.shirExcl) (by decide +kernel)
      fun m d a1 a2 a3 a4 ⟨j, hj, hw⟩ hE => shir_wed h1 h2 h a1 a2 a3 a4 (by omega) hE

end Verif
