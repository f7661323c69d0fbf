import Verif.Spec.Feasts
import Verif.Lemmas.Holidays
import Verif.Model.Cal.Israel

/-! # The tables of `israel.rs` as functions of the year -/

namespace Verif
open Outcome

/-- A day as the triple of the tables. -/
def dayTriple (x : Int) : Int × Int × Int := (dayOf x, monthOf x, yearOf x)

theorem dayTriple_inj {a b : Int} (h : dayTriple a = dayTriple b) : a = b := by
  unfold dayTriple at h
  obtain ⟨h1, h2⟩ := Prod.mk.inj h
  obtain ⟨h2, h3⟩ := Prod.mk.inj h2
  rw [← ymd_yearOf a, ← ymd_yearOf b, h1, h2, h3]

/-- A table lists the values of a rule for the years 2000 to 2050. -/
def TableOf (s : List (Int × Int × Int)) (r : Int → Int) : Prop :=
  s = (List.range 51).map fun (i : Nat) => dayTriple (r (2000 + i))

/-- Shifting the values of a rule by `k` days does not leave the year. -/
def ShiftIn (r : Int → Int) (k : Int) : Prop :=
  ∀ i ∈ List.range 51, yearOf (r (2000 + (i : Nat)) + k) = 2000 + (i : Nat)

instance (s : List (Int × Int × Int)) (r : Int → Int) : Decidable (TableOf s r) :=
  inferInstanceAs (Decidable (_ = _))

instance (r : Int → Int) (k : Int) : Decidable (ShiftIn r k) :=
  inferInstanceAs (Decidable (∀ i ∈ List.range 51, _))

theorem named_iff {s : List (Int × Int × Int)} {r : Int → Int} (hs : TableOf s r) (k : Int)
    (hk : ShiftIn r k) (d : Int) :
    Israel.named s (d - k) = true ↔ (2000 ≤ yearOf d ∧ yearOf d ≤ 2050) ∧ d = r (yearOf d) + k := by
  unfold Israel.named
  rw [List.contains_iff_mem]
  change dayTriple (d - k) ∈ s ↔ _
  rw [hs, List.mem_map]
  constructor
  · rintro ⟨i, hi, e⟩
    have e := dayTriple_inj e
    have h1 := hk i hi
    have h2 : d = r (2000 + (i : Nat)) + k := by omega
    rw [← h2] at h1
    have := List.mem_range.1 hi
    exact ⟨by omega, by rw [h1]; exact h2⟩
  · rintro ⟨⟨h1, h2⟩, e⟩
    refine ⟨(yearOf d - 2000).toNat, List.mem_range.2 (by omega), ?_⟩
    have : (2000 : Int) + ((yearOf d - 2000).toNat : Int) = yearOf d := by omega
    rw [this]
    congr 1
    omega

theorem named_zero {s : List (Int × Int × Int)} {r : Int → Int} (hs : TableOf s r)
    (hk : ShiftIn r 0) (d : Int) :
    Israel.named s d = true ↔ (2000 ≤ yearOf d ∧ yearOf d ≤ 2050) ∧ d = r (yearOf d) := by
  have := named_iff hs 0 hk d
  rwa [Int.sub_zero, Int.add_zero] at this

theorem named_before {s : List (Int × Int × Int)} {r : Int → Int} (hs : TableOf s r)
    (hk : ShiftIn r (-1)) (d : Int) :
    Israel.named s (d + 1) = true ↔ (2000 ≤ yearOf d ∧ yearOf d ≤ 2050) ∧ d = r (yearOf d) - 1 := by
  have := named_iff hs (-1) hk d
  rwa [show d - -1 = d + 1 by omega] at this

/-- The new year as tabled: 17 instead of 18 September 2001. -/
def roshCoded (y : Int) : Int := if y = 2001 then ymd 2001 9 17 else roshHashanah y

/-- Independence day as tabled: 10 instead of 11 May 2038. -/
def indepCoded (y : Int) : Int := if y = 2038 then ymd 2038 5 10 else independenceDayIsrael y

theorem purim_table : TableOf Israel.purim purimDay := by decide +kernel
theorem passover_table : TableOf Israel.passover passoverDay := by decide +kernel
theorem indep_table : TableOf Israel.independenceDay indepCoded := by decide +kernel
theorem shavuot_table : TableOf Israel.shavuot shavuotDay := by decide +kernel
theorem fast_table : TableOf Israel.fastDay avFast := by decide +kernel
theorem rosh_table : TableOf Israel.newYear roshCoded := by decide +kernel

theorem shiftIn_mid {r : Int → Int} {a b k : Int} (ha : ShiftIn r a) (hb : ShiftIn r b) (h1 : a ≤ k)
    (h2 : k ≤ b) : ShiftIn r k := by
  intro i hi
  have h3 := ha i hi
  have h4 := hb i hi
  have h5 := yearOf_mono (show r (2000 + (i : Nat)) + a ≤ r (2000 + (i : Nat)) + k by omega)
  have h6 := yearOf_mono (show r (2000 + (i : Nat)) + k ≤ r (2000 + (i : Nat)) + b by omega)
  omega

theorem purim_shift {k : Int} (h1 : -1 ≤ k) (h2 : k ≤ 21) : ShiftIn purimDay k :=
  shiftIn_mid (a := -1) (b := 21) (by decide +kernel) (by decide +kernel) h1 h2
theorem passover_shift {k : Int} (h1 : -1 ≤ k) (h2 : k ≤ 21) : ShiftIn passoverDay k :=
  shiftIn_mid (a := -1) (b := 21) (by decide +kernel) (by decide +kernel) h1 h2
theorem indep_shift {k : Int} (h1 : -1 ≤ k) (h2 : k ≤ 21) : ShiftIn indepCoded k :=
  shiftIn_mid (a := -1) (b := 21) (by decide +kernel) (by decide +kernel) h1 h2
theorem shavuot_shift {k : Int} (h1 : -1 ≤ k) (h2 : k ≤ 21) : ShiftIn shavuotDay k :=
  shiftIn_mid (a := -1) (b := 21) (by decide +kernel) (by decide +kernel) h1 h2
theorem fast_shift {k : Int} (h1 : -1 ≤ k) (h2 : k ≤ 21) : ShiftIn avFast k :=
  shiftIn_mid (a := -1) (b := 21) (by decide +kernel) (by decide +kernel) h1 h2
theorem rosh_shift {k : Int} (h1 : -1 ≤ k) (h2 : k ≤ 21) : ShiftIn roshCoded k :=
  shiftIn_mid (a := -1) (b := 21) (by decide +kernel) (by decide +kernel) h1 h2

/-- Years 2000 to 2050. -/
def Tabled (d : Int) : Prop := 2000 ≤ yearOf d ∧ yearOf d ≤ 2050

theorem telAvivHoliday_iff (d : Int) : Israel.telAvivHoliday d = true ↔
    Tabled d ∧ d ∈ telAvivHolidays roshCoded indepCoded (yearOf d) := by
  simp only [Israel.telAvivHoliday, Bool.or_eq_true, Bool.and_eq_true, decide_eq_true_eq,
    named_zero purim_table (purim_shift (by decide) (by decide)) d,
    named_before passover_table (passover_shift (by decide) (by decide)) d,
    named_zero passover_table (passover_shift (by decide) (by decide)) d,
    named_iff passover_table 5 (passover_shift (by decide) (by decide)) d,
    named_iff passover_table 6 (passover_shift (by decide) (by decide)) d,
    named_before indep_table (indep_shift (by decide) (by decide)) d,
    named_zero indep_table (indep_shift (by decide) (by decide)) d,
    named_before shavuot_table (shavuot_shift (by decide) (by decide)) d,
    named_zero shavuot_table (shavuot_shift (by decide) (by decide)) d,
    named_zero fast_table (fast_shift (by decide) (by decide)) d,
    named_before rosh_table (rosh_shift (by decide) (by decide)) d,
    named_zero rosh_table (rosh_shift (by decide) (by decide)) d,
    named_iff rosh_table 1 (rosh_shift (by decide) (by decide)) d,
    named_iff rosh_table 8 (rosh_shift (by decide) (by decide)) d,
    named_iff rosh_table 9 (rosh_shift (by decide) (by decide)) d,
    named_iff rosh_table 13 (rosh_shift (by decide) (by decide)) d,
    named_iff rosh_table 14 (rosh_shift (by decide) (by decide)) d,
    named_iff rosh_table 20 (rosh_shift (by decide) (by decide)) d,
    named_iff rosh_table 21 (rosh_shift (by decide) (by decide)) d,
    telAvivHolidays, List.mem_append, mem_provided, List.mem_cons, List.not_mem_nil, or_false]
  unfold Tabled
  by_cases hT : 2000 ≤ yearOf d ∧ yearOf d ≤ 2050
  · simp only [hT, true_and, and_self, or_assoc]
  · simp only [hT, false_and, and_false, or_self]

/-- The Hebrew part of the SHIR holidays. -/
def shirHebrew (rosh indep : Int → Int) (y : Int) : List Int :=
  [purimDay y, purimDay y + 1, passoverDay y - 1, passoverDay y, passoverDay y + 6, indep y,
   shavuotDay y, avFast y, rosh y - 1, rosh y, rosh y + 1, rosh y + 8, rosh y + 9, rosh y + 14,
   rosh y + 21]

/-- The other part. -/
def shirForeign (y : Int) : List Int :=
  provided (y = 2024) [ymd y 2 27] ++ [ymd y 1 1, easterSunday y - 2] ++
  provided (y ≠ 2022) [onOrAfter .mon (ymd y 5 25)] ++ provided (y = 2022) [ymd y 6 3] ++
  [ymd y 12 25, ymd y 12 26] ++ provided (y = 2022) [ymd y 11 1] ++
  provided (y = 2023) [ymd y 1 2] ++ provided (y = 2023) [ymd y 4 10]

theorem shirHolidays_eq (rosh indep : Int → Int) (y : Int) :
    shirHolidays rosh indep y = shirHebrew rosh indep y ++ shirForeign y := by
  simp only [shirHolidays, shirHebrew, shirForeign, List.append_assoc]

theorem shirHoliday_iff (d em : Int) (hd1 : dayOf d ≤ 31) (hd2 : 1 ≤ dayOf d)
    (he : easterSunday (yearOf d) = d - ordinal d + em - 1) : Israel.shirHoliday d em = true ↔
    (Tabled d ∧ d ∈ shirHebrew roshCoded indepCoded (yearOf d)) ∨ d ∈ shirForeign (yearOf d) := by
  have e1 := eq_ymd (z := d) (m := 2) (k := 27) (by decide)
  have e2 := eq_ymd (z := d) (m := 1) (k := 1) (by decide)
  have e3 := eq_ymd (z := d) (m := 6) (k := 3) (by decide)
  have e4 := eq_ymd (z := d) (m := 12) (k := 25) (by decide)
  have e5 := eq_ymd (z := d) (m := 12) (k := 26) (by decide)
  have e6 := eq_ymd (z := d) (m := 11) (k := 1) (by decide)
  have e7 := eq_ymd (z := d) (m := 1) (k := 2) (by decide)
  have e8 := eq_ymd (z := d) (m := 4) (k := 10) (by decide)
  have e9 := eq_onOrAfter (z := d) (m := 5) (k := 25) .mon (by decide) (by decide)
  have e10 := eq_easter_sub (j := 2) he
  simp only [Israel.shirHoliday, info, Bool.or_eq_true, Bool.and_eq_true, decide_eq_true_eq, beq_iff_eq,
    Bool.not_eq_true', beq_eq_false_iff_ne,
    named_zero purim_table (purim_shift (by decide) (by decide)) d,
    named_iff purim_table 1 (purim_shift (by decide) (by decide)) d,
    named_before passover_table (passover_shift (by decide) (by decide)) d,
    named_zero passover_table (passover_shift (by decide) (by decide)) d,
    named_iff passover_table 6 (passover_shift (by decide) (by decide)) d,
    named_zero indep_table (indep_shift (by decide) (by decide)) d,
    named_zero shavuot_table (shavuot_shift (by decide) (by decide)) d,
    named_zero fast_table (fast_shift (by decide) (by decide)) d,
    named_before rosh_table (rosh_shift (by decide) (by decide)) d,
    named_zero rosh_table (rosh_shift (by decide) (by decide)) d,
    named_iff rosh_table 1 (rosh_shift (by decide) (by decide)) d,
    named_iff rosh_table 8 (rosh_shift (by decide) (by decide)) d,
    named_iff rosh_table 9 (rosh_shift (by decide) (by decide)) d,
    named_iff rosh_table 14 (rosh_shift (by decide) (by decide)) d,
    named_iff rosh_table 21 (rosh_shift (by decide) (by decide)) d,
    shirHebrew, shirForeign, List.mem_append, mem_provided, List.mem_cons, List.not_mem_nil, or_false,
    e1, e2, e3, e4, e5, e6, e7, e8, e9, e10, Int.reduceAdd]
  change _ ↔ ((2000 ≤ yearOf d ∧ yearOf d ≤ 2050) ∧ _) ∨ _
  have : (25 ≤ dayOf d ∧ dayOf d ≤ 31 ∧ weekdayOf d = .mon ∧ monthOf d = 5) ↔
    (25 ≤ dayOf d ∧ weekdayOf d = .mon ∧ monthOf d = 5) := by
    constructor
    · rintro ⟨a, b, c⟩; exact ⟨a, c⟩
    · rintro ⟨a, c⟩; exact ⟨a, hd1, c⟩
  rw [this]
  by_cases hT : 2000 ≤ yearOf d ∧ yearOf d ≤ 2050
  · simp only [hT, true_and, and_self, or_assoc]
    clear * -
    repeat' refine or_congr Iff.rfl ?_
    repeat' refine or_congr ?_ ?_
    all_goals grind
  · simp only [hT, false_and, false_or, or_self, or_assoc]
    clear * -
    repeat' refine or_congr ?_ ?_
    all_goals grind

end Verif
