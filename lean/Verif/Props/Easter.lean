import Verif.Model.Easter
import Verif.Spec.Easter
import Verif.Lemmas.Date

/-! # C13: the Easter tables -/

namespace Verif
open Outcome

variable {y : Int}

/-- All 299 entries of both tables against the computus. -/
theorem easter_tables_checked : ∀ k : Fin 299,
    easterMonday (1901 + (k : Nat)) =
      .ok (easterSunday (1901 + (k : Nat)) + 1 - yearStart (1901 + (k : Nat))) ∧
    orthodoxEasterMonday (1901 + (k : Nat)) =
      .ok (orthodoxEasterSunday (1901 + (k : Nat)) + 1 - yearStart (1901 + (k : Nat))) ∧
    yearOf (easterSunday (1901 + (k : Nat)) + 1) = 1901 + (k : Nat) ∧
    yearOf (orthodoxEasterSunday (1901 + (k : Nat)) + 1) = 1901 + (k : Nat) := by
  decide +kernel

theorem table_year (h1 : 1901 ≤ y) (h2 : y ≤ 2199) : ∃ k : Fin 299, y = 1901 + (k : Nat) :=
  ⟨⟨(y - 1901).toNat, by omega⟩, by simp only; omega⟩

/-- The Western table: for every year 1901-2199 the entry is the ordinal day of the
Monday after Easter Sunday of the Gregorian computus. -/
theorem C13_western (h1 : 1901 ≤ y) (h2 : y ≤ 2199) :
    easterMonday y = .ok (ordinal (easterSunday y + 1)) ∧ yearOf (easterSunday y + 1) = y ∧
    weekdayOf (easterSunday y + 1) = .mon := by
  obtain ⟨k, rfl⟩ := table_year h1 h2
  obtain ⟨e1, -, e3, -⟩ := easter_tables_checked k
  refine ⟨?_, e3, ?_⟩
  · rw [e1]; unfold ordinal; rw [e3]
  · apply weekday_num_inj
    rw [weekday_num]
    simp only [Weekday.num, easterSunday, sundayAfter]
    omega

/-- The Orthodox table, against the Julian computus. -/
theorem C13_orthodox (h1 : 1901 ≤ y) (h2 : y ≤ 2199) :
    orthodoxEasterMonday y = .ok (ordinal (orthodoxEasterSunday y + 1)) ∧
    yearOf (orthodoxEasterSunday y + 1) = y ∧ weekdayOf (orthodoxEasterSunday y + 1) = .mon := by
  obtain ⟨k, rfl⟩ := table_year h1 h2
  obtain ⟨-, e2, -, e4⟩ := easter_tables_checked k
  refine ⟨?_, e4, ?_⟩
  · rw [e2]; unfold ordinal; rw [e4]
  · apply weekday_num_inj
    rw [weekday_num]
    simp only [Weekday.num, orthodoxEasterSunday, sundayAfter]
    omega

/-- Outside 1901-2199 both lookups panic. -/
theorem C13_outside (h : y < 1901 ∨ 2199 < y) :
    easterMonday y = .panic ∧ orthodoxEasterMonday y = .panic := by
  unfold easterMonday orthodoxEasterMonday tableLookup
  rcases h with h | h
  · simp [h]
  · have hl1 : easterTable.length = 299 := by decide +kernel
    have hl2 : orthodoxTable.length = 299 := by decide +kernel
    rw [if_neg (by omega), if_neg (by omega), List.getElem?_eq_none (by omega),
      List.getElem?_eq_none (by omega)]
    simp [unwrap]

/-- Gregorian Easter falls between 22 March and 25 April, for every year
whatsoever. -/
theorem C13_western_range (y : Int) :
    ymd y 3 22 ≤ easterSunday y ∧ easterSunday y ≤ ymd y 4 25 := by
  unfold easterSunday sundayAfter paschalMoon
  have hl := leap_cases y
  have h : ymd y 3 22 = ymd y 4 19 - 28 := by simp [ymd, monthStart]; omega
  have h' : ymd y 4 25 = ymd y 4 19 + 6 := by simp [ymd]; omega
  rw [h, h']
  simp only
  set e := (14 + 11 * (y % 19) - 3 * (y / 100 + 1) / 4 + (5 + 8 * (y / 100 + 1)) / 25) % 30 with he
  have he0 : 0 ≤ e ∧ e < 30 := by omega
  split <;> omega

/-- Easter 2024: Sunday 31 March (Western), 5 May (Orthodox). -/
example : easterSunday 2024 = ymd 2024 3 31 ∧ orthodoxEasterSunday 2024 = ymd 2024 5 5 ∧
    easterMonday 2024 = .ok (ordinal (ymd 2024 4 1)) := by
  decide +kernel

end Verif
