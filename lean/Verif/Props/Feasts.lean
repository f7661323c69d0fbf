import Verif.Lemmas.Feasts
import Verif.Props.HolidaysEurope
import Verif.Lemmas.CalWindow
import Verif.Model.Cal.China
import Verif.Model.Cal.HongKong
import Verif.Model.Cal.Taiwan
import Verif.Model.Cal.Singapore
import Verif.Model.Cal.SouthKorea
import Verif.Model.Cal.Indonesia
import Verif.Model.Cal.Turkey

/-! # C79: feasts kept in tables -/

namespace Verif
open Outcome

/-! ### Israel -/

/-- Tel Aviv as coded, 2000 to 2050.  Missing: the new year of 2001 and the independence day of
2038, which are tabled a day early. -/
theorem C79_telAviv_partial :
    ClosedOn (israel (some .telAviv)) 2000 2050 (telAvivHolidays roshCoded indepCoded) := by
  intro d h1 h2
  have hs := yearOf_spec d
  have h3 := yearStart_mono h1
  have h4 := yearStart_mono (show yearOf d + 1 ≤ 2051 by omega)
  have e1 : yearStart 2000 = 730119 := by decide
  have e2 : yearStart 2051 = 748747 := by decide
  have e3 : minDay = -95746129 := by decide
  have e4 : maxDay = 95745399 := by decide
  change ∃ b, telAviv d = .ok b ∧ _
  unfold telAviv
  by_cases hw : isWeekend d = true
  · refine ⟨false, by rw [if_pos hw], ?_⟩
    have : SatSun d := weekend_iff.1 (by rw [isWeekend_eq]; exact hw)
    simp [this]
  · rw [if_neg hw, if_neg (by omega)]
    refine ⟨_, rfl, ?_⟩
    have hd : ¬ SatSun d := fun h => hw (by rw [← isWeekend_eq]; exact weekend_iff.2 h)
    have := telAvivHoliday_iff d
    simp only [Tabled, h1, h2, and_self, true_and] at this
    rw [Bool.not_eq_true', ← this]
    simp [hd]

example : ymd 2024 4 23 ∈ telAvivHolidays roshCoded indepCoded 2024 ∧
    israel (some .telAviv) (ymd 2024 4 23) = .ok false ∧
    israel (some .telAviv) (ymd 2024 4 24) = .ok true := by decide +kernel

theorem closedOn_congr {c : Cal} {lo hi lo' hi' : Int} {f g : Int → List Int} (h : ClosedOn c lo hi f)
    (h1 : lo ≤ lo') (h2 : hi' ≤ hi) (e : ∀ y, lo' ≤ y → y ≤ hi' → f y = g y) : ClosedOn c lo' hi' g := by
  intro d h3 h4
  obtain ⟨b, hb, hi⟩ := h d (by omega) (by omega)
  exact ⟨b, hb, by rw [← e _ h3 h4]; exact hi⟩

/-- Tel Aviv follows the Hebrew calendar from 2002 to 2037 and from 2039 to 2050. -/
theorem C79_telAviv :
    ClosedOn (israel (some .telAviv)) 2002 2037 (telAvivHolidays roshHashanah independenceDayIsrael) ∧
    ClosedOn (israel (some .telAviv)) 2039 2050 (telAvivHolidays roshHashanah independenceDayIsrael) := by
  constructor <;> refine closedOn_congr C79_telAviv_partial (by omega) (by omega) fun y h1 h2 => ?_ <;>
    · have e1 : roshCoded y = roshHashanah y := if_neg (by omega)
      have e2 : indepCoded y = independenceDayIsrael y := if_neg (by omega)
      simp only [telAvivHolidays, e1, e2]

/-- In 2024 Passover begins on 23 April, Rosh Hashanah on 3 October. -/
example : passoverDay 2024 = ymd 2024 4 23 ∧ roshHashanah 2024 = ymd 2024 10 3 ∧
    purimDay 2024 = ymd 2024 3 24 ∧ shavuotDay 2024 = ymd 2024 6 12 ∧ avFast 2024 = ymd 2024 8 13 ∧
    independenceDayIsrael 2024 = ymd 2024 5 14 := by decide +kernel

/-- It does not in 2001: the second day of the new year, 19 September, is open. -/
theorem C79_telAviv_2001_false :
    ¬ ClosedOn (israel (some .telAviv)) 2000 2037 (telAvivHolidays roshHashanah independenceDayIsrael) :=
  not_closedOn (ymd 2001 9 19) (by decide +kernel) (by decide +kernel)

/-- It does not in 2038: independence day, 11 May, is open. -/
theorem C79_telAviv_2038_false :
    ¬ ClosedOn (israel (some .telAviv)) 2002 2050 (telAvivHolidays roshHashanah independenceDayIsrael) :=
  not_closedOn (ymd 2038 5 11) (by decide +kernel) (by decide +kernel)

/-- The SHIR calendar as coded, 2000 to 2050.  Missing: 2001 and 2038, as for Tel Aviv. -/
theorem C79_shir_partial :
    ClosedOn (israel (some .shir)) 2000 2050 (shirHolidays roshCoded indepCoded) := by
  intro d h1 h2
  obtain ⟨e1, -, -⟩ := C13_western (y := yearOf d) (by omega) (by omega)
  change ∃ b, shir d = .ok b ∧ _
  unfold shir
  rw [e1, ok_bind]
  by_cases hw : isWeekend d = true
  · refine ⟨false, by rw [if_pos hw], ?_⟩
    have : SatSun d := weekend_iff.1 (by rw [isWeekend_eq]; exact hw)
    simp [this]
  · rw [if_neg hw]
    refine ⟨_, rfl, ?_⟩
    have hd : ¬ SatSun d := fun h => hw (by rw [← isWeekend_eq]; exact weekend_iff.2 h)
    have h5 := dayOf_bounds d
    have h6 := monthLen_pos (yearOf d) (monthOf d)
    have := shirHoliday_iff d _ (by omega) (by omega) (easter_shift e1 (by omega) (by omega))
    simp only [Tabled, h1, h2, and_self, true_and] at this
    rw [shirHolidays_eq, List.mem_append, ← this, Bool.not_eq_true']
    simp [hd]

example : ymd 2024 5 14 ∈ shirHolidays roshCoded indepCoded 2024 ∧
    israel (some .shir) (ymd 2024 5 14) = .ok false ∧
    israel (some .shir) (ymd 2024 5 13) = .ok true := by decide +kernel

/-- The SHIR calendar follows the Hebrew calendar from 2002 to 2037 and from 2039 to 2050. -/
theorem C79_shir :
    ClosedOn (israel (some .shir)) 2002 2037 (shirHolidays roshHashanah independenceDayIsrael) ∧
    ClosedOn (israel (some .shir)) 2039 2050 (shirHolidays roshHashanah independenceDayIsrael) := by
  constructor <;> refine closedOn_congr C79_shir_partial (by omega) (by omega) fun y h1 h2 => ?_ <;>
    · have e1 : roshCoded y = roshHashanah y := if_neg (by omega)
      have e2 : indepCoded y = independenceDayIsrael y := if_neg (by omega)
      simp only [shirHolidays, e1, e2]

/-- The second day of Purim in 2024. -/
example : ymd 2024 3 25 ∈ shirHolidays roshHashanah independenceDayIsrael 2024 ∧
    israel (some .shir) (ymd 2024 3 25) = .ok false ∧ israel (some .shir) (ymd 2024 3 26) = .ok true := by
  decide +kernel

/-- Not in 2001 and not in 2038. -/
theorem C79_shir_false :
    ¬ ClosedOn (israel (some .shir)) 2000 2037 (shirHolidays roshHashanah independenceDayIsrael) ∧
    ¬ ClosedOn (israel (some .shir)) 2002 2050 (shirHolidays roshHashanah independenceDayIsrael) :=
  ⟨not_closedOn (ymd 2001 9 19) (by decide +kernel) (by decide +kernel),
   not_closedOn (ymd 2038 5 11) (by decide +kernel) (by decide +kernel)⟩

/-- Every calendar of Israel is closed on Saturdays and Sundays; Tel Aviv trades on Sunday and not on
Friday, and that is not what is coded: Friday 14 June 2024 is open and Sunday 16 June is closed. -/
theorem C79_telAviv_weekend_false :
    ¬ ∀ d, (d % 7 = 5 ∨ d % 7 = 6) → israel (some .telAviv) d = .ok false := by
  intro h
  have h1 := h (ymd 2024 6 14) (by decide)
  have h2 : israel (some .telAviv) (ymd 2024 6 14) = .ok true := by decide +kernel
  rw [h2] at h1
  cases h1

/-! ### Turkey, Indonesia, Singapore: the Islamic feasts -/

/-- Decidable form of `ClosedRun`. -/
theorem closedRun_of {c : Cal} {a : Int} {n : Nat} (h : ((List.range n).all fun k => c (a + (k : Nat)) == .ok false) = true) :
    ClosedRun c a n := by
  intro k hk
  have := List.all_eq_true.1 h k (List.mem_range.2 hk)
  exact beq_iff_eq.1 this

/-- One of three neighbouring days. -/
theorem near_of {p : Int → Prop} {q : Int → Bool} {x : Int} (hq : ∀ y, q y = true → p y)
    (h : (q (x - 1) || q x || q (x + 1)) = true) : ∃ a, x - 1 ≤ a ∧ a ≤ x + 1 ∧ p a := by
  simp only [Bool.or_eq_true] at h
  rcases h with (h | h) | h
  · exact ⟨x - 1, by omega, by omega, hq _ h⟩
  · exact ⟨x, by omega, by omega, hq _ h⟩
  · exact ⟨x + 1, by omega, by omega, hq _ h⟩

/-- One of four neighbouring days. -/
theorem near_of_two {p : Int → Prop} {q : Int → Bool} {x : Int} (hq : ∀ y, q y = true → p y)
    (h : (q (x - 2) || q (x - 1) || q x || q (x + 1)) = true) : ∃ a, x - 2 ≤ a ∧ a ≤ x + 1 ∧ p a := by
  simp only [Bool.or_eq_true] at h
  rcases h with ((h | h) | h) | h
  · exact ⟨x - 2, by omega, by omega, hq _ h⟩
  · exact ⟨x - 1, by omega, by omega, hq _ h⟩
  · exact ⟨x, by omega, by omega, hq _ h⟩
  · exact ⟨x + 1, by omega, by omega, hq _ h⟩

theorem islamic_year_range {x : Int} (h1 : 2004 ≤ yearOf x) (h2 : yearOf x ≤ 2034) : 731580 < x ∧ x ≤ 742903 := by
  have hs := yearOf_spec x
  have h3 := yearStart_mono h1
  have h4 := yearStart_mono (show yearOf x + 1 ≤ 2035 by omega)
  have e1 : yearStart 2004 = 731580 := by decide
  have e2 : yearStart 2035 = 742903 := by decide
  omega

/-- A decidable statement about the Islamic years whose feast falls in 2004 to 2034. -/
theorem islamic_lift {f : Int → Int} (hf : f = ramadanFeast ∨ f = sacrificeFeast) {p : Int → Prop} {q : Int → Bool}
    (hq : ∀ h, q h = true → p h)
    (hall : ((List.range 40).all fun (i : Nat) => !(decide (2004 ≤ yearOf (f (1420 + i))) && decide (yearOf (f (1420 + i)) ≤ 2034)) || q (1420 + i)) = true)
    (h : Int) (h1 : 2004 ≤ yearOf (f h)) (h2 : yearOf (f h) ≤ 2034) : p h := by
  have hr := islamic_year_range h1 h2
  have hb : 1420 ≤ h ∧ h < 1460 := by
    rcases hf with rfl | rfl
    · unfold ramadanFeast islamicDay at hr; omega
    · unfold sacrificeFeast islamicDay at hr; omega
  have := List.all_eq_true.1 hall (h - 1420).toNat (List.mem_range.2 (by omega))
  have e : (1420 : Int) + ((h - 1420).toNat : Int) = h := by omega
  rw [e] at this
  refine hq h ?_
  simpa [h1, h2] using this

/-- Turkey is closed for three days from a day near 1 Shawwal (the tabular
calendar is up to two days late), 2004 to 2034 except 2011. -/
theorem C79_turkey_ramadan (h : Int) (h1 : 2004 ≤ yearOf (ramadanFeast h)) (h2 : yearOf (ramadanFeast h) ≤ 2034)
    (h3 : yearOf (ramadanFeast h) ≠ 2011) :
    ∃ a, ramadanFeast h - 2 ≤ a ∧ a ≤ ramadanFeast h + 1 ∧ ClosedRun turkey a 3 := by
  refine islamic_lift (f := ramadanFeast) (.inl rfl)
    (p := fun h => yearOf (ramadanFeast h) ≠ 2011 → ∃ a, ramadanFeast h - 2 ≤ a ∧ a ≤ ramadanFeast h + 1 ∧ ClosedRun turkey a 3)
    (q := fun h => decide (yearOf (ramadanFeast h) = 2011) ||
      (let q := fun (a : Int) => (List.range 3).all fun (k : Nat) => turkey (a + k) == .ok false
       q (ramadanFeast h - 2) || q (ramadanFeast h - 1) || q (ramadanFeast h) || q (ramadanFeast h + 1)))
    ?_ (by decide +kernel) h h1 h2 h3
  intro h hq hne
  refine near_of_two (q := fun (a : Int) => (List.range 3).all fun (k : Nat) => turkey (a + k) == .ok false)
    (fun y hy => closedRun_of hy) ?_
  simpa [hne] using hq

/-- 1 Shawwal 1445 is 10 April 2024. -/
example : ramadanFeast 1445 = ymd 2024 4 10 ∧ turkey (ymd 2024 4 10) = .ok false ∧
    turkey (ymd 2024 4 15) = .ok true := by decide +kernel

/-- Turkey is closed for four days from a day next to 10 Dhu al-Hijja, 2004 to 2034 except 2011 and 2015. -/
theorem C79_turkey_sacrifice (h : Int) (h1 : 2004 ≤ yearOf (sacrificeFeast h)) (h2 : yearOf (sacrificeFeast h) ≤ 2034)
    (h3 : yearOf (sacrificeFeast h) ≠ 2011) (h4 : yearOf (sacrificeFeast h) ≠ 2015) :
    ∃ a, sacrificeFeast h - 1 ≤ a ∧ a ≤ sacrificeFeast h + 1 ∧ ClosedRun turkey a 4 := by
  refine islamic_lift (f := sacrificeFeast) (.inr rfl)
    (p := fun h => yearOf (sacrificeFeast h) ≠ 2011 → yearOf (sacrificeFeast h) ≠ 2015 →
      ∃ a, sacrificeFeast h - 1 ≤ a ∧ a ≤ sacrificeFeast h + 1 ∧ ClosedRun turkey a 4)
    (q := fun h => decide (yearOf (sacrificeFeast h) = 2011) || decide (yearOf (sacrificeFeast h) = 2015) ||
      (let q := fun (a : Int) => (List.range 4).all fun (k : Nat) => turkey (a + k) == .ok false
       q (sacrificeFeast h - 1) || q (sacrificeFeast h) || q (sacrificeFeast h + 1)))
    ?_ (by decide +kernel) h h1 h2 h3 h4
  intro h hq hne hne'
  refine near_of (q := fun (a : Int) => (List.range 4).all fun (k : Nat) => turkey (a + k) == .ok false)
    (fun y hy => closedRun_of hy) ?_
  simpa [hne, hne'] using hq

example : sacrificeFeast 1445 = ymd 2024 6 17 ∧ turkey (ymd 2024 6 17) = .ok false ∧
    turkey (ymd 2024 6 20) = .ok true := by decide +kernel

/-- In 2011 the Turkish table has the feast of Ramadan on 1 October, a month late: 30 August to
1 September are open. -/
theorem C79_turkey_2011_false : ¬ ∀ h, 2004 ≤ yearOf (ramadanFeast h) → yearOf (ramadanFeast h) ≤ 2034 →
    ∃ a, ramadanFeast h - 2 ≤ a ∧ a ≤ ramadanFeast h + 1 ∧ ClosedRun turkey a 3 := by
  intro h
  obtain ⟨a, h1, h2, h3⟩ := h 1432 (by decide +kernel) (by decide +kernel)
  have e : ramadanFeast 1432 = ymd 2011 8 31 := by decide +kernel
  have k1 : turkey (ymd 2011 8 31) = .ok true := by decide +kernel
  have k2 : turkey (ymd 2011 9 1) = .ok true := by decide +kernel
  have e' : ymd 2011 9 1 = ymd 2011 8 31 + 1 := by decide
  rw [e] at h1 h2
  rw [e'] at k2
  rcases (show a = ymd 2011 8 31 - 2 ∨ a = ymd 2011 8 31 - 1 ∨ a = ymd 2011 8 31 ∨ a = ymd 2011 8 31 + 1 by omega) with rfl | rfl | rfl | rfl
  · have := h3 2 (by omega)
    rw [show ymd 2011 8 31 - 2 + ((2 : Nat) : Int) = ymd 2011 8 31 by omega, k1] at this
    cases this
  · have := h3 1 (by omega)
    rw [show ymd 2011 8 31 - 1 + ((1 : Nat) : Int) = ymd 2011 8 31 by omega, k1] at this
    cases this
  · have := h3 0 (by omega)
    rw [show ymd 2011 8 31 + ((0 : Nat) : Int) = ymd 2011 8 31 by omega, k1] at this
    cases this
  · have := h3 0 (by omega)
    rw [show ymd 2011 8 31 + 1 + ((0 : Nat) : Int) = ymd 2011 8 31 + 1 by omega, k2] at this
    cases this

/-- In 2015 it has the feast of the sacrifice from 24 to 27 October, a month late: 24 and 25
September are open. -/
theorem C79_turkey_2015_false : ¬ ∀ h, 2004 ≤ yearOf (sacrificeFeast h) → yearOf (sacrificeFeast h) ≤ 2034 →
    yearOf (sacrificeFeast h) ≠ 2011 →
    ∃ a, sacrificeFeast h - 1 ≤ a ∧ a ≤ sacrificeFeast h + 1 ∧ ClosedRun turkey a 4 := by
  intro h
  obtain ⟨a, h1, h2, h3⟩ := h 1436 (by decide +kernel) (by decide +kernel) (by decide +kernel)
  have e : sacrificeFeast 1436 = ymd 2015 9 24 := by decide +kernel
  have k2 : turkey (ymd 2015 9 25) = .ok true := by decide +kernel
  have e' : ymd 2015 9 25 = ymd 2015 9 24 + 1 := by decide
  rw [e] at h1 h2
  rw [e'] at k2
  have := h3 (ymd 2015 9 24 + 1 - a).toNat (by omega)
  rw [show a + ((ymd 2015 9 24 + 1 - a).toNat : Int) = ymd 2015 9 24 + 1 by omega, k2] at this
  cases this

/-- Indonesia is closed on a day next to both feasts, 2005 to 2014. -/
theorem C79_indonesia (h : Int) (f : Int → Int) (hf : f = ramadanFeast ∨ f = sacrificeFeast)
    (h1 : 2005 ≤ yearOf (f h)) (h2 : yearOf (f h) ≤ 2014) :
    ∃ a, f h - 1 ≤ a ∧ a ≤ f h + 1 ∧ indonesia a = .ok false := by
  have key : ∀ f : Int → Int, (f = ramadanFeast ∨ f = sacrificeFeast) →
      ((List.range 40).all fun (i : Nat) => !(decide (2004 ≤ yearOf (f (1420 + i))) && decide (yearOf (f (1420 + i)) ≤ 2034)) ||
        (!(decide (2005 ≤ yearOf (f (1420 + i))) && decide (yearOf (f (1420 + i)) ≤ 2014)) ||
          (indonesia (f (1420 + i) - 1) == .ok false || indonesia (f (1420 + i)) == .ok false || indonesia (f (1420 + i) + 1) == .ok false))) = true := by
    rintro f (rfl | rfl) <;> decide +kernel
  refine islamic_lift hf
    (p := fun h => 2005 ≤ yearOf (f h) → yearOf (f h) ≤ 2014 → ∃ a, f h - 1 ≤ a ∧ a ≤ f h + 1 ∧ indonesia a = .ok false)
    (q := fun h => !(decide (2005 ≤ yearOf (f h)) && decide (yearOf (f h) ≤ 2014)) ||
      (indonesia (f h - 1) == .ok false || indonesia (f h) == .ok false || indonesia (f h + 1) == .ok false))
    ?_ (key f hf) h (by omega) (by omega) h1 h2
  intro h hq k1 k2
  refine near_of (q := fun a => indonesia a == .ok false) (fun y hy => beq_iff_eq.1 hy) ?_
  simpa [k1, k2] using hq

example : sacrificeFeast 1434 = ymd 2013 10 15 ∧ indonesia (ymd 2013 10 15) = .ok false ∧
    indonesia (ymd 2013 10 16) = .ok true := by decide +kernel

/-- Singapore is closed on a day next to both feasts, 2004 to 2026 except 2011 and 2015 to 2018. -/
theorem C79_singapore_islamic (h : Int) (f : Int → Int) (hf : f = ramadanFeast ∨ f = sacrificeFeast)
    (h1 : 2004 ≤ yearOf (f h)) (h2 : yearOf (f h) ≤ 2026) (h3 : yearOf (f h) ≠ 2011)
    (h4 : yearOf (f h) < 2015 ∨ 2018 < yearOf (f h)) :
    ∃ a, f h - 1 ≤ a ∧ a ≤ f h + 1 ∧ singapore a = .ok false := by
  have key : ∀ f : Int → Int, (f = ramadanFeast ∨ f = sacrificeFeast) →
      ((List.range 40).all fun (i : Nat) => !(decide (2004 ≤ yearOf (f (1420 + i))) && decide (yearOf (f (1420 + i)) ≤ 2034)) ||
        (!(decide (yearOf (f (1420 + i)) ≤ 2026) && decide (yearOf (f (1420 + i)) ≠ 2011) &&
          decide (yearOf (f (1420 + i)) < 2015 ∨ 2018 < yearOf (f (1420 + i)))) ||
          (singapore (f (1420 + i) - 1) == .ok false || singapore (f (1420 + i)) == .ok false || singapore (f (1420 + i) + 1) == .ok false))) = true := by
    rintro f (rfl | rfl) <;> decide +kernel
  refine islamic_lift hf
    (p := fun h => yearOf (f h) ≤ 2026 → yearOf (f h) ≠ 2011 → (yearOf (f h) < 2015 ∨ 2018 < yearOf (f h)) →
      ∃ a, f h - 1 ≤ a ∧ a ≤ f h + 1 ∧ singapore a = .ok false)
    (q := fun h => !(decide (yearOf (f h) ≤ 2026) && decide (yearOf (f h) ≠ 2011) &&
          decide (yearOf (f h) < 2015 ∨ 2018 < yearOf (f h))) ||
      (singapore (f h - 1) == .ok false || singapore (f h) == .ok false || singapore (f h + 1) == .ok false))
    ?_ (key f hf) h (by omega) (by omega) h2 h3 h4
  intro h hq k1 k2 k3
  refine near_of (q := fun a => singapore a == .ok false) (fun y hy => beq_iff_eq.1 hy) ?_
  simpa [k1, k2, k3] using hq

example : ramadanFeast 1445 = ymd 2024 4 10 ∧ singapore (ymd 2024 4 10) = .ok false ∧
    singapore (ymd 2024 4 9) = .ok true := by decide +kernel

/-- In 2011 and from 2015 to 2018 the Singapore table has no entries: 30 August to 1 September
2011 and 6 to 8 July 2016 are open. -/
theorem C79_singapore_islamic_false : ¬ ∀ h, 2004 ≤ yearOf (ramadanFeast h) → yearOf (ramadanFeast h) ≤ 2026 →
    ∃ a, ramadanFeast h - 1 ≤ a ∧ a ≤ ramadanFeast h + 1 ∧ singapore a = .ok false := by
  intro h
  obtain ⟨a, h1, h2, h3⟩ := h 1432 (by decide +kernel) (by decide +kernel)
  have e : ramadanFeast 1432 = ymd 2011 8 31 := by decide +kernel
  have k0 : singapore (ymd 2011 8 31 - 1) = .ok true := by decide +kernel
  have k1 : singapore (ymd 2011 8 31) = .ok true := by decide +kernel
  have k2 : singapore (ymd 2011 8 31 + 1) = .ok true := by decide +kernel
  rw [e] at h1 h2
  rcases (show a = ymd 2011 8 31 - 1 ∨ a = ymd 2011 8 31 ∨ a = ymd 2011 8 31 + 1 by omega) with rfl | rfl | rfl
  · rw [k0] at h3; cases h3
  · rw [k1] at h3; cases h3
  · rw [k2] at h3; cases h3

/-! ### The lunar new year -/

/-- A decidable statement about the years 2002 to 2050. -/
theorem years_lift {p : Int → Prop} {q : Int → Bool} (hq : ∀ y, q y = true → p y) (lo : Int) (n : Nat)
    (hall : ((List.range n).all fun (i : Nat) => q (lo + i)) = true) (y : Int) (h1 : lo ≤ y) (h2 : y < lo + n) : p y := by
  have := List.all_eq_true.1 hall (y - lo).toNat (List.mem_range.2 (by omega))
  have e : lo + ((y - lo).toNat : Int) = y := by omega
  rw [e] at this
  exact hq y this

/-- Mainland China is closed on the first three days of the lunar year, 2004 to 2026. -/
theorem C79_china (y : Int) (h1 : 2004 ≤ y) (h2 : y ≤ 2026) : ClosedRun china (lunarNewYear y) 3 :=
  years_lift (p := fun y => ClosedRun china (lunarNewYear y) 3)
    (q := fun y => (List.range 3).all fun (k : Nat) => china (lunarNewYear y + k) == .ok false)
    (fun _ h => closedRun_of h) 2004 23 (by decide +kernel) y h1 (by omega)

example : lunarNewYear 2024 = ymd 2024 2 10 ∧ china (ymd 2024 2 12) = .ok false ∧
    china (ymd 2024 2 19) = .ok true := by decide +kernel

/-- Hong Kong, 2004 to 2025. -/
theorem C79_hongKong (y : Int) (h1 : 2004 ≤ y) (h2 : y ≤ 2025) : ClosedRun hongKong (lunarNewYear y) 3 :=
  years_lift (p := fun y => ClosedRun hongKong (lunarNewYear y) 3)
    (q := fun y => (List.range 3).all fun (k : Nat) => hongKong (lunarNewYear y + k) == .ok false)
    (fun _ h => closedRun_of h) 2004 22 (by decide +kernel) y h1 (by omega)

/-- When one of the three days is a Sunday, the fourth day is closed too (the rule since 2012), except in
2014. -/
theorem C79_hongKong_substitute (y : Int) (h1 : 2012 ≤ y) (h2 : y ≤ 2025) (h14 : y ≠ 2014)
    (hs : ∃ k : Nat, k < 3 ∧ weekdayOf (lunarNewYear y + k) = .sun) : hongKong (lunarNewYear y + 3) = .ok false := by
  refine years_lift (p := fun y => y ≠ 2014 → (∃ k : Nat, k < 3 ∧ weekdayOf (lunarNewYear y + k) = .sun) →
      hongKong (lunarNewYear y + 3) = .ok false)
    (q := fun y => y == 2014 || (!(List.range 3).any fun (k : Nat) => weekdayOf (lunarNewYear y + k) == .sun)
      || hongKong (lunarNewYear y + 3) == .ok false) ?_ 2012 14 (by decide +kernel) y h1 (by omega) h14 hs
  rintro z hz hz14 ⟨k, hk, hw⟩
  rw [Bool.or_eq_true, Bool.or_eq_true] at hz
  rcases hz with (h | h) | h
  · exact absurd (eq_of_beq h) hz14
  · have : ((List.range 3).any fun (k : Nat) => weekdayOf (lunarNewYear z + k) == .sun) = true :=
      List.any_eq_true.2 ⟨k, List.mem_range.2 hk, by rw [hw]; rfl⟩
    rw [this] at h
    cases h
  · exact eq_of_beq h

/-- In 2014 the third day was Sunday 2 February; the table has that Sunday in place of the Monday, which
is open. -/
theorem C79_hongKong_2014_false : weekdayOf (lunarNewYear 2014 + 2) = .sun ∧
    lunarNewYear 2014 + 3 = ymd 2014 2 3 ∧ hongKong (ymd 2014 2 3) = .ok true := by decide +kernel

/-- In 2013 the year began on Sunday 10 February. -/
example : weekdayOf (lunarNewYear 2013) = .sun ∧ lunarNewYear 2013 + 3 = ymd 2013 2 13 ∧
    hongKong (ymd 2013 2 14) = .ok true := by decide +kernel

example : hongKong (ymd 2024 2 12) = .ok false ∧ hongKong (ymd 2024 2 14) = .ok true := by decide +kernel

/-- South Korea is closed on the new year by its own time, the day before and the day after, 2004 to
2050. -/
theorem C79_korea (y : Int) (h1 : 2004 ≤ y) (h2 : y ≤ 2050) : ClosedRun southKorea (seollal y - 1) 3 :=
  years_lift (p := fun y => ClosedRun southKorea (seollal y - 1) 3)
    (q := fun y => (List.range 3).all fun (k : Nat) => southKorea (seollal y - 1 + k) == .ok false)
    (fun _ h => closedRun_of h) 2004 47 (by decide +kernel) y h1 (by omega)

example : seollal 2028 = ymd 2028 1 27 ∧ southKorea (ymd 2028 1 28) = .ok false ∧
    southKorea (ymd 2028 1 31) = .ok true := by decide +kernel

/-- Taiwan is closed from the eve to the third day, 2002 to 2026 except 2010. -/
theorem C79_taiwan (y : Int) (h1 : 2002 ≤ y) (h2 : y ≤ 2026) (h3 : y ≠ 2010) :
    ClosedRun taiwan (lunarNewYear y - 1) 4 :=
  years_lift (p := fun y => y ≠ 2010 → ClosedRun taiwan (lunarNewYear y - 1) 4)
    (q := fun y => decide (y = 2010) || (List.range 4).all fun (k : Nat) => taiwan (lunarNewYear y - 1 + k) == .ok false)
    (fun y h hn => closedRun_of (by simpa [hn] using h)) 2002 25 (by decide +kernel) y h1 (by omega) h3

example : taiwan (ymd 2024 2 12) = .ok false ∧ taiwan (ymd 2024 2 20) = .ok true := by decide +kernel

/-- In 2010 the Taiwanese table has the whole feast in January instead of February: Monday 15 and
Tuesday 16 February are open, 13 to 21 January are closed. -/
theorem C79_taiwan_2010_false : ¬ ClosedRun taiwan (lunarNewYear 2010 - 1) 4 ∧
    ClosedRun taiwan (ymd 2010 1 13) 9 := by
  refine ⟨fun h => ?_, closedRun_of (by decide +kernel)⟩
  have h1 := h 2 (by omega)
  have h2 : taiwan (lunarNewYear 2010 - 1 + ((2 : Nat) : Int)) = .ok true := by decide +kernel
  rw [h2] at h1
  cases h1

/-- Singapore is closed on the first two days, 2004 to 2026 except 2010, 2011 and 2015 to 2018. -/
theorem C79_singapore (y : Int) (h1 : 2004 ≤ y) (h2 : y ≤ 2026) (h3 : y ≠ 2010 ∧ y ≠ 2011)
    (h4 : y < 2015 ∨ 2018 < y) : ClosedRun singapore (lunarNewYear y) 2 :=
  years_lift (p := fun y => y ≠ 2010 ∧ y ≠ 2011 → (y < 2015 ∨ 2018 < y) → ClosedRun singapore (lunarNewYear y) 2)
    (q := fun y => decide (y = 2010) || decide (y = 2011) || decide (2015 ≤ y ∧ y ≤ 2018) ||
      (List.range 2).all fun (k : Nat) => singapore (lunarNewYear y + k) == .ok false)
    (fun y h hn hm => closedRun_of (by
      have e : decide (2015 ≤ y ∧ y ≤ 2018) = false := decide_eq_false (by omega)
      rw [decide_eq_false hn.1, decide_eq_false hn.2, e] at h
      exact h)) 2004 23 (by decide +kernel) y h1 (by omega) h3 h4

example : singapore (ymd 2024 2 12) = .ok false ∧ lunarNewYear 2023 + 1 = ymd 2023 1 23 ∧
    singapore (ymd 2023 1 23) = .ok false ∧ singapore (ymd 2023 1 25) = .ok true := by decide +kernel

/-- The Singapore new year is open on its second day in 2010 (coded in January) and 2011, 2015,
2016 and 2018 (no entries); in 2017 the new year's weekend is not made up for. -/
theorem C79_singapore_false : ¬ ClosedRun singapore (lunarNewYear 2010) 2 ∧
    ¬ ClosedRun singapore (lunarNewYear 2011) 2 ∧ ¬ ClosedRun singapore (lunarNewYear 2015) 2 ∧
    ¬ ClosedRun singapore (lunarNewYear 2016) 2 ∧ ¬ ClosedRun singapore (lunarNewYear 2018) 2 ∧
    singapore (lunarNewYear 2017 + 2) = .ok true := by
  have key : ∀ y, (singapore (lunarNewYear y) = .ok true ∨ singapore (lunarNewYear y + 1) = .ok true) →
      ¬ ClosedRun singapore (lunarNewYear y) 2 := by
    rintro y (h | h) hc
    · have := hc 0 (by omega)
      rw [show lunarNewYear y + ((0 : Nat) : Int) = lunarNewYear y by omega, h] at this
      cases this
    · have := hc 1 (by omega)
      rw [show lunarNewYear y + ((1 : Nat) : Int) = lunarNewYear y + 1 by omega, h] at this
      cases this
  exact ⟨key _ (by decide +kernel), key _ (by decide +kernel), key _ (by decide +kernel),
    key _ (by decide +kernel), key _ (by decide +kernel), by decide +kernel⟩

end Verif
