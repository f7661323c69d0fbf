import Verif.Lemmas.Holidays
import Verif.Props.HolidaysEurope
import Verif.Model.Cal.UnitedStates
import Verif.Model.Cal.Canada
import Verif.Model.Cal.Mexico
import Verif.Model.Cal.Brazil
import Verif.Model.Cal.Argentina
import Verif.Model.Cal.SouthAfrica
import Verif.Model.Cal.Botswana
import Verif.Model.Cal.Australia
import Verif.Model.Cal.NewZealand
import Verif.Model.Cal.Japan
import Verif.Model.Cal.Chile

/-! # C58: holidays -/

namespace Verif

/-- United States, settlement. -/
theorem C58_us : ClosedOn (unitedStates (some .settlement)) (-262143) 262142 usHolidays := by
  apply closedOn_plain
  · intro t h; simp [UnitedStates.settlementIsBusinessDay, h]
  intro z hz h1 h2 hd1 hd2
  holidays UnitedStates.settlementIsBusinessDay, UnitedStates.isWashingtonBirthday, UnitedStates.isMemorialDay, UnitedStates.isLaborDay, UnitedStates.isColumbusDay, UnitedStates.isVeteransDay, UnitedStates.isVeteransDayNoSaturday, UnitedStates.isJuneteenth, washingtonBirthday, memorialDay, juneteenth, columbusDay, veteransDay, veteransDayMonday, usHolidays

example : ymd 2024 12 25 ∈ usHolidays 2024 ∧ (unitedStates (some .settlement)) (ymd 2024 12 25) = .ok false ∧
    (unitedStates (some .settlement)) (ymd 2024 12 11) = .ok true := by decide +kernel

/-- United States, NERC. -/
theorem C58_us_nerc : ClosedOn (unitedStates (some .nerc)) (-262143) 262142 usNercHolidays := by
  apply closedOn_plain
  · intro t h; simp [UnitedStates.nercIsBusinessDay, h]
  intro z hz h1 h2 hd1 hd2
  holidays UnitedStates.nercIsBusinessDay, UnitedStates.isWashingtonBirthday, UnitedStates.isMemorialDay, UnitedStates.isLaborDay, UnitedStates.isColumbusDay, UnitedStates.isVeteransDay, UnitedStates.isVeteransDayNoSaturday, UnitedStates.isJuneteenth, washingtonBirthday, memorialDay, juneteenth, columbusDay, veteransDay, veteransDayMonday, usNercHolidays

example : ymd 2024 12 25 ∈ usNercHolidays 2024 ∧ (unitedStates (some .nerc)) (ymd 2024 12 25) = .ok false ∧
    (unitedStates (some .nerc)) (ymd 2024 12 11) = .ok true := by decide +kernel

/-- Federal Reserve Banks as coded, Juneteenth moved to Friday.  Missing: the published rule, under
which no holiday is moved to Friday. -/
theorem C58_us_fed_partial : ClosedOn (unitedStates (some .federalReserve)) (-262143) 262142 usFedHolidaysCoded := by
  apply closedOn_plain
  · intro t h; simp [UnitedStates.federalReserveIsHoliday, h]
  intro z hz h1 h2 hd1 hd2
  holidays UnitedStates.federalReserveIsHoliday, UnitedStates.isWashingtonBirthday, UnitedStates.isMemorialDay, UnitedStates.isLaborDay, UnitedStates.isColumbusDay, UnitedStates.isVeteransDay, UnitedStates.isVeteransDayNoSaturday, UnitedStates.isJuneteenth, washingtonBirthday, memorialDay, juneteenth, columbusDay, veteransDay, veteransDayMonday, usFedHolidaysCoded

example : ymd 2024 12 25 ∈ usFedHolidaysCoded 2024 ∧ (unitedStates (some .federalReserve)) (ymd 2024 12 25) = .ok false ∧
    (unitedStates (some .federalReserve)) (ymd 2024 12 11) = .ok true := by decide +kernel

/-- United States, government bonds. -/
theorem C58_us_bonds : ClosedOn (unitedStates (some .governmentBond)) 1901 2199 usBondHolidays := by
  apply closedOn_easter (by decide) (by decide)
  · intro t em h; simp [UnitedStates.governmentBondIsBusinessDay, h]
  intro z em hz h1 h2 hd1 hd2 he
  holidays UnitedStates.governmentBondIsBusinessDay, UnitedStates.isWashingtonBirthday, UnitedStates.isMemorialDay, UnitedStates.isLaborDay, UnitedStates.isColumbusDay, UnitedStates.isVeteransDay, UnitedStates.isVeteransDayNoSaturday, UnitedStates.isJuneteenth, washingtonBirthday, memorialDay, juneteenth, columbusDay, veteransDay, veteransDayMonday, mem_provided_day, usBondHolidays, eq_easter_add he, eq_easter_sub he

example : ymd 2024 12 25 ∈ usBondHolidays 2024 ∧ (unitedStates (some .governmentBond)) (ymd 2024 12 25) = .ok false ∧
    (unitedStates (some .governmentBond)) (ymd 2024 12 11) = .ok true := by decide +kernel

/-- United States, SOFR. -/
theorem C58_us_sofr : ClosedOn (unitedStates (some .sofr)) 1901 2199 usSofrHolidays := by
  apply closedOn_easter (by decide) (by decide)
  · intro t em h; simp [UnitedStates.sofrIsBusinessDay, UnitedStates.governmentBondIsBusinessDay, h]
  intro z em hz h1 h2 hd1 hd2 he
  holidays UnitedStates.sofrIsBusinessDay, UnitedStates.governmentBondIsBusinessDay, UnitedStates.isWashingtonBirthday, UnitedStates.isMemorialDay, UnitedStates.isLaborDay, UnitedStates.isColumbusDay, UnitedStates.isVeteransDay, UnitedStates.isVeteransDayNoSaturday, UnitedStates.isJuneteenth, washingtonBirthday, memorialDay, juneteenth, columbusDay, veteransDay, veteransDayMonday, mem_provided_day, usBondHolidays, usSofrHolidays, eq_easter_add he, eq_easter_sub he

example : ymd 2024 12 25 ∈ usSofrHolidays 2024 ∧ (unitedStates (some .sofr)) (ymd 2024 12 25) = .ok false ∧
    (unitedStates (some .sofr)) (ymd 2024 12 11) = .ok true := by decide +kernel

/-- Toronto. -/
theorem C58_tsx : ClosedOn (canada (some .tsx)) 1901 2199 tsxHolidays := by
  apply closedOn_easter (by decide) (by decide)
  · intro t em h; simp [Canada.tsxIsBusinessDay, Canada.sharedHoliday, h]
  intro z em hz h1 h2 hd1 hd2 he
  holidays Canada.tsxIsBusinessDay, Canada.sharedHoliday, tsxHolidays, eq_easter_add he, eq_easter_sub he

example : ymd 2024 12 25 ∈ tsxHolidays 2024 ∧ (canada (some .tsx)) (ymd 2024 12 25) = .ok false ∧
    (canada (some .tsx)) (ymd 2024 12 11) = .ok true := by decide +kernel

/-- Canada, settlement. -/
theorem C58_canada : ClosedOn (canada (some .settlement)) 1901 2199 canadianHolidays := by
  apply closedOn_easter (by decide) (by decide)
  · intro t em h; simp [Canada.settlementIsBusinessDay, Canada.sharedHoliday, Canada.extraHoliday, h]
  intro z em hz h1 h2 hd1 hd2 he
  holidays Canada.settlementIsBusinessDay, Canada.sharedHoliday, Canada.extraHoliday, canadianHolidays, tsxHolidays, eq_easter_add he, eq_easter_sub he

example : ymd 2024 12 25 ∈ canadianHolidays 2024 ∧ (canada (some .settlement)) (ymd 2024 12 25) = .ok false ∧
    (canada (some .settlement)) (ymd 2024 12 11) = .ok true := by decide +kernel

/-- Mexico. -/
theorem C58_mexico : ClosedOn mexico 1901 2199 mexicanHolidays := by
  apply closedOn_easter (by decide) (by decide)
  · intro t em h; simp [Mexico.rule, h]
  intro z em hz h1 h2 hd1 hd2 he
  holidays Mexico.rule, mexicanHolidays, eq_easter_add he, eq_easter_sub he

example : ymd 2024 12 25 ∈ mexicanHolidays 2024 ∧ mexico (ymd 2024 12 25) = .ok false ∧
    mexico (ymd 2024 12 11) = .ok true := by decide +kernel

/-- Brazil, settlement. -/
theorem C58_brazil : ClosedOn (brazil (some .settlement)) 1901 2199 brazilianHolidays := by
  apply closedOn_easter (by decide) (by decide)
  · intro t em h; simp [Brazil.settlementIsBusinessDay, h]
  intro z em hz h1 h2 hd1 hd2 he
  holidays Brazil.settlementIsBusinessDay, brazilianHolidays, eq_easter_add he, eq_easter_sub he

example : ymd 2024 12 25 ∈ brazilianHolidays 2024 ∧ (brazil (some .settlement)) (ymd 2024 12 25) = .ok false ∧
    (brazil (some .settlement)) (ymd 2024 12 11) = .ok true := by decide +kernel

/-- Brazil, exchange. -/
theorem C58_bovespa : ClosedOn (brazil (some .exchange)) 1901 2199 bovespaHolidays := by
  apply closedOn_easter (by decide) (by decide)
  · intro t em h; simp [Brazil.exchangeIsBusinessDay, h]
  intro z em hz h1 h2 hd1 hd2 he
  holidays Brazil.exchangeIsBusinessDay, bovespaHolidays, eq_easter_add he, eq_easter_sub he

example : ymd 2024 12 25 ∈ bovespaHolidays 2024 ∧ (brazil (some .exchange)) (ymd 2024 12 25) = .ok false ∧
    (brazil (some .exchange)) (ymd 2024 12 11) = .ok true := by decide +kernel

/-- Argentina as coded.  Missing: Christmas Day. -/
theorem C58_argentina_partial : ClosedOn argentina 1901 2199 argentineHolidaysCoded := by
  apply closedOn_easter (by decide) (by decide)
  · intro t em h; simp [Argentina.rule, h]
  intro z em hz h1 h2 hd1 hd2 he
  holidays Argentina.rule, argentineHolidaysCoded, eq_easter_add he, eq_easter_sub he

example : ymd 2024 12 24 ∈ argentineHolidaysCoded 2024 ∧ argentina (ymd 2024 12 24) = .ok false ∧
    argentina (ymd 2024 12 11) = .ok true := by decide +kernel

/-- South Africa. -/
theorem C58_southAfrica : ClosedOn southAfrica 1901 2199 southAfricanHolidays := by
  apply closedOn_easter (by decide) (by decide)
  · intro t em h; simp [SouthAfrica.rule, h]
  intro z em hz h1 h2 hd1 hd2 he
  holidays SouthAfrica.rule, southAfricanHolidays, eq_easter_add he, eq_easter_sub he

example : ymd 2024 12 25 ∈ southAfricanHolidays 2024 ∧ southAfrica (ymd 2024 12 25) = .ok false ∧
    southAfrica (ymd 2024 12 11) = .ok true := by decide +kernel

/-- Botswana. -/
theorem C58_botswana : ClosedOn botswana 1901 2199 botswanaHolidays := by
  apply closedOn_easter (by decide) (by decide)
  · intro t em h; simp [Botswana.rule, h]
  intro z em hz h1 h2 hd1 hd2 he
  holidays Botswana.rule, botswanaHolidays, eq_easter_add he, eq_easter_sub he

example : ymd 2024 12 25 ∈ botswanaHolidays 2024 ∧ botswana (ymd 2024 12 25) = .ok false ∧
    botswana (ymd 2024 12 11) = .ok true := by decide +kernel

/-- Australian Securities Exchange. -/
theorem C58_asx : ClosedOn (australia (some .asx)) 1901 2199 asxHolidays := by
  apply closedOn_easter (by decide) (by decide)
  · intro t em h; simp [Australia.asxIsBusinessDay, Australia.sharedHoliday, h]
  intro z em hz h1 h2 hd1 hd2 he
  holidays Australia.asxIsBusinessDay, Australia.sharedHoliday, asxHolidays, eq_easter_add he, eq_easter_sub he

example : ymd 2024 12 25 ∈ asxHolidays 2024 ∧ (australia (some .asx)) (ymd 2024 12 25) = .ok false ∧
    (australia (some .asx)) (ymd 2024 12 11) = .ok true := by decide +kernel

/-- Australia, settlement. -/
theorem C58_australia : ClosedOn (australia (some .settlement)) 1901 2199 australianHolidays := by
  apply closedOn_easter (by decide) (by decide)
  · intro t em h; simp [Australia.settlementIsBusinessDay, Australia.sharedHoliday, h]
  intro z em hz h1 h2 hd1 hd2 he
  holidays Australia.settlementIsBusinessDay, Australia.sharedHoliday, Australia.extraHoliday, asxHolidays, australianHolidays, eq_easter_add he, eq_easter_sub he

example : ymd 2024 12 25 ∈ australianHolidays 2024 ∧ (australia (some .settlement)) (ymd 2024 12 25) = .ok false ∧
    (australia (some .settlement)) (ymd 2024 12 11) = .ok true := by decide +kernel

/-- Wellington. -/
theorem C58_wellington : ClosedOn (newZealand (some .wellington)) 1901 2199 wellingtonHolidays := by
  apply closedOn_easter (by decide) (by decide)
  · intro t em h; simp [NewZealand.wellingtonIsBusinessDay, NewZealand.commonIsBusinessDay, h]
  intro z em hz h1 h2 hd1 hd2 he
  holidays NewZealand.wellingtonIsBusinessDay, NewZealand.commonIsBusinessDay, newZealandHolidays, matariki, wellingtonHolidays, eq_easter_add he, eq_easter_sub he

example : ymd 2024 12 25 ∈ wellingtonHolidays 2024 ∧ (newZealand (some .wellington)) (ymd 2024 12 25) = .ok false ∧
    (newZealand (some .wellington)) (ymd 2024 12 11) = .ok true := by decide +kernel

/-- Auckland. -/
theorem C58_auckland : ClosedOn (newZealand (some .auckland)) 1901 2199 aucklandHolidays := by
  apply closedOn_easter (by decide) (by decide)
  · intro t em h; simp [NewZealand.aucklandIsBusinessDay, NewZealand.commonIsBusinessDay, h]
  intro z em hz h1 h2 hd1 hd2 he
  holidays NewZealand.aucklandIsBusinessDay, NewZealand.commonIsBusinessDay, newZealandHolidays, matariki, aucklandHolidays, eq_easter_add he, eq_easter_sub he

example : ymd 2024 12 25 ∈ aucklandHolidays 2024 ∧ (newZealand (some .auckland)) (ymd 2024 12 25) = .ok false ∧
    (newZealand (some .auckland)) (ymd 2024 12 11) = .ok true := by decide +kernel

/-- New York Stock Exchange with election day on the first Tuesday of November, as coded.  Missing:
election day is the Tuesday after the first Monday. -/
theorem C58_nyse_partial : ClosedOn (unitedStates (some .nyse)) 1901 2199 (nyseHolidays fun y => nthDay 1 .tue 11 y) := by
  apply closedOn_easter (by decide) (by decide)
  · intro t em h; simp [UnitedStates.nyseIsBusinessDay, h]
  intro z em hz h1 h2 hd1 hd2 he
  unfold nyseHolidays
  holidays UnitedStates.nyseIsBusinessDay, UnitedStates.isWashingtonBirthday, UnitedStates.isMemorialDay,
    UnitedStates.isLaborDay, UnitedStates.isJuneteenth, washingtonBirthday, memorialDay, juneteenth,
    eq_easter_add he, eq_easter_sub he

/-- New York Stock Exchange since 1981. -/
theorem C58_nyse : ClosedOn (unitedStates (some .nyse)) 1981 2199 (nyseHolidays electionDay) := by
  intro d h1 h2
  obtain ⟨b, hb, hi⟩ := C58_nyse_partial d (by omega) h2
  refine ⟨b, hb, ?_⟩
  rw [hi]
  have e : ∀ x, provided (yearOf d ≤ 1968 ∨ (yearOf d ≤ 1980 ∧ yearOf d % 4 = 0)) [x] = [] := fun x => by
    unfold provided; rw [if_neg (by omega)]
  unfold nyseHolidays
  rw [e, e]

example : unitedStates (some .nyse) (ymd 2012 10 29) = .ok false ∧ unitedStates (some .nyse) (ymd 2012 10 31) = .ok true := by
  decide +kernel

/-- On election day 1960 (8 November) the exchange is open, because the rule takes 1 November. -/
theorem C58_nyse_false : ¬ ClosedOn (unitedStates (some .nyse)) 1901 2199 (nyseHolidays electionDay) :=
  not_closedOn (ymd 1960 11 8) (by decide +kernel) (by decide +kernel)

/-- United States, LIBOR. -/
theorem C58_us_libor : ClosedOn (unitedStates (some .libor)) (-262143) 262142 usLiborHolidays := by
  intro d h1 h2
  obtain ⟨b, hb, hi⟩ := C58_us d h1 h2
  have hb' : UnitedStates.settlementIsBusinessDay (info d) = b := Outcome.ok.inj hb
  refine ⟨_, rfl, ?_⟩
  by_cases hs : SatSun d
  · have hw := weekend_iff.2 hs
    simp only [hs, not_true_eq_false, false_and, iff_false] at hi ⊢
    unfold UnitedStates.liborIsBusinessDay
    rw [hb']
    have : weekdayOf d = .mon ∨ weekdayOf d = .fri → False := by
      rintro (h | h) <;> rw [h] at hw <;> exact absurd hw (by decide)
    have h3 : (weekdayOf d == .mon) = false := by simpa using fun h => this (.inl h)
    have h4 : (weekdayOf d == .fri) = false := by simpa using fun h => this (.inr h)
    simp only [info, h3, h4, Bool.and_false, Bool.or_false, Bool.false_and, cond_false]
    exact hi
  · have hj := eq_toNearest (z := d) (m := 7) (k := 4) hs (by decide) (by decide)
    have hj' := eq_ymd (z := d) (m := 7) (k := 4) (by decide)
    simp only [hs, not_false_eq_true, true_and] at hi ⊢
    have hd := dayOf_bounds d
    have hite : (d = if yearOf d < 2015 then toNearest (ymd (yearOf d) 7 4) else ymd (yearOf d) 7 4) ↔
        (dayOf d = 4 ∨ yearOf d < 2015 ∧ ((dayOf d = 5 ∧ weekdayOf d = .mon) ∨
          (dayOf d = 3 ∧ weekdayOf d = .fri))) ∧ monthOf d = 7 := by
      split
      · rw [hj]; grind
      · rw [hj']; grind
    unfold UnitedStates.liborIsBusinessDay
    rw [hb']
    simp (discharger := first | assumption | decide) only [usHolidays, usLiborHolidays, washingtonBirthday,
      memorialDay, juneteenth, columbusDay, veteransDay, List.mem_append, mem_provided] at hi ⊢
    simp (discharger := first | assumption | decide) only [List.mem_cons, List.not_mem_nil, or_false,
      nthDay, Int.reduceMul, Int.reduceSub, Int.reduceAdd, hite, eq_onOrAfter,
      eq_toNearest, eq_newYear, eq_newYear_next] at hi ⊢
    rw [Bool.cond_eq_ite]
    split <;> rename_i hc <;>
      simp only [Bool.and_eq_true, Bool.or_eq_true, beq_iff_eq, decide_eq_true_eq] at hc <;>
      simp only [info] at hc
    · obtain ⟨⟨h5, h6⟩, h7⟩ := hc
      rw [h6]
      clear hi hj hj'
      simp only [true_iff]
      omega
    · rw [hi]
      clear hi hj hj'
      refine not_congr ?_
      repeat' refine or_congr ?_ ?_
      all_goals first | exact Iff.rfl | skip
      all_goals grind

example : unitedStates (some .libor) (ymd 2015 7 3) = .ok true ∧ unitedStates (some .settlement) (ymd 2015 7 3) = .ok false := by
  decide +kernel

/-- The Federal Reserve calendar is closed on Friday 18 June 2027, though a holiday on a Saturday is
not moved. -/
theorem C58_us_fed_false : ¬ ClosedOn (unitedStates (some .federalReserve)) 1901 2199 usFedHolidays :=
  not_closedOn (ymd 2027 6 18) (by decide +kernel) (by decide +kernel)

/-- The Argentine calendar is open on Christmas Day (2024). -/
theorem C58_argentina_false : ¬ ClosedOn argentina 1901 2199 argentineHolidays :=
  not_closedOn (ymd 2024 12 25) (by decide +kernel) (by decide +kernel)

/-- Japan with the tabulated equinoxes.  Missing: the tables follow the astronomical formula in the
years 2017-2030 only. -/
theorem C58_japan_partial : ClosedOn japan (-262143) 262142 (japaneseHolidays Japan.vernalEquinoxDay Japan.autumnalEquinoxDay) := by
  apply closedOn_plain
  · intro t h; simp [Japan.rule, h]
  intro z hz h1 h2 hd1 hd2
  have hve : Japan.vernalEquinoxDay (yearOf z) = 20 ∨ Japan.vernalEquinoxDay (yearOf z) = 21 := by
    unfold Japan.vernalEquinoxDay; generalize (_ || _) = b; cases b <;> decide
  have hae : Japan.autumnalEquinoxDay (yearOf z) = 22 ∨ Japan.autumnalEquinoxDay (yearOf z) = 23 := by
    unfold Japan.autumnalEquinoxDay; generalize (_ || _) = b; cases b <;> decide
  have hv : DayIn 3 (Japan.vernalEquinoxDay (yearOf z)) = true := by
    rcases hve with h | h <;> rw [h] <;> decide
  have hv' : DayIn 3 (Japan.vernalEquinoxDay (yearOf z) + 1) = true := by
    rcases hve with h | h <;> rw [h] <;> decide
  have ha : DayIn 9 (Japan.autumnalEquinoxDay (yearOf z)) = true := by
    rcases hae with h | h <;> rw [h] <;> decide
  have ha' : DayIn 9 (Japan.autumnalEquinoxDay (yearOf z) + 1) = true := by
    rcases hae with h | h <;> rw [h] <;> decide
  have ha1 : 20 ≤ Japan.autumnalEquinoxDay (yearOf z) := by omega
  have ha2 : Japan.autumnalEquinoxDay (yearOf z) ≤ 25 := by omega
  clear hve hae
  unfold japaneseHolidays
  holidays Japan.rule, mem_silverWeek ha1 ha2

/-- Japan in the years 2017-2030, with the equinoxes by formula. -/
theorem C58_japan : ClosedOn japan 2017 2030 (japaneseHolidays vernalEquinox autumnalEquinox) := by
  intro d h1 h2
  obtain ⟨b, hb, hi⟩ := C58_japan_partial d (by omega) (by omega)
  refine ⟨b, hb, ?_⟩
  rw [hi]
  have key : ∀ k : Fin 14, Japan.vernalEquinoxDay (2017 + (k : Nat)) = vernalEquinox (2017 + (k : Nat)) ∧
      Japan.autumnalEquinoxDay (2017 + (k : Nat)) = autumnalEquinox (2017 + (k : Nat)) := by decide +kernel
  have hk := key ⟨(yearOf d - 2017).toNat, by omega⟩
  have hy : 2017 + (((yearOf d - 2017).toNat : Nat) : Int) = yearOf d := by omega
  simp only [hy] at hk
  unfold japaneseHolidays
  rw [hk.1, hk.2]

example : japan (ymd 2026 9 22) = .ok false ∧ japan (ymd 2026 9 24) = .ok true := by decide +kernel

/-- The equinox of 2031 (21 March) is open. -/
theorem C58_japan_false : ¬ ClosedOn japan 1980 2099 (japaneseHolidays vernalEquinox autumnalEquinox) :=
  not_closedOn (ymd 2031 3 21) (by decide +kernel) (by decide +kernel)

/-- Chile, with the days of the June solstice from the table. -/
theorem C58_chile : ClosedOn chile 1901 2199 (chileanHolidays fun y => tableAt Chile.aboriginalPeopleDay (y - 2021)) := by
  apply closedOn_easter (by decide) (by decide)
  · intro t em h; simp [Chile.rule, h]
  intro z em hz h1 h2 hd1 hd2 he
  by_cases hy : 2021 ≤ yearOf z
  · have ht : ∀ k : Fin 179, DayIn 6 (tableAt Chile.aboriginalPeopleDay (k : Nat)) = true := by decide +kernel
    have hs : DayIn 6 (tableAt Chile.aboriginalPeopleDay (yearOf z - 2021)) = true := by
      have := ht ⟨(yearOf z - 2021).toNat, by omega⟩
      rwa [show ((⟨(yearOf z - 2021).toNat, by omega⟩ : Fin 179) : Nat) = (yearOf z - 2021).toNat from rfl,
        Int.toNat_of_nonneg (by omega)] at this
    holidays Chile.rule, Chile.isAboriginalPeopleDay, chileanHolidays, eq_easter_add he, eq_easter_sub he
  · generalize he2 : tableAt Chile.aboriginalPeopleDay (yearOf z - 2021) = s
    have hy' : provided (2021 ≤ yearOf z) [ymd (yearOf z) 6 s] = provided (2021 ≤ yearOf z) [ymd (yearOf z) 6 20] := by
      simp [provided, hy]
    holidays Chile.rule, Chile.isAboriginalPeopleDay, chileanHolidays, he2, hy', eq_easter_add he, eq_easter_sub he

example : chile (ymd 2024 6 20) = .ok false ∧ chile (ymd 2024 6 21) = .ok true := by decide +kernel

/-- The markets used by default. -/
theorem C58_defaults_world : unitedStates none = unitedStates (some .settlement) ∧
    canada none = canada (some .settlement) ∧ brazil none = brazil (some .settlement) ∧
    australia none = australia (some .settlement) ∧ newZealand none = newZealand (some .wellington) :=
  ⟨rfl, rfl, rfl, rfl, rfl⟩

end Verif
