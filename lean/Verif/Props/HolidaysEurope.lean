import Verif.Lemmas.Holidays
import Verif.Model.Cal.Target
import Verif.Model.Cal.UnitedKingdom
import Verif.Model.Cal.Switzerland
import Verif.Model.Cal.Germany
import Verif.Model.Cal.France
import Verif.Model.Cal.Italy
import Verif.Model.Cal.Austria
import Verif.Model.Cal.Denmark
import Verif.Model.Cal.Norway
import Verif.Model.Cal.Sweden
import Verif.Model.Cal.Finland
import Verif.Model.Cal.Iceland
import Verif.Model.Cal.CzechRepublic
import Verif.Model.Cal.Slovakia
import Verif.Model.Cal.Hungary
import Verif.Model.Cal.Poland
import Verif.Model.Cal.Romania
import Verif.Model.Cal.Ukraine

/-! # C58: holidays -/

namespace Verif

/-- TARGET. -/
theorem C58_target : ClosedOn target 1901 2199 targetHolidays := by
  apply closedOn_easter (by decide) (by decide)
  · intro t em h; simp [Target.rule, h]
  intro z em hz h1 h2 hd1 hd2 he
  holidays Target.rule, targetHolidays, eq_easter_add he, eq_easter_sub he

example : ymd 2024 12 25 ∈ targetHolidays 2024 ∧ target (ymd 2024 12 25) = .ok false ∧
    target (ymd 2024 12 11) = .ok true := by decide +kernel

/-- United Kingdom, all three markets. -/
theorem C58_unitedKingdom (mk : Option UnitedKingdomMarket) : ClosedOn (unitedKingdom mk) 1901 2199 ukHolidays := by
  have hmk : unitedKingdom mk = unitedKingdom none := by
    rcases mk with _ | m
    · rfl
    · cases m <;> rfl
  rw [hmk]
  apply closedOn_easter (by decide) (by decide)
  · intro t em h; simp [UnitedKingdom.settlementIsBusinessDay, UnitedKingdom.specialBankHoliday, h]
  intro z em hz h1 h2 hd1 hd2 he
  holidays UnitedKingdom.settlementIsBusinessDay, UnitedKingdom.specialBankHoliday, ukHolidays, eq_easter_add he, eq_easter_sub he

example : ymd 2024 12 25 ∈ ukHolidays 2024 ∧ (unitedKingdom none) (ymd 2024 12 25) = .ok false ∧
    (unitedKingdom none) (ymd 2024 12 11) = .ok true := by decide +kernel

/-- Switzerland. -/
theorem C58_switzerland : ClosedOn switzerland 1901 2199 swissHolidays := by
  apply closedOn_easter (by decide) (by decide)
  · intro t em h; simp [Switzerland.rule, h]
  intro z em hz h1 h2 hd1 hd2 he
  holidays Switzerland.rule, swissHolidays, eq_easter_add he, eq_easter_sub he

example : ymd 2024 12 25 ∈ swissHolidays 2024 ∧ switzerland (ymd 2024 12 25) = .ok false ∧
    switzerland (ymd 2024 12 11) = .ok true := by decide +kernel

/-- Germany, settlement. -/
theorem C58_germany : ClosedOn (germany (some .settlement)) 1901 2199 germanHolidays := by
  apply closedOn_easter (by decide) (by decide)
  · intro t em h; simp [Germany.settlementIsBusinessDay, h]
  intro z em hz h1 h2 hd1 hd2 he
  holidays Germany.settlementIsBusinessDay, germanHolidays, eq_easter_add he, eq_easter_sub he

example : ymd 2024 12 25 ∈ germanHolidays 2024 ∧ (germany (some .settlement)) (ymd 2024 12 25) = .ok false ∧
    (germany (some .settlement)) (ymd 2024 12 11) = .ok true := by decide +kernel

/-- Frankfurt Stock Exchange. -/
theorem C58_frankfurt : ClosedOn (germany (some .frankfurtStockExchange)) 1901 2199 frankfurtHolidays := by
  apply closedOn_easter (by decide) (by decide)
  · intro t em h; simp [Germany.frankfurtStockExchangeIsBusinessDay, h]
  intro z em hz h1 h2 hd1 hd2 he
  holidays Germany.frankfurtStockExchangeIsBusinessDay, frankfurtHolidays, eq_easter_add he, eq_easter_sub he

example : ymd 2024 12 25 ∈ frankfurtHolidays 2024 ∧ (germany (some .frankfurtStockExchange)) (ymd 2024 12 25) = .ok false ∧
    (germany (some .frankfurtStockExchange)) (ymd 2024 12 11) = .ok true := by decide +kernel

/-- Xetra. -/
theorem C58_xetra : ClosedOn (germany (some .xetra)) 1901 2199 frankfurtHolidays := by
  apply closedOn_easter (by decide) (by decide)
  · intro t em h; simp [Germany.frankfurtStockExchangeIsBusinessDay, h]
  intro z em hz h1 h2 hd1 hd2 he
  holidays Germany.frankfurtStockExchangeIsBusinessDay, frankfurtHolidays, eq_easter_add he, eq_easter_sub he

example : ymd 2024 12 25 ∈ frankfurtHolidays 2024 ∧ (germany (some .xetra)) (ymd 2024 12 25) = .ok false ∧
    (germany (some .xetra)) (ymd 2024 12 11) = .ok true := by decide +kernel

/-- Eurex: and 31 December. -/
theorem C58_eurex : ClosedOn (germany (some .eurex)) 1901 2199 (fun y => frankfurtHolidays y ++ [ymd y 12 31]) := by
  apply closedOn_easter (by decide) (by decide)
  · intro t em h; simp [Germany.eurexIsBusinessDay, Germany.frankfurtStockExchangeIsBusinessDay, h]
  intro z em hz h1 h2 hd1 hd2 he
  holidays Germany.eurexIsBusinessDay, Germany.frankfurtStockExchangeIsBusinessDay, frankfurtHolidays, eq_easter_add he, eq_easter_sub he

example : ymd 2024 12 25 ∈ (fun y => frankfurtHolidays y ++ [ymd y 12 31]) 2024 ∧ (germany (some .eurex)) (ymd 2024 12 25) = .ok false ∧
    (germany (some .eurex)) (ymd 2024 12 11) = .ok true := by decide +kernel

/-- Euwax: and Whit Monday. -/
theorem C58_euwax : ClosedOn (germany (some .euwax)) 1901 2199 (fun y => frankfurtHolidays y ++ [easterSunday y + 50]) := by
  apply closedOn_easter (by decide) (by decide)
  · intro t em h; simp [Germany.euwaxIsBusinessDay, Germany.frankfurtStockExchangeIsBusinessDay, h]
  intro z em hz h1 h2 hd1 hd2 he
  holidays Germany.euwaxIsBusinessDay, Germany.frankfurtStockExchangeIsBusinessDay, frankfurtHolidays, eq_easter_add he, eq_easter_sub he

example : ymd 2024 12 25 ∈ (fun y => frankfurtHolidays y ++ [easterSunday y + 50]) 2024 ∧ (germany (some .euwax)) (ymd 2024 12 25) = .ok false ∧
    (germany (some .euwax)) (ymd 2024 12 11) = .ok true := by decide +kernel

/-- France, exchange. -/
theorem C58_paris : ClosedOn (france (some .exchange)) 1901 2199 parisHolidays := by
  apply closedOn_easter (by decide) (by decide)
  · intro t em h; simp [France.exchangeIsBusinessDay, h]
  intro z em hz h1 h2 hd1 hd2 he
  holidays France.exchangeIsBusinessDay, parisHolidays, eq_easter_add he, eq_easter_sub he

example : ymd 2024 12 25 ∈ parisHolidays 2024 ∧ (france (some .exchange)) (ymd 2024 12 25) = .ok false ∧
    (france (some .exchange)) (ymd 2024 12 11) = .ok true := by decide +kernel

/-- France, settlement, with Ascension and Pentecost on fixed days as coded.  Missing: the
movable feasts, which the calendar does not have. -/
theorem C58_france_partial : ClosedOn (france (some .settlement)) 1901 2199 frenchHolidaysFixed := by
  apply closedOn_easter (by decide) (by decide)
  · intro t em h; simp [France.settlementIsBusinessDay, h]
  intro z em hz h1 h2 hd1 hd2 he
  holidays France.settlementIsBusinessDay, frenchHolidaysFixed, eq_easter_add he, eq_easter_sub he

example : ymd 2024 12 25 ∈ frenchHolidaysFixed 2024 ∧ (france (some .settlement)) (ymd 2024 12 25) = .ok false ∧
    (france (some .settlement)) (ymd 2024 12 11) = .ok true := by decide +kernel

/-- Italy, settlement. -/
theorem C58_italy : ClosedOn (italy (some .settlement)) 1901 2199 italianHolidays := by
  apply closedOn_easter (by decide) (by decide)
  · intro t em h; simp [Italy.settlementIsBusinessDay, h]
  intro z em hz h1 h2 hd1 hd2 he
  holidays Italy.settlementIsBusinessDay, italianHolidays, eq_easter_add he, eq_easter_sub he

example : ymd 2024 12 25 ∈ italianHolidays 2024 ∧ (italy (some .settlement)) (ymd 2024 12 25) = .ok false ∧
    (italy (some .settlement)) (ymd 2024 12 11) = .ok true := by decide +kernel

/-- Italy, exchange. -/
theorem C58_milan : ClosedOn (italy (some .exchange)) 1901 2199 milanHolidays := by
  apply closedOn_easter (by decide) (by decide)
  · intro t em h; simp [Italy.exchangeIsBusinessDay, h]
  intro z em hz h1 h2 hd1 hd2 he
  holidays Italy.exchangeIsBusinessDay, milanHolidays, eq_easter_add he, eq_easter_sub he

example : ymd 2024 12 25 ∈ milanHolidays 2024 ∧ (italy (some .exchange)) (ymd 2024 12 25) = .ok false ∧
    (italy (some .exchange)) (ymd 2024 12 11) = .ok true := by decide +kernel

/-- Austria, settlement. -/
theorem C58_austria : ClosedOn (austria (some .settlement)) 1901 2199 austrianHolidays := by
  apply closedOn_easter (by decide) (by decide)
  · intro t em h; simp [Austria.settlementIsBusinessDay, h]
  intro z em hz h1 h2 hd1 hd2 he
  holidays Austria.settlementIsBusinessDay, austrianHolidays, eq_easter_add he, eq_easter_sub he

example : ymd 2024 12 25 ∈ austrianHolidays 2024 ∧ (austria (some .settlement)) (ymd 2024 12 25) = .ok false ∧
    (austria (some .settlement)) (ymd 2024 12 11) = .ok true := by decide +kernel

/-- Austria, exchange. -/
theorem C58_vienna : ClosedOn (austria (some .exchange)) 1901 2199 viennaHolidays := by
  apply closedOn_easter (by decide) (by decide)
  · intro t em h; simp [Austria.exchangeIsBusinessDay, h]
  intro z em hz h1 h2 hd1 hd2 he
  holidays Austria.exchangeIsBusinessDay, viennaHolidays, eq_easter_add he, eq_easter_sub he

example : ymd 2024 12 25 ∈ viennaHolidays 2024 ∧ (austria (some .exchange)) (ymd 2024 12 25) = .ok false ∧
    (austria (some .exchange)) (ymd 2024 12 11) = .ok true := by decide +kernel

/-- Denmark. -/
theorem C58_denmark : ClosedOn denmark 1901 2199 danishHolidays := by
  apply closedOn_easter (by decide) (by decide)
  · intro t em h; simp [Denmark.rule, h]
  intro z em hz h1 h2 hd1 hd2 he
  holidays Denmark.rule, danishHolidays, eq_easter_add he, eq_easter_sub he

example : ymd 2024 12 25 ∈ danishHolidays 2024 ∧ denmark (ymd 2024 12 25) = .ok false ∧
    denmark (ymd 2024 12 11) = .ok true := by decide +kernel

/-- Norway. -/
theorem C58_norway : ClosedOn norway 1901 2199 norwegianHolidays := by
  apply closedOn_easter (by decide) (by decide)
  · intro t em h; simp [Norway.rule, h]
  intro z em hz h1 h2 hd1 hd2 he
  holidays Norway.rule, norwegianHolidays, eq_easter_add he, eq_easter_sub he

example : ymd 2024 12 25 ∈ norwegianHolidays 2024 ∧ norway (ymd 2024 12 25) = .ok false ∧
    norway (ymd 2024 12 11) = .ok true := by decide +kernel

/-- Sweden. -/
theorem C58_sweden : ClosedOn sweden 1901 2199 swedishHolidays := by
  apply closedOn_easter (by decide) (by decide)
  · intro t em h; simp [Sweden.rule, h]
  intro z em hz h1 h2 hd1 hd2 he
  holidays Sweden.rule, swedishHolidays, eq_easter_add he, eq_easter_sub he

example : ymd 2024 12 25 ∈ swedishHolidays 2024 ∧ sweden (ymd 2024 12 25) = .ok false ∧
    sweden (ymd 2024 12 11) = .ok true := by decide +kernel

/-- Finland. -/
theorem C58_finland : ClosedOn finland 1901 2199 finnishHolidays := by
  apply closedOn_easter (by decide) (by decide)
  · intro t em h; simp [Finland.rule, h]
  intro z em hz h1 h2 hd1 hd2 he
  holidays Finland.rule, finnishHolidays, eq_easter_add he, eq_easter_sub he

example : ymd 2024 12 25 ∈ finnishHolidays 2024 ∧ finland (ymd 2024 12 25) = .ok false ∧
    finland (ymd 2024 12 11) = .ok true := by decide +kernel

/-- Iceland. -/
theorem C58_iceland : ClosedOn iceland 1901 2199 icelandicHolidays := by
  apply closedOn_easter (by decide) (by decide)
  · intro t em h; simp [Iceland.rule, h]
  intro z em hz h1 h2 hd1 hd2 he
  holidays Iceland.rule, icelandicHolidays, eq_easter_add he, eq_easter_sub he

example : ymd 2024 12 25 ∈ icelandicHolidays 2024 ∧ iceland (ymd 2024 12 25) = .ok false ∧
    iceland (ymd 2024 12 11) = .ok true := by decide +kernel

/-- CzechRepublic. -/
theorem C58_czechRepublic : ClosedOn czechRepublic 1901 2199 czechHolidays := by
  apply closedOn_easter (by decide) (by decide)
  · intro t em h; simp [CzechRepublic.rule, h]
  intro z em hz h1 h2 hd1 hd2 he
  holidays CzechRepublic.rule, czechHolidays, eq_easter_add he, eq_easter_sub he

example : ymd 2024 12 25 ∈ czechHolidays 2024 ∧ czechRepublic (ymd 2024 12 25) = .ok false ∧
    czechRepublic (ymd 2024 12 11) = .ok true := by decide +kernel

/-- Slovakia. -/
theorem C58_slovakia : ClosedOn slovakia 1901 2199 slovakHolidays := by
  apply closedOn_easter (by decide) (by decide)
  · intro t em h; simp [Slovakia.rule, h]
  intro z em hz h1 h2 hd1 hd2 he
  holidays Slovakia.rule, slovakHolidays, eq_easter_add he, eq_easter_sub he

example : ymd 2024 12 25 ∈ slovakHolidays 2024 ∧ slovakia (ymd 2024 12 25) = .ok false ∧
    slovakia (ymd 2024 12 11) = .ok true := by decide +kernel

/-- Hungary. -/
theorem C58_hungary : ClosedOn hungary 1901 2199 hungarianHolidays := by
  apply closedOn_easter (by decide) (by decide)
  · intro t em h; simp [Hungary.rule, h]
  intro z em hz h1 h2 hd1 hd2 he
  holidays Hungary.rule, hungarianHolidays, eq_easter_add he, eq_easter_sub he

example : ymd 2024 12 25 ∈ hungarianHolidays 2024 ∧ hungary (ymd 2024 12 25) = .ok false ∧
    hungary (ymd 2024 12 11) = .ok true := by decide +kernel

/-- Poland, settlement. -/
theorem C58_poland : ClosedOn (poland (some .settlement)) 1901 2199 polishHolidays := by
  apply closedOn_easter (by decide) (by decide)
  · intro t em h; simp [Poland.settlementIsBusinessDay, h]
  intro z em hz h1 h2 hd1 hd2 he
  holidays Poland.settlementIsBusinessDay, polishHolidays, eq_easter_add he, eq_easter_sub he

example : ymd 2024 12 25 ∈ polishHolidays 2024 ∧ (poland (some .settlement)) (ymd 2024 12 25) = .ok false ∧
    (poland (some .settlement)) (ymd 2024 12 11) = .ok true := by decide +kernel

/-- Romania. -/
theorem C58_romania : ClosedOn romania 1901 2199 romanianHolidays := by
  apply closedOn_orthodox (by decide) (by decide)
  · intro t em h; simp [Romania.rule, h]
  intro z em hz h1 h2 hd1 hd2 he
  holidays Romania.rule, romanianHolidays, eq_easter_add he, eq_easter_sub he

example : ymd 2024 12 25 ∈ romanianHolidays 2024 ∧ romania (ymd 2024 12 25) = .ok false ∧
    romania (ymd 2024 12 11) = .ok true := by decide +kernel

/-- Ukraine with the Western Easter, as coded.  Missing: the Orthodox Easter. -/
theorem C58_ukraine_partial : ClosedOn ukraine 1901 2199 (ukrainianHolidays easterSunday) := by
  apply closedOn_easter (by decide) (by decide)
  · intro t em h; simp [Ukraine.rule, h]
  intro z em hz h1 h2 hd1 hd2 he
  holidays Ukraine.rule, ukrainianHolidays, eq_easter_add he, eq_easter_sub he

example : ymd 2024 6 28 ∈ (ukrainianHolidays easterSunday) 2024 ∧ ukraine (ymd 2024 6 28) = .ok false ∧
    ukraine (ymd 2024 12 11) = .ok true := by decide +kernel

/-- Warsaw: as settlement, and 24 and 31 December. -/
theorem C58_wse : ClosedOn (poland (some .wse)) 1901 2199 (fun y => polishHolidays y ++ [ymd y 12 24, ymd y 12 31]) := by
  intro d h1 h2
  obtain ⟨b, hb, hi⟩ := C58_poland d h1 h2
  have e1 := eq_ymd (z := d) (m := 12) (k := 24) (by decide)
  have e2 := eq_ymd (z := d) (m := 12) (k := 31) (by decide)
  show ∃ b, polandWse d = .ok b ∧ _
  have hb' : easterCal Poland.settlementIsBusinessDay d = .ok b := hb
  simp only [List.mem_append, List.mem_cons, List.not_mem_nil, or_false, e1, e2]
  unfold polandWse
  by_cases hc : (dayOf d = 24 ∨ dayOf d = 31) ∧ monthOf d = 12
  · exact ⟨false, by rw [if_pos hc], by grind⟩
  · exact ⟨b, by rw [if_neg hc, hb'], by rw [hi]; grind⟩

example : poland (some .wse) (ymd 2024 12 24) = .ok false ∧ poland (some .settlement) (ymd 2024 12 24) = .ok true := by
  decide +kernel

/-- The markets used by default. -/
theorem C58_defaults_europe : germany none = germany (some .frankfurtStockExchange) ∧
    france none = france (some .settlement) ∧ italy none = italy (some .settlement) ∧
    austria none = austria (some .settlement) ∧ poland none = poland (some .settlement) :=
  ⟨rfl, rfl, rfl, rfl, rfl⟩

/-- A day that is a holiday but open, or no holiday and no weekend but closed, refutes the claim. -/
theorem not_closedOn {c : Cal} {hol : Int → List Int} {lo hi : Int} (d : Int)
    (h : lo ≤ yearOf d ∧ yearOf d ≤ hi)
    (hd : (c d = .ok true ∧ d ∈ hol (yearOf d)) ∨ (c d = .ok false ∧ d ∉ hol (yearOf d) ∧ d % 7 ≠ 6 ∧ d % 7 ≠ 0)) :
    ¬ ClosedOn c lo hi hol := by
  intro hc
  obtain ⟨b, hb, hi⟩ := hc d h.1 h.2
  unfold SatSun at hi
  rcases hd with ⟨h1, h2⟩ | ⟨h1, h2, h3, h4⟩ <;> rw [h1] at hb <;> cases hb
  · exact (hi.1 rfl).2 h2
  · exact absurd (hi.2 ⟨by omega, h2⟩) (by decide)

/-- The French settlement calendar is open on Ascension Day (9 May 2024): Ascension and Pentecost
are coded as 10 and 21 May. -/
theorem C58_france_false : ¬ ClosedOn (france (some .settlement)) 1901 2199 frenchHolidays :=
  not_closedOn (ymd 2024 5 9) (by decide +kernel) (by decide +kernel)

/-- The Ukrainian calendar is open on Orthodox Easter Monday (6 May 2024). -/
theorem C58_ukraine_false : ¬ ClosedOn ukraine 1901 2199 (ukrainianHolidays orthodoxEasterSunday) :=
  not_closedOn (ymd 2024 5 6) (by decide +kernel) (by decide +kernel)

end Verif
