import Verif.Model.Shipped
import Verif.Lemmas.Cal.Argentina
import Verif.Lemmas.Cal.Australia
import Verif.Lemmas.Cal.Austria
import Verif.Lemmas.Cal.Botswana
import Verif.Lemmas.Cal.Brazil
import Verif.Lemmas.Cal.Canada
import Verif.Lemmas.Cal.Chile
import Verif.Lemmas.Cal.China
import Verif.Lemmas.Cal.CzechRepublic
import Verif.Lemmas.Cal.Denmark
import Verif.Lemmas.Cal.Finland
import Verif.Lemmas.Cal.France
import Verif.Lemmas.Cal.Germany
import Verif.Lemmas.Cal.HongKong
import Verif.Lemmas.Cal.Hungary
import Verif.Lemmas.Cal.Iceland
import Verif.Lemmas.Cal.India
import Verif.Lemmas.Cal.Indonesia
import Verif.Lemmas.Cal.Israel
import Verif.Lemmas.Cal.Italy
import Verif.Lemmas.Cal.Japan
import Verif.Lemmas.Cal.Mexico
import Verif.Lemmas.Cal.NewZealand
import Verif.Lemmas.Cal.Norway
import Verif.Lemmas.Cal.Poland
import Verif.Lemmas.Cal.Romania
import Verif.Lemmas.Cal.Russia
import Verif.Lemmas.Cal.Singapore
import Verif.Lemmas.Cal.Slovakia
import Verif.Lemmas.Cal.SouthAfrica
import Verif.Lemmas.Cal.SouthKorea
import Verif.Lemmas.Cal.Sweden
import Verif.Lemmas.Cal.Switzerland
import Verif.Lemmas.Cal.Taiwan
import Verif.Lemmas.Cal.Target
import Verif.Lemmas.Cal.Thailand
import Verif.Lemmas.Cal.Turkey
import Verif.Lemmas.Cal.Ukraine
import Verif.Lemmas.Cal.UnitedKingdom
import Verif.Lemmas.Cal.UnitedStates

/-! # All shipped calendars together

One case per calendar and market; the work is in `Verif.Lemmas.Cal`. -/

namespace Verif

theorem tableLookup_cases (t : List Int) (y : Int) :
    (∃ em, tableLookup t y = .ok em) ∨ tableLookup t y = .panic := by
  unfold tableLookup
  split
  · exact .inr rfl
  · cases t[(y - 1901).toNat]? with
    | none => exact .inr rfl
    | some a => exact .inl ⟨a, rfl⟩

theorem easterMonday_cases (y : Int) :
    (∃ em, easterMonday y = .ok em) ∨ easterMonday y = .panic := tableLookup_cases _ _

theorem orthodoxEasterMonday_cases (y : Int) :
    (∃ em, orthodoxEasterMonday y = .ok em) ∨ orthodoxEasterMonday y = .panic :=
  tableLookup_cases _ _

theorem plain_weekend {r : DateInfo → Bool} (h : ∀ t : DateInfo, t.w.isWeekend = true → r t = false)
    {d : Int} (hd : isWeekend d = true) : plainCal r d = .ok false := by
  unfold plainCal; rw [h _ (by rw [info, isWeekend_eq]; exact hd)]

theorem easter_weekend {r : DateInfo → Int → Bool}
    (h : ∀ (t : DateInfo) (em : Int), t.w.isWeekend = true → r t em = false)
    {d : Int} (hd : isWeekend d = true) :
    easterCal r d = .ok false ∨ easterCal r d = .panic := by
  unfold easterCal
  rcases easterMonday_cases (yearOf d) with ⟨em, e⟩ | e
  · left; rw [e, Outcome.ok_bind, h _ _ (by rw [info, isWeekend_eq]; exact hd)]
  · right; rw [e]; rfl

theorem orthodox_weekend {r : DateInfo → Int → Bool}
    (h : ∀ (t : DateInfo) (em : Int), t.w.isWeekend = true → r t em = false)
    {d : Int} (hd : isWeekend d = true) :
    orthodoxCal r d = .ok false ∨ orthodoxCal r d = .panic := by
  unfold orthodoxCal
  rcases orthodoxEasterMonday_cases (yearOf d) with ⟨em, e⟩ | e
  · left; rw [e, Outcome.ok_bind, h _ _ (by rw [info, isWeekend_eq]; exact hd)]
  · right; rw [e]; rfl

theorem polandWse_weekend {d : Int} (hd : isWeekend d = true) :
    polandWse d = .ok false ∨ polandWse d = .panic := by
  unfold polandWse
  split
  · exact .inl rfl
  · exact easter_weekend Poland.settlementIsBusinessDay_weekend hd

theorem telAviv_weekend {d : Int} (hd : isWeekend d = true) : telAviv d = .ok false := by
  unfold telAviv; rw [if_pos hd]

theorem shir_weekend {d : Int} (hd : isWeekend d = true) :
    shir d = .ok false ∨ shir d = .panic := by
  unfold shir
  rcases easterMonday_cases (yearOf d) with ⟨em, e⟩ | e
  · left; rw [e, Outcome.ok_bind, if_pos hd]
  · right; rw [e]; rfl

theorem weekendsOnly_weekend {d : Int} (hd : isWeekend d = true) : weekendsOnly d = .ok false := by
  unfold weekendsOnly; rw [hd]; rfl

theorem weekendsOnly_half (y : Int) : HalfMonthsOpen weekendsOnly y := by
  refine half_of_excl (n := 0) (E := []) (by decide +kernel) fun m d a1 a2 a3 a4 ⟨j, hj, hw⟩ _ => ?_
  unfold weekendsOnly isWeekend
  rw [weekdayOf_eq_of_mod (w := .wed)]
  · rfl
  · rw [hw]; simp only [Weekday.num]; omega

theorem shipped_weekend {d : Int} : ∀ s : Shipped, s ≠ .russia (some .exchange) →
    isWeekend d = true → s.cal d = .ok false ∨ s.cal d = .panic
  | .argentina, _, hd => easter_weekend Argentina.rule_weekend hd
  | .australia (some .settlement), _, hd => easter_weekend Australia.settlementIsBusinessDay_weekend hd
  | .australia (some .asx), _, hd => easter_weekend Australia.asxIsBusinessDay_weekend hd
  | .australia none, _, hd => easter_weekend Australia.settlementIsBusinessDay_weekend hd
  | .austria (some .settlement), _, hd => easter_weekend Austria.settlementIsBusinessDay_weekend hd
  | .austria (some .exchange), _, hd => easter_weekend Austria.exchangeIsBusinessDay_weekend hd
  | .austria none, _, hd => easter_weekend Austria.settlementIsBusinessDay_weekend hd
  | .botswana, _, hd => easter_weekend Botswana.rule_weekend hd
  | .brazil (some .settlement), _, hd => easter_weekend Brazil.settlementIsBusinessDay_weekend hd
  | .brazil (some .exchange), _, hd => easter_weekend Brazil.exchangeIsBusinessDay_weekend hd
  | .brazil none, _, hd => easter_weekend Brazil.settlementIsBusinessDay_weekend hd
  | .canada (some .settlement), _, hd => easter_weekend Canada.settlementIsBusinessDay_weekend hd
  | .canada (some .tsx), _, hd => easter_weekend Canada.tsxIsBusinessDay_weekend hd
  | .canada none, _, hd => easter_weekend Canada.settlementIsBusinessDay_weekend hd
  | .chile, _, hd => easter_weekend Chile.rule_weekend hd
  | .china, _, hd => .inl (plain_weekend China.rule_weekend hd)
  | .czechRepublic, _, hd => easter_weekend CzechRepublic.rule_weekend hd
  | .denmark, _, hd => easter_weekend Denmark.rule_weekend hd
  | .finland, _, hd => easter_weekend Finland.rule_weekend hd
  | .france (some .settlement), _, hd => easter_weekend France.settlementIsBusinessDay_weekend hd
  | .france (some .exchange), _, hd => easter_weekend France.exchangeIsBusinessDay_weekend hd
  | .france none, _, hd => easter_weekend France.settlementIsBusinessDay_weekend hd
  | .germany (some .settlement), _, hd => easter_weekend Germany.settlementIsBusinessDay_weekend hd
  | .germany (some .frankfurtStockExchange), _, hd => easter_weekend Germany.frankfurtStockExchangeIsBusinessDay_weekend hd
  | .germany (some .xetra), _, hd => easter_weekend Germany.frankfurtStockExchangeIsBusinessDay_weekend hd
  | .germany (some .eurex), _, hd => easter_weekend Germany.eurexIsBusinessDay_weekend hd
  | .germany (some .euwax), _, hd => easter_weekend Germany.euwaxIsBusinessDay_weekend hd
  | .germany none, _, hd => easter_weekend Germany.frankfurtStockExchangeIsBusinessDay_weekend hd
  | .hongKong, _, hd => easter_weekend HongKong.rule_weekend hd
  | .hungary, _, hd => easter_weekend Hungary.rule_weekend hd
  | .iceland, _, hd => easter_weekend Iceland.rule_weekend hd
  | .india, _, hd => easter_weekend India.rule_weekend hd
  | .indonesia, _, hd => easter_weekend Indonesia.rule_weekend hd
  | .israel (some .telAviv), _, hd => .inl (telAviv_weekend hd)
  | .israel (some .shir), _, hd => shir_weekend hd
  | .israel none, _, hd => shir_weekend hd
  | .italy (some .settlement), _, hd => easter_weekend Italy.settlementIsBusinessDay_weekend hd
  | .italy (some .exchange), _, hd => easter_weekend Italy.exchangeIsBusinessDay_weekend hd
  | .italy none, _, hd => easter_weekend Italy.settlementIsBusinessDay_weekend hd
  | .japan, _, hd => .inl (plain_weekend Japan.rule_weekend hd)
  | .mexico, _, hd => easter_weekend Mexico.rule_weekend hd
  | .newZealand (some .wellington), _, hd => easter_weekend NewZealand.wellingtonIsBusinessDay_weekend hd
  | .newZealand (some .auckland), _, hd => easter_weekend NewZealand.aucklandIsBusinessDay_weekend hd
  | .newZealand none, _, hd => easter_weekend NewZealand.wellingtonIsBusinessDay_weekend hd
  | .norway, _, hd => easter_weekend Norway.rule_weekend hd
  | .poland (some .settlement), _, hd => easter_weekend Poland.settlementIsBusinessDay_weekend hd
  | .poland (some .wse), _, hd => polandWse_weekend hd
  | .poland none, _, hd => easter_weekend Poland.settlementIsBusinessDay_weekend hd
  | .romania, _, hd => orthodox_weekend Romania.rule_weekend hd
  | .russia (some .settlement), _, hd => .inl (plain_weekend Russia.settlementIsBusinessDay_weekend hd)
  | .russia (some .exchange), hs, _ => absurd rfl hs
  | .russia none, _, hd => .inl (plain_weekend Russia.settlementIsBusinessDay_weekend hd)
  | .singapore, _, hd => easter_weekend Singapore.rule_weekend hd
  | .slovakia, _, hd => easter_weekend Slovakia.rule_weekend hd
  | .southAfrica, _, hd => easter_weekend SouthAfrica.rule_weekend hd
  | .southKorea, _, hd => .inl (plain_weekend SouthKorea.rule_weekend hd)
  | .sweden, _, hd => easter_weekend Sweden.rule_weekend hd
  | .switzerland, _, hd => easter_weekend Switzerland.rule_weekend hd
  | .taiwan, _, hd => .inl (plain_weekend Taiwan.rule_weekend hd)
  | .target, _, hd => easter_weekend Target.rule_weekend hd
  | .thailand, _, hd => easter_weekend Thailand.rule_weekend hd
  | .turkey, _, hd => .inl (plain_weekend Turkey.rule_weekend hd)
  | .ukraine, _, hd => easter_weekend Ukraine.rule_weekend hd
  | .unitedKingdom (some .settlement), _, hd => easter_weekend UnitedKingdom.settlementIsBusinessDay_weekend hd
  | .unitedKingdom (some .exchange), _, hd => easter_weekend UnitedKingdom.exchangeIsBusinessDay_weekend hd
  | .unitedKingdom (some .metals), _, hd => easter_weekend UnitedKingdom.metalsIsBusinessDay_weekend hd
  | .unitedKingdom none, _, hd => easter_weekend UnitedKingdom.settlementIsBusinessDay_weekend hd
  | .unitedStates (some .settlement), _, hd => .inl (plain_weekend UnitedStates.settlementIsBusinessDay_weekend hd)
  | .unitedStates (some .libor), _, hd => .inl (plain_weekend UnitedStates.liborIsBusinessDay_weekend hd)
  | .unitedStates (some .nyse), _, hd => easter_weekend UnitedStates.nyseIsBusinessDay_weekend hd
  | .unitedStates (some .governmentBond), _, hd => easter_weekend UnitedStates.governmentBondIsBusinessDay_weekend hd
  | .unitedStates (some .sofr), _, hd => easter_weekend UnitedStates.sofrIsBusinessDay_weekend hd
  | .unitedStates (some .nerc), _, hd => .inl (plain_weekend UnitedStates.nercIsBusinessDay_weekend hd)
  | .unitedStates (some .federalReserve), _, hd => .inl (plain_weekend UnitedStates.federalReserveIsHoliday_weekend hd)
  | .unitedStates none, _, hd => .inl (plain_weekend UnitedStates.settlementIsBusinessDay_weekend hd)
  | .weekendsOnly, _, hd => .inl (weekendsOnly_weekend hd)

theorem shipped_half {y : Int} : ∀ s : Shipped, 1901 ≤ y → y ≤ 2199 → HalfMonthsOpen s.cal y
  | .argentina, h1, h2 => Argentina.rule_half h1 h2
  | .australia (some .settlement), h1, h2 => Australia.settlementIsBusinessDay_half h1 h2
  | .australia (some .asx), h1, h2 => Australia.asxIsBusinessDay_half h1 h2
  | .australia none, h1, h2 => Australia.settlementIsBusinessDay_half h1 h2
  | .austria (some .settlement), h1, h2 => Austria.settlementIsBusinessDay_half h1 h2
  | .austria (some .exchange), h1, h2 => Austria.exchangeIsBusinessDay_half h1 h2
  | .austria none, h1, h2 => Austria.settlementIsBusinessDay_half h1 h2
  | .botswana, h1, h2 => Botswana.rule_half h1 h2
  | .brazil (some .settlement), h1, h2 => Brazil.settlementIsBusinessDay_half h1 h2
  | .brazil (some .exchange), h1, h2 => Brazil.exchangeIsBusinessDay_half h1 h2
  | .brazil none, h1, h2 => Brazil.settlementIsBusinessDay_half h1 h2
  | .canada (some .settlement), h1, h2 => Canada.settlementIsBusinessDay_half h1 h2
  | .canada (some .tsx), h1, h2 => Canada.tsxIsBusinessDay_half h1 h2
  | .canada none, h1, h2 => Canada.settlementIsBusinessDay_half h1 h2
  | .chile, h1, h2 => Chile.rule_half h1 h2
  | .china, _, _ => China.rule_half
  | .czechRepublic, h1, h2 => CzechRepublic.rule_half h1 h2
  | .denmark, h1, h2 => Denmark.rule_half h1 h2
  | .finland, h1, h2 => Finland.rule_half h1 h2
  | .france (some .settlement), h1, h2 => France.settlementIsBusinessDay_half h1 h2
  | .france (some .exchange), h1, h2 => France.exchangeIsBusinessDay_half h1 h2
  | .france none, h1, h2 => France.settlementIsBusinessDay_half h1 h2
  | .germany (some .settlement), h1, h2 => Germany.settlementIsBusinessDay_half h1 h2
  | .germany (some .frankfurtStockExchange), h1, h2 => Germany.frankfurtStockExchangeIsBusinessDay_half h1 h2
  | .germany (some .xetra), h1, h2 => Germany.frankfurtStockExchangeIsBusinessDay_half h1 h2
  | .germany (some .eurex), h1, h2 => Germany.eurexIsBusinessDay_half h1 h2
  | .germany (some .euwax), h1, h2 => Germany.euwaxIsBusinessDay_half h1 h2
  | .germany none, h1, h2 => Germany.frankfurtStockExchangeIsBusinessDay_half h1 h2
  | .hongKong, h1, h2 => HongKong.rule_half h1 h2
  | .hungary, h1, h2 => Hungary.rule_half h1 h2
  | .iceland, h1, h2 => Iceland.rule_half h1 h2
  | .india, h1, h2 => India.rule_half h1 h2
  | .indonesia, h1, h2 => Indonesia.rule_half h1 h2
  | .israel (some .telAviv), h1, h2 => telAviv_half (by omega) (by omega)
  | .israel (some .shir), h1, h2 => shir_half h1 h2
  | .israel none, h1, h2 => shir_half h1 h2
  | .italy (some .settlement), h1, h2 => Italy.settlementIsBusinessDay_half h1 h2
  | .italy (some .exchange), h1, h2 => Italy.exchangeIsBusinessDay_half h1 h2
  | .italy none, h1, h2 => Italy.settlementIsBusinessDay_half h1 h2
  | .japan, _, _ => Japan.rule_half
  | .mexico, h1, h2 => Mexico.rule_half h1 h2
  | .newZealand (some .wellington), h1, h2 => NewZealand.wellingtonIsBusinessDay_half h1 h2
  | .newZealand (some .auckland), h1, h2 => NewZealand.aucklandIsBusinessDay_half h1 h2
  | .newZealand none, h1, h2 => NewZealand.wellingtonIsBusinessDay_half h1 h2
  | .norway, h1, h2 => Norway.rule_half h1 h2
  | .poland (some .settlement), h1, h2 => Poland.settlementIsBusinessDay_half h1 h2
  | .poland (some .wse), h1, h2 => Poland.wse_half h1 h2
  | .poland none, h1, h2 => Poland.settlementIsBusinessDay_half h1 h2
  | .romania, h1, h2 => Romania.rule_half h1 h2
  | .russia (some .settlement), _, _ => Russia.settlementIsBusinessDay_half
  | .russia (some .exchange), _, _ => Russia.exchangeIsBusinessDay_half
  | .russia none, _, _ => Russia.settlementIsBusinessDay_half
  | .singapore, h1, h2 => Singapore.rule_half h1 h2
  | .slovakia, h1, h2 => Slovakia.rule_half h1 h2
  | .southAfrica, h1, h2 => SouthAfrica.rule_half h1 h2
  | .southKorea, _, _ => SouthKorea.rule_half
  | .sweden, h1, h2 => Sweden.rule_half h1 h2
  | .switzerland, h1, h2 => Switzerland.rule_half h1 h2
  | .taiwan, _, _ => Taiwan.rule_half
  | .target, h1, h2 => Target.rule_half h1 h2
  | .thailand, h1, h2 => Thailand.rule_half h1 h2
  | .turkey, _, _ => Turkey.rule_half
  | .ukraine, h1, h2 => Ukraine.rule_half h1 h2
  | .unitedKingdom (some .settlement), h1, h2 => UnitedKingdom.settlementIsBusinessDay_half h1 h2
  | .unitedKingdom (some .exchange), h1, h2 => UnitedKingdom.exchangeIsBusinessDay_half h1 h2
  | .unitedKingdom (some .metals), h1, h2 => UnitedKingdom.metalsIsBusinessDay_half h1 h2
  | .unitedKingdom none, h1, h2 => UnitedKingdom.settlementIsBusinessDay_half h1 h2
  | .unitedStates (some .settlement), _, _ => UnitedStates.settlementIsBusinessDay_half
  | .unitedStates (some .libor), _, _ => UnitedStates.liborIsBusinessDay_half
  | .unitedStates (some .nyse), h1, h2 => UnitedStates.nyseIsBusinessDay_half h1 h2
  | .unitedStates (some .governmentBond), h1, h2 => UnitedStates.governmentBondIsBusinessDay_half h1 h2
  | .unitedStates (some .sofr), h1, h2 => UnitedStates.sofrIsBusinessDay_half h1 h2
  | .unitedStates (some .nerc), _, _ => UnitedStates.nercIsBusinessDay_half
  | .unitedStates (some .federalReserve), _, _ => UnitedStates.federalReserveIsHoliday_half
  | .unitedStates none, _, _ => UnitedStates.settlementIsBusinessDay_half
  | .weekendsOnly, _, _ => weekendsOnly_half y

theorem shipped_half_plain {y : Int} : ∀ s : Shipped, s.usesEaster = false → -262143 < y → y < 262142 →
    HalfMonthsOpen s.cal y
  | .argentina, h, _, _ => by simp [Shipped.usesEaster] at h
  | .australia (some .settlement), h, _, _ => by simp [Shipped.usesEaster] at h
  | .australia (some .asx), h, _, _ => by simp [Shipped.usesEaster] at h
  | .australia none, h, _, _ => by simp [Shipped.usesEaster] at h
  | .austria (some .settlement), h, _, _ => by simp [Shipped.usesEaster] at h
  | .austria (some .exchange), h, _, _ => by simp [Shipped.usesEaster] at h
  | .austria none, h, _, _ => by simp [Shipped.usesEaster] at h
  | .botswana, h, _, _ => by simp [Shipped.usesEaster] at h
  | .brazil (some .settlement), h, _, _ => by simp [Shipped.usesEaster] at h
  | .brazil (some .exchange), h, _, _ => by simp [Shipped.usesEaster] at h
  | .brazil none, h, _, _ => by simp [Shipped.usesEaster] at h
  | .canada (some .settlement), h, _, _ => by simp [Shipped.usesEaster] at h
  | .canada (some .tsx), h, _, _ => by simp [Shipped.usesEaster] at h
  | .canada none, h, _, _ => by simp [Shipped.usesEaster] at h
  | .chile, h, _, _ => by simp [Shipped.usesEaster] at h
  | .china, _, _, _ => China.rule_half
  | .czechRepublic, h, _, _ => by simp [Shipped.usesEaster] at h
  | .denmark, h, _, _ => by simp [Shipped.usesEaster] at h
  | .finland, h, _, _ => by simp [Shipped.usesEaster] at h
  | .france (some .settlement), h, _, _ => by simp [Shipped.usesEaster] at h
  | .france (some .exchange), h, _, _ => by simp [Shipped.usesEaster] at h
  | .france none, h, _, _ => by simp [Shipped.usesEaster] at h
  | .germany (some .settlement), h, _, _ => by simp [Shipped.usesEaster] at h
  | .germany (some .frankfurtStockExchange), h, _, _ => by simp [Shipped.usesEaster] at h
  | .germany (some .xetra), h, _, _ => by simp [Shipped.usesEaster] at h
  | .germany (some .eurex), h, _, _ => by simp [Shipped.usesEaster] at h
  | .germany (some .euwax), h, _, _ => by simp [Shipped.usesEaster] at h
  | .germany none, h, _, _ => by simp [Shipped.usesEaster] at h
  | .hongKong, h, _, _ => by simp [Shipped.usesEaster] at h
  | .hungary, h, _, _ => by simp [Shipped.usesEaster] at h
  | .iceland, h, _, _ => by simp [Shipped.usesEaster] at h
  | .india, h, _, _ => by simp [Shipped.usesEaster] at h
  | .indonesia, h, _, _ => by simp [Shipped.usesEaster] at h
  | .israel (some .telAviv), _, h1, h2 => telAviv_half h1 h2
  | .israel (some .shir), h, _, _ => by simp [Shipped.usesEaster] at h
  | .israel none, h, _, _ => by simp [Shipped.usesEaster] at h
  | .italy (some .settlement), h, _, _ => by simp [Shipped.usesEaster] at h
  | .italy (some .exchange), h, _, _ => by simp [Shipped.usesEaster] at h
  | .italy none, h, _, _ => by simp [Shipped.usesEaster] at h
  | .japan, _, _, _ => Japan.rule_half
  | .mexico, h, _, _ => by simp [Shipped.usesEaster] at h
  | .newZealand (some .wellington), h, _, _ => by simp [Shipped.usesEaster] at h
  | .newZealand (some .auckland), h, _, _ => by simp [Shipped.usesEaster] at h
  | .newZealand none, h, _, _ => by simp [Shipped.usesEaster] at h
  | .norway, h, _, _ => by simp [Shipped.usesEaster] at h
  | .poland (some .settlement), h, _, _ => by simp [Shipped.usesEaster] at h
  | .poland (some .wse), h, _, _ => by simp [Shipped.usesEaster] at h
  | .poland none, h, _, _ => by simp [Shipped.usesEaster] at h
  | .romania, h, _, _ => by simp [Shipped.usesEaster] at h
  | .russia (some .settlement), _, _, _ => Russia.settlementIsBusinessDay_half
  | .russia (some .exchange), _, _, _ => Russia.exchangeIsBusinessDay_half
  | .russia none, _, _, _ => Russia.settlementIsBusinessDay_half
  | .singapore, h, _, _ => by simp [Shipped.usesEaster] at h
  | .slovakia, h, _, _ => by simp [Shipped.usesEaster] at h
  | .southAfrica, h, _, _ => by simp [Shipped.usesEaster] at h
  | .southKorea, _, _, _ => SouthKorea.rule_half
  | .sweden, h, _, _ => by simp [Shipped.usesEaster] at h
  | .switzerland, h, _, _ => by simp [Shipped.usesEaster] at h
  | .taiwan, _, _, _ => Taiwan.rule_half
  | .target, h, _, _ => by simp [Shipped.usesEaster] at h
  | .thailand, h, _, _ => by simp [Shipped.usesEaster] at h
  | .turkey, _, _, _ => Turkey.rule_half
  | .ukraine, h, _, _ => by simp [Shipped.usesEaster] at h
  | .unitedKingdom (some .settlement), h, _, _ => by simp [Shipped.usesEaster] at h
  | .unitedKingdom (some .exchange), h, _, _ => by simp [Shipped.usesEaster] at h
  | .unitedKingdom (some .metals), h, _, _ => by simp [Shipped.usesEaster] at h
  | .unitedKingdom none, h, _, _ => by simp [Shipped.usesEaster] at h
  | .unitedStates (some .settlement), _, _, _ => UnitedStates.settlementIsBusinessDay_half
  | .unitedStates (some .libor), _, _, _ => UnitedStates.liborIsBusinessDay_half
  | .unitedStates (some .nyse), h, _, _ => by simp [Shipped.usesEaster] at h
  | .unitedStates (some .governmentBond), h, _, _ => by simp [Shipped.usesEaster] at h
  | .unitedStates (some .sofr), h, _, _ => by simp [Shipped.usesEaster] at h
  | .unitedStates (some .nerc), _, _, _ => UnitedStates.nercIsBusinessDay_half
  | .unitedStates (some .federalReserve), _, _, _ => UnitedStates.federalReserveIsHoliday_half
  | .unitedStates none, _, _, _ => UnitedStates.settlementIsBusinessDay_half
  | .weekendsOnly, _, _, _ => weekendsOnly_half y

theorem easterCal_total (r : DateInfo → Int → Bool) {d : Int} (h1 : 1901 ≤ yearOf d)
    (h2 : yearOf d ≤ 2199) : ∃ b, easterCal r d = .ok b := by
  obtain ⟨em, e, -⟩ := easter_monday_mod h1 h2
  exact ⟨_, by unfold easterCal; rw [e, Outcome.ok_bind]⟩

theorem orthodoxCal_total (r : DateInfo → Int → Bool) {d : Int} (h1 : 1901 ≤ yearOf d)
    (h2 : yearOf d ≤ 2199) : ∃ b, orthodoxCal r d = .ok b := by
  obtain ⟨em, e, -⟩ := orthodox_monday_mod h1 h2
  exact ⟨_, by unfold orthodoxCal; rw [e, Outcome.ok_bind]⟩

theorem polandWse_total {d : Int} (h1 : 1901 ≤ yearOf d) (h2 : yearOf d ≤ 2199) :
    ∃ b, polandWse d = .ok b := by
  unfold polandWse
  split
  · exact ⟨_, rfl⟩
  · exact easterCal_total _ h1 h2

theorem telAviv_total {d : Int} (h1 : 1901 ≤ yearOf d) (h2 : yearOf d ≤ 2199) :
    ∃ b, telAviv d = .ok b := by
  have s := yearOf_spec d
  have m1 := yearStart_mono h1
  have m2 := yearStart_mono (show yearOf d + 1 ≤ 2200 by omega)
  have e1 : minDay + 1000 < yearStart 1901 := by decide
  have e2 : yearStart 2200 + 1000 < maxDay := by decide
  unfold telAviv
  split
  · exact ⟨_, rfl⟩
  · rw [if_neg (by omega)]; exact ⟨_, rfl⟩

theorem shir_total {d : Int} (h1 : 1901 ≤ yearOf d) (h2 : yearOf d ≤ 2199) :
    ∃ b, shir d = .ok b := by
  obtain ⟨em, e, -⟩ := easter_monday_mod h1 h2
  unfold shir
  rw [e, Outcome.ok_bind]
  split <;> exact ⟨_, rfl⟩

theorem shipped_total {d : Int} : ∀ s : Shipped, 1901 ≤ yearOf d → yearOf d ≤ 2199 → ∃ b, s.cal d = .ok b
  | .argentina, h1, h2 => easterCal_total _ h1 h2
  | .australia (some .settlement), h1, h2 => easterCal_total _ h1 h2
  | .australia (some .asx), h1, h2 => easterCal_total _ h1 h2
  | .australia none, h1, h2 => easterCal_total _ h1 h2
  | .austria (some .settlement), h1, h2 => easterCal_total _ h1 h2
  | .austria (some .exchange), h1, h2 => easterCal_total _ h1 h2
  | .austria none, h1, h2 => easterCal_total _ h1 h2
  | .botswana, h1, h2 => easterCal_total _ h1 h2
  | .brazil (some .settlement), h1, h2 => easterCal_total _ h1 h2
  | .brazil (some .exchange), h1, h2 => easterCal_total _ h1 h2
  | .brazil none, h1, h2 => easterCal_total _ h1 h2
  | .canada (some .settlement), h1, h2 => easterCal_total _ h1 h2
  | .canada (some .tsx), h1, h2 => easterCal_total _ h1 h2
  | .canada none, h1, h2 => easterCal_total _ h1 h2
  | .chile, h1, h2 => easterCal_total _ h1 h2
  | .china, _, _ => ⟨_, rfl⟩
  | .czechRepublic, h1, h2 => easterCal_total _ h1 h2
  | .denmark, h1, h2 => easterCal_total _ h1 h2
  | .finland, h1, h2 => easterCal_total _ h1 h2
  | .france (some .settlement), h1, h2 => easterCal_total _ h1 h2
  | .france (some .exchange), h1, h2 => easterCal_total _ h1 h2
  | .france none, h1, h2 => easterCal_total _ h1 h2
  | .germany (some .settlement), h1, h2 => easterCal_total _ h1 h2
  | .germany (some .frankfurtStockExchange), h1, h2 => easterCal_total _ h1 h2
  | .germany (some .xetra), h1, h2 => easterCal_total _ h1 h2
  | .germany (some .eurex), h1, h2 => easterCal_total _ h1 h2
  | .germany (some .euwax), h1, h2 => easterCal_total _ h1 h2
  | .germany none, h1, h2 => easterCal_total _ h1 h2
  | .hongKong, h1, h2 => easterCal_total _ h1 h2
  | .hungary, h1, h2 => easterCal_total _ h1 h2
  | .iceland, h1, h2 => easterCal_total _ h1 h2
  | .india, h1, h2 => easterCal_total _ h1 h2
  | .indonesia, h1, h2 => easterCal_total _ h1 h2
  | .israel (some .telAviv), h1, h2 => telAviv_total h1 h2
  | .israel (some .shir), h1, h2 => shir_total h1 h2
  | .israel none, h1, h2 => shir_total h1 h2
  | .italy (some .settlement), h1, h2 => easterCal_total _ h1 h2
  | .italy (some .exchange), h1, h2 => easterCal_total _ h1 h2
  | .italy none, h1, h2 => easterCal_total _ h1 h2
  | .japan, _, _ => ⟨_, rfl⟩
  | .mexico, h1, h2 => easterCal_total _ h1 h2
  | .newZealand (some .wellington), h1, h2 => easterCal_total _ h1 h2
  | .newZealand (some .auckland), h1, h2 => easterCal_total _ h1 h2
  | .newZealand none, h1, h2 => easterCal_total _ h1 h2
  | .norway, h1, h2 => easterCal_total _ h1 h2
  | .poland (some .settlement), h1, h2 => easterCal_total _ h1 h2
  | .poland (some .wse), h1, h2 => polandWse_total h1 h2
  | .poland none, h1, h2 => easterCal_total _ h1 h2
  | .romania, h1, h2 => orthodoxCal_total _ h1 h2
  | .russia (some .settlement), _, _ => ⟨_, rfl⟩
  | .russia (some .exchange), _, _ => ⟨_, rfl⟩
  | .russia none, _, _ => ⟨_, rfl⟩
  | .singapore, h1, h2 => easterCal_total _ h1 h2
  | .slovakia, h1, h2 => easterCal_total _ h1 h2
  | .southAfrica, h1, h2 => easterCal_total _ h1 h2
  | .southKorea, _, _ => ⟨_, rfl⟩
  | .sweden, h1, h2 => easterCal_total _ h1 h2
  | .switzerland, h1, h2 => easterCal_total _ h1 h2
  | .taiwan, _, _ => ⟨_, rfl⟩
  | .target, h1, h2 => easterCal_total _ h1 h2
  | .thailand, h1, h2 => easterCal_total _ h1 h2
  | .turkey, _, _ => ⟨_, rfl⟩
  | .ukraine, h1, h2 => easterCal_total _ h1 h2
  | .unitedKingdom (some .settlement), h1, h2 => easterCal_total _ h1 h2
  | .unitedKingdom (some .exchange), h1, h2 => easterCal_total _ h1 h2
  | .unitedKingdom (some .metals), h1, h2 => easterCal_total _ h1 h2
  | .unitedKingdom none, h1, h2 => easterCal_total _ h1 h2
  | .unitedStates (some .settlement), _, _ => ⟨_, rfl⟩
  | .unitedStates (some .libor), _, _ => ⟨_, rfl⟩
  | .unitedStates (some .nyse), h1, h2 => easterCal_total _ h1 h2
  | .unitedStates (some .governmentBond), h1, h2 => easterCal_total _ h1 h2
  | .unitedStates (some .sofr), h1, h2 => easterCal_total _ h1 h2
  | .unitedStates (some .nerc), _, _ => ⟨_, rfl⟩
  | .unitedStates (some .federalReserve), _, _ => ⟨_, rfl⟩
  | .unitedStates none, _, _ => ⟨_, rfl⟩
  | .weekendsOnly, _, _ => ⟨_, rfl⟩

theorem easterCal_outside (r : DateInfo → Int → Bool) {d : Int} (h : yearOf d < 1901 ∨ 2199 < yearOf d) :
    easterCal r d = .panic := by
  unfold easterCal; rw [(C13_outside h).1]; rfl

theorem orthodoxCal_outside (r : DateInfo → Int → Bool) {d : Int}
    (h : yearOf d < 1901 ∨ 2199 < yearOf d) : orthodoxCal r d = .panic := by
  unfold orthodoxCal; rw [(C13_outside h).2]; rfl

theorem shir_outside {d : Int} (h : yearOf d < 1901 ∨ 2199 < yearOf d) : shir d = .panic := by
  unfold shir; rw [(C13_outside h).1]; rfl

theorem shipped_outside {d : Int} : ∀ s : Shipped, s.usesEaster = true → s ≠ .poland (some .wse) →
    (yearOf d < 1901 ∨ 2199 < yearOf d) → s.cal d = .panic
  | .argentina, _, _, h => easterCal_outside _ h
  | .australia (some .settlement), _, _, h => easterCal_outside _ h
  | .australia (some .asx), _, _, h => easterCal_outside _ h
  | .australia none, _, _, h => easterCal_outside _ h
  | .austria (some .settlement), _, _, h => easterCal_outside _ h
  | .austria (some .exchange), _, _, h => easterCal_outside _ h
  | .austria none, _, _, h => easterCal_outside _ h
  | .botswana, _, _, h => easterCal_outside _ h
  | .brazil (some .settlement), _, _, h => easterCal_outside _ h
  | .brazil (some .exchange), _, _, h => easterCal_outside _ h
  | .brazil none, _, _, h => easterCal_outside _ h
  | .canada (some .settlement), _, _, h => easterCal_outside _ h
  | .canada (some .tsx), _, _, h => easterCal_outside _ h
  | .canada none, _, _, h => easterCal_outside _ h
  | .chile, _, _, h => easterCal_outside _ h
  | .china, h, _, _ => by simp [Shipped.usesEaster] at h
  | .czechRepublic, _, _, h => easterCal_outside _ h
  | .denmark, _, _, h => easterCal_outside _ h
  | .finland, _, _, h => easterCal_outside _ h
  | .france (some .settlement), _, _, h => easterCal_outside _ h
  | .france (some .exchange), _, _, h => easterCal_outside _ h
  | .france none, _, _, h => easterCal_outside _ h
  | .germany (some .settlement), _, _, h => easterCal_outside _ h
  | .germany (some .frankfurtStockExchange), _, _, h => easterCal_outside _ h
  | .germany (some .xetra), _, _, h => easterCal_outside _ h
  | .germany (some .eurex), _, _, h => easterCal_outside _ h
  | .germany (some .euwax), _, _, h => easterCal_outside _ h
  | .germany none, _, _, h => easterCal_outside _ h
  | .hongKong, _, _, h => easterCal_outside _ h
  | .hungary, _, _, h => easterCal_outside _ h
  | .iceland, _, _, h => easterCal_outside _ h
  | .india, _, _, h => easterCal_outside _ h
  | .indonesia, _, _, h => easterCal_outside _ h
  | .israel (some .telAviv), h, _, _ => by simp [Shipped.usesEaster] at h
  | .israel (some .shir), _, _, h => shir_outside h
  | .israel none, _, _, h => shir_outside h
  | .italy (some .settlement), _, _, h => easterCal_outside _ h
  | .italy (some .exchange), _, _, h => easterCal_outside _ h
  | .italy none, _, _, h => easterCal_outside _ h
  | .japan, h, _, _ => by simp [Shipped.usesEaster] at h
  | .mexico, _, _, h => easterCal_outside _ h
  | .newZealand (some .wellington), _, _, h => easterCal_outside _ h
  | .newZealand (some .auckland), _, _, h => easterCal_outside _ h
  | .newZealand none, _, _, h => easterCal_outside _ h
  | .norway, _, _, h => easterCal_outside _ h
  | .poland (some .settlement), _, _, h => easterCal_outside _ h
  | .poland (some .wse), _, h, _ => absurd rfl h
  | .poland none, _, _, h => easterCal_outside _ h
  | .romania, _, _, h => orthodoxCal_outside _ h
  | .russia (some .settlement), h, _, _ => by simp [Shipped.usesEaster] at h
  | .russia (some .exchange), h, _, _ => by simp [Shipped.usesEaster] at h
  | .russia none, h, _, _ => by simp [Shipped.usesEaster] at h
  | .singapore, _, _, h => easterCal_outside _ h
  | .slovakia, _, _, h => easterCal_outside _ h
  | .southAfrica, _, _, h => easterCal_outside _ h
  | .southKorea, h, _, _ => by simp [Shipped.usesEaster] at h
  | .sweden, _, _, h => easterCal_outside _ h
  | .switzerland, _, _, h => easterCal_outside _ h
  | .taiwan, h, _, _ => by simp [Shipped.usesEaster] at h
  | .target, _, _, h => easterCal_outside _ h
  | .thailand, _, _, h => easterCal_outside _ h
  | .turkey, h, _, _ => by simp [Shipped.usesEaster] at h
  | .ukraine, _, _, h => easterCal_outside _ h
  | .unitedKingdom (some .settlement), _, _, h => easterCal_outside _ h
  | .unitedKingdom (some .exchange), _, _, h => easterCal_outside _ h
  | .unitedKingdom (some .metals), _, _, h => easterCal_outside _ h
  | .unitedKingdom none, _, _, h => easterCal_outside _ h
  | .unitedStates (some .settlement), h, _, _ => by simp [Shipped.usesEaster] at h
  | .unitedStates (some .libor), h, _, _ => by simp [Shipped.usesEaster] at h
  | .unitedStates (some .nyse), _, _, h => easterCal_outside _ h
  | .unitedStates (some .governmentBond), _, _, h => easterCal_outside _ h
  | .unitedStates (some .sofr), _, _, h => easterCal_outside _ h
  | .unitedStates (some .nerc), h, _, _ => by simp [Shipped.usesEaster] at h
  | .unitedStates (some .federalReserve), h, _, _ => by simp [Shipped.usesEaster] at h
  | .unitedStates none, h, _, _ => by simp [Shipped.usesEaster] at h
  | .weekendsOnly, h, _, _ => by simp [Shipped.usesEaster] at h

end Verif
