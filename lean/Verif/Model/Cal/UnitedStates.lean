import Verif.Model.CalBase

/-! # `/repo/src/time/calendars/unitedstates.rs`

Transcribed by a script from the Rust source. -/

namespace Verif.UnitedStates

/-- `is_washington_birthday` (`unitedstates.rs` 24-30). -/
def isWashingtonBirthday (t : DateInfo) : Bool :=
  (decide (t.y ≥ 1971) && inRange 15 21 t.d && t.w == .mon && t.m == 2)
  || (decide (t.y < 1971) && (t.d == 22 || (t.d == 23 && t.w == .mon) || (t.d == 21 && t.w == .fri)) && t.m == 2)

/-- `is_memorial_day` (`unitedstates.rs` 32-38). -/
def isMemorialDay (t : DateInfo) : Bool :=
  (decide (t.y ≥ 1971) && decide (t.d ≥ 25) && t.w == .mon && t.m == 5)
  || (decide (t.y < 1971) && (t.d == 30 || (t.d == 31 && t.w == .mon) || (t.d == 29 && t.w == .fri)) && t.m == 5)

/-- `is_labor_day` (`unitedstates.rs` 40-43). -/
def isLaborDay (t : DateInfo) : Bool :=
  decide (t.d ≤ 7) && t.w == .mon && t.m == 9

/-- `is_columbus_day` (`unitedstates.rs` 45-48). -/
def isColumbusDay (t : DateInfo) : Bool :=
  inRange 8 14 t.d && t.w == .mon && t.m == 10 && decide (t.y ≥ 1971)

/-- `is_veterans_day` (`unitedstates.rs` 50-58). -/
def isVeteransDay (t : DateInfo) : Bool :=
  ((decide (t.y ≤ 1970) || decide (t.y ≥ 1978)) && (t.d == 11 || (t.d == 12 && t.w == .mon) || (t.d == 10 && t.w == .fri)) && t.m == 11)
  || (decide (t.y > 1970) && decide (t.y < 1978) && inRange 22 28 t.d && t.w == .mon && t.m == 10)

/-- `is_veterans_day_no_saturday` (`unitedstates.rs` 60-66). -/
def isVeteransDayNoSaturday (t : DateInfo) : Bool :=
  ((decide (t.y ≤ 1970) || decide (t.y ≥ 1978)) && (t.d == 11 || (t.d == 12 && t.w == .mon)) && t.m == 11)
  || (decide (t.y > 1970) && decide (t.y < 1978) && inRange 22 28 t.d && t.w == .mon && t.m == 10)

/-- `is_juneteenth` (`unitedstates.rs` 68-73). -/
def isJuneteenth (t : DateInfo) : Bool :=
  (t.d == 19 || (t.d == 20 && t.w == .mon) || (t.d == 18 && t.w == .fri)) && t.m == 6 && decide (t.y ≥ 2022)

/-- `settlement_is_business_day` (`unitedstates.rs` 75-108). -/
def settlementIsBusinessDay (t : DateInfo) : Bool :=
  bif t.w.isWeekend
        || ((t.d == 1 || (t.d == 2 && t.w == .mon)) && t.m == 1)
        || (t.d == 31 && t.w == .fri && t.m == 12)
        || (inRange 15 21 t.d && t.w == .mon && t.m == 1 && decide (t.y ≥ 1983))
        || isWashingtonBirthday t
        || isMemorialDay t
        || isJuneteenth t
        || ((t.d == 4 || (t.d == 5 && t.w == .mon) || (t.d == 3 && t.w == .fri)) && t.m == 7)
        || isLaborDay t
        || isColumbusDay t
        || isVeteransDay t
        || (inRange 22 28 t.d && t.w == .thu && t.m == 11)
        || ((t.d == 25 || (t.d == 26 && t.w == .mon) || (t.d == 24 && t.w == .fri)) && t.m == 12) then
    false
  else
    true

/-- `libor_is_business_day` (`unitedstates.rs` 110-116). -/
def liborIsBusinessDay (t : DateInfo) : Bool :=
  bif ((t.d == 5 && t.w == .mon) || (t.d == 3 && t.w == .fri)) && t.m == 7 && decide (t.y ≥ 2015) then
    true
  else settlementIsBusinessDay t

/-- `nyse_is_business_day` (`unitedstates.rs` 118-204). -/
def nyseIsBusinessDay (t : DateInfo) (em : Int) : Bool :=
  bif t.w.isWeekend
            || ((t.d == 1 || (t.d == 2 && t.w == .mon)) && t.m == 1)
            || isWashingtonBirthday t
            || t.dd == em - 3
            || isMemorialDay t
            || isJuneteenth t
            || ((t.d == 4 || (t.d == 5 && t.w == .mon) || (t.d == 3 && t.w == .fri)) && t.m == 7)
            || isLaborDay t
            || (inRange 22 28 t.d && t.w == .thu && t.m == 11)
            || ((t.d == 25 || (t.d == 26 && t.w == .mon) || (t.d == 24 && t.w == .fri)) && t.m == 12) then
    false
  else bif decide (t.y ≥ 1998) && inRange 15 21 t.d && t.w == .mon && t.m == 1 then
    false
  else bif (decide (t.y ≤ 1968) || (decide (t.y ≤ 1980) && Int.tmod t.y 4 == 0)) && t.m == 11 && decide (t.d ≤ 7) && t.w == .tue then
    false
  else bif (t.y == 2018 && t.m == 12 && t.d == 5)
            || (t.y == 2012 && t.m == 10 && (t.d == 29 || t.d == 30))
            || (t.y == 2007 && t.m == 1 && t.d == 2)
            || (t.y == 2004 && t.m == 6 && t.d == 11)
            || (t.y == 2001 && t.m == 9 && inRange 11 14 t.d)
            || (t.y == 1994 && t.m == 4 && t.d == 27)
            || (t.y == 1985 && t.m == 9 && t.d == 27)
            || (t.y == 1977 && t.m == 7 && t.d == 14)
            || (t.y == 1973 && t.m == 1 && t.d == 25)
            || (t.y == 1972 && t.m == 12 && t.d == 28)
            || (t.y == 1969 && t.m == 7 && t.d == 21)
            || (t.y == 1969 && t.m == 3 && t.d == 31)
            || (t.y == 1969 && t.m == 2 && t.d == 10)
            || (t.y == 1968 && t.m == 7 && t.d == 5)
            || (t.y == 1968 && decide (t.dd ≥ 163) && t.w == .wed)
            || (t.y == 1968 && t.m == 4 && t.d == 9)
            || (t.y == 1963 && t.m == 11 && t.d == 25)
            || (t.y == 1961 && t.m == 5 && t.d == 29)
            || (t.y == 1958 && t.m == 12 && t.d == 26)
            || ((t.y == 1954 || t.y == 1956 || t.y == 1965) && t.m == 12 && t.d == 24) then
    false
  else true

/-- `government_bond_is_business_day` (`unitedstates.rs` 206-264). -/
def governmentBondIsBusinessDay (t : DateInfo) (em : Int) : Bool :=
  bif t.w.isWeekend
            || ((t.d == 1 || (t.d == 2 && t.w == .mon)) && t.m == 1)
            || (inRange 15 21 t.d && t.w == .mon && t.m == 1 && decide (t.y ≥ 1983))
            || isWashingtonBirthday t
            || (t.dd == em - 3 && (decide (t.y < 1996) || decide (t.d > 7)))
            || isMemorialDay t
            || isJuneteenth t
            || ((t.d == 4 || (t.d == 5 && t.w == .mon) || (t.d == 3 && t.w == .fri)) && t.m == 7)
            || isLaborDay t
            || isColumbusDay t
            || isVeteransDayNoSaturday t
            || (inRange 22 28 t.d && t.w == .thu && t.m == 11)
            || ((t.d == 25 || (t.d == 26 && t.w == .mon) || (t.d == 24 && t.w == .fri)) && t.m == 12) then
    false
  else bif (t.y == 2018 && t.d == 5 && t.m == 12)
            || (t.y == 2025 && t.d == 9 && t.m == 1)
            || (t.y == 2012 && t.m == 10 && t.d == 30)
            || (t.y == 2004 && t.m == 6 && t.d == 11) then
    false
  else true

/-- `sofr_is_business_day` (`unitedstates.rs` 266-276). -/
def sofrIsBusinessDay (t : DateInfo) (em : Int) : Bool :=
  bif t.dd == em - 3 then
    false
  else
    governmentBondIsBusinessDay t em

/-- `nerc_is_business_day` (`unitedstates.rs` 278-298). -/
def nercIsBusinessDay (t : DateInfo) : Bool :=
  bif t.w.isWeekend
        || ((t.d == 1 || (t.d == 2 && t.w == .mon)) && t.m == 1)
        || isMemorialDay t
        || ((t.d == 4 || (t.d == 5 && t.w == .mon)) && t.m == 7)
        || isLaborDay t
        || (inRange 22 28 t.d && t.w == .thu && t.m == 11)
        || ((t.d == 25 || (t.d == 26 && t.w == .mon)) && t.m == 12) then
    false
  else
    true

/-- `federal_reserve_is_holiday` (`unitedstates.rs` 300-331). -/
def federalReserveIsHoliday (t : DateInfo) : Bool :=
  bif t.w.isWeekend
        || ((t.d == 1 || (t.d == 2 && t.w == .mon)) && t.m == 1)
        || (inRange 15 21 t.d && t.w == .mon && t.m == 1 && decide (t.y ≥ 1983))
        || isWashingtonBirthday t
        || isMemorialDay t
        || isJuneteenth t
        || ((t.d == 4 || (t.d == 5 && t.w == .mon)) && t.m == 7)
        || isLaborDay t
        || isColumbusDay t
        || isVeteransDayNoSaturday t
        || (inRange 22 28 t.d && t.w == .thu && t.m == 11)
        || ((t.d == 25 || (t.d == 26 && t.w == .mon)) && t.m == 12) then
    false
  else
    true

end Verif.UnitedStates

namespace Verif

/-- `enum UnitedStatesMarket` (`unitedstates.rs`). -/
inductive UnitedStatesMarket where
  | settlement | libor | nyse | governmentBond | sofr | nerc | federalReserve
  deriving DecidableEq, Repr

/-- `UnitedStates::is_business_day` (`unitedstates.rs` 336-347). -/
def unitedStates : Option UnitedStatesMarket → Cal
  | some .settlement => plainCal UnitedStates.settlementIsBusinessDay
  | some .libor => plainCal UnitedStates.liborIsBusinessDay
  | some .nyse => easterCal UnitedStates.nyseIsBusinessDay
  | some .governmentBond => easterCal UnitedStates.governmentBondIsBusinessDay
  | some .sofr => easterCal UnitedStates.sofrIsBusinessDay
  | some .nerc => plainCal UnitedStates.nercIsBusinessDay
  | some .federalReserve => plainCal UnitedStates.federalReserveIsHoliday
  | none => plainCal UnitedStates.settlementIsBusinessDay

end Verif
