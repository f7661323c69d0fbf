import Verif.Model.CalBase

/-! # `/repo/src/time/calendars/poland.rs`

Transcribed by a script from the Rust source. -/

namespace Verif.Poland

/-- `settlement_is_business_day` (`poland.rs` 20-52). -/
def settlementIsBusinessDay (t : DateInfo) (em : Int) : Bool :=
  bif t.w.isWeekend
        || t.dd == em
        || t.dd == em + 59
        || (t.d == 1 && t.m == 1)
        || (t.d == 6 && t.m == 1 && decide (t.y ≥ 2011))
        || (t.d == 1 && t.m == 5)
        || (t.d == 3 && t.m == 5)
        || (t.d == 15 && t.m == 8)
        || (t.d == 1 && t.m == 11)
        || (t.d == 11 && t.m == 11)
        || (t.d == 25 && t.m == 12)
        || (t.d == 26 && t.m == 12) then
    false
  else
    true

end Verif.Poland

namespace Verif

/-- `wse_is_business_day` (`poland.rs` 54-61): 24 and 31 December are decided
before Easter is looked up. -/
def polandWse : Cal := fun date =>
  if (dayOf date = 24 ∨ dayOf date = 31) ∧ monthOf date = 12 then .ok false
  else easterCal Poland.settlementIsBusinessDay date

/-- `enum PolandMarket` (`poland.rs`). -/
inductive PolandMarket where
  | settlement | wse
  deriving DecidableEq, Repr

/-- `Poland::is_business_day` (`poland.rs` 65-71). -/
def poland : Option PolandMarket → Cal
  | some .settlement => easterCal Poland.settlementIsBusinessDay
  | some .wse => polandWse
  | none => easterCal Poland.settlementIsBusinessDay

end Verif
