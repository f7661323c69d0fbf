import Verif.Model.CalBase

/-! # `/repo/src/time/calendars/brazil.rs`

Transcribed by a script from the Rust source. -/

namespace Verif.Brazil

/-- `settlement_is_business_day` (`brazil.rs` 20-57). -/
def settlementIsBusinessDay (t : DateInfo) (em : Int) : Bool :=
  bif t.w.isWeekend
        || (t.d == 1 && t.m == 1)
        || (t.d == 21 && t.m == 4)
        || (t.d == 1 && t.m == 5)
        || (t.d == 7 && t.m == 9)
        || (t.d == 12 && t.m == 10)
        || (t.d == 2 && t.m == 11)
        || (t.d == 15 && t.m == 11)
        || (t.d == 20 && t.m == 11 && decide (t.y ≥ 2024))
        || (t.d == 25 && t.m == 12)
        || t.dd == em - 3
        || t.dd == em - 49
        || t.dd == em - 48
        || t.dd == em + 59 then
    false
  else
    true

/-- `exchange_is_business_day` (`brazil.rs` 59-101). -/
def exchangeIsBusinessDay (t : DateInfo) (em : Int) : Bool :=
  bif t.w.isWeekend
        || (t.d == 1 && t.m == 1)
        || (t.d == 25 && t.m == 1 && decide (t.y < 2022))
        || (t.d == 21 && t.m == 4)
        || (t.d == 1 && t.m == 5)
        || (t.d == 9 && t.m == 7 && decide (t.y < 2022))
        || (t.d == 7 && t.m == 9)
        || (t.d == 12 && t.m == 10)
        || (t.d == 2 && t.m == 11)
        || (t.d == 15 && t.m == 11)
        || (t.d == 20 && t.m == 11 && decide (t.y ≥ 2007) && !(t.y == 2022) && !(t.y == 2023))
        || (t.d == 24 && t.m == 12)
        || (t.d == 25 && t.m == 12)
        || t.dd == em - 3
        || t.dd == em - 49
        || t.dd == em - 48
        || t.dd == em + 59
        || (t.m == 12 && (t.d == 31 || (decide (t.d ≥ 29) && t.w == .fri))) then
    false
  else
    true

end Verif.Brazil

namespace Verif

/-- `enum BrazilMarket` (`brazil.rs`). -/
inductive BrazilMarket where
  | settlement | exchange
  deriving DecidableEq, Repr

/-- `Brazil::is_business_day` (`brazil.rs` 106-112). -/
def brazil : Option BrazilMarket → Cal
  | some .settlement => easterCal Brazil.settlementIsBusinessDay
  | some .exchange => easterCal Brazil.exchangeIsBusinessDay
  | none => easterCal Brazil.settlementIsBusinessDay

end Verif
