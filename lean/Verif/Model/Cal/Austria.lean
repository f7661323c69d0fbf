import Verif.Model.CalBase

/-! # `/repo/src/time/calendars/austria.rs`

Transcribed by a script from the Rust source. -/

namespace Verif.Austria

/-- `settlement_is_business_day` (`austria.rs` 20-56). -/
def settlementIsBusinessDay (t : DateInfo) (em : Int) : Bool :=
  bif t.w.isWeekend
            || (t.d == 1 && t.m == 1)
            || (t.d == 6 && t.m == 1)
            || t.dd == em
            || t.dd == em + 38
            || t.dd == em + 49
            || t.dd == em + 59
            || (t.d == 1 && t.m == 5)
            || (t.d == 15 && t.m == 8)
            || (t.d == 26 && t.m == 10 && decide (t.y ≥ 1967))
            || (t.d == 12 && t.m == 11 && inRange 1919 1934 t.y)
            || (t.d == 1 && t.m == 11)
            || (t.d == 8 && t.m == 12)
            || (t.d == 25 && t.m == 12)
            || (t.d == 26 && t.m == 12) then
    false
  else true

/-- `exchange_is_business_day` (`austria.rs` 58-88). -/
def exchangeIsBusinessDay (t : DateInfo) (em : Int) : Bool :=
  bif t.w.isWeekend
            || (t.d == 1 && t.m == 1)
            || t.dd == em - 3
            || t.dd == em
            || t.dd == em + 49
            || (t.d == 1 && t.m == 5)
            || (t.d == 26 && t.m == 10 && decide (t.y ≥ 1967))
            || (t.d == 12 && t.m == 11 && inRange 1919 1934 t.y)
            || (t.d == 24 && t.m == 12)
            || (t.d == 25 && t.m == 12)
            || (t.d == 26 && t.m == 12)
            || (t.d == 31 && t.m == 12) then
    false
  else true

end Verif.Austria

namespace Verif

/-- `enum AustriaMarket` (`austria.rs`). -/
inductive AustriaMarket where
  | settlement | exchange
  deriving DecidableEq, Repr

/-- `Austria::is_business_day` (`austria.rs` 93-99). -/
def austria : Option AustriaMarket → Cal
  | some .settlement => easterCal Austria.settlementIsBusinessDay
  | some .exchange => easterCal Austria.exchangeIsBusinessDay
  | none => easterCal Austria.settlementIsBusinessDay

end Verif
