import Verif.Model.Calendar
import Verif.Model.Shipped

/-!
# Currency pairs

Model of `FXUnderlying` (`/repo/src/derivatives/forex/basic.rs` 21-249).  The crate
`iso_currency` is represented by the 29 currencies that occur in the pairs; the model
of `Currency::from_code` knows exactly their ISO 4217 codes.  A time of day is the
number of whole seconds since midnight: every cut-off is a whole second, so the
sub-second part of chrono's `NaiveTime` cannot change the comparison.
-/

namespace Verif

/-- The currencies used by the pairs (`basic.rs` 92-125). -/
inductive Ccy where
  | eur | gbp | usd | jpy | cad | aud | nzd | chf | nok | sek | mxn | «try» | rub | sgd
  | hkd | cny | pln | huf | czk | zar | krw | inr | brl | dkk | idr | twd | thb | ils | ron
  deriving DecidableEq, Repr

/-- All currencies of the model. -/
def Ccy.all : List Ccy := [
  .eur, .gbp, .usd, .jpy, .cad, .aud, .nzd, .chf, .nok, .sek, .mxn, .«try», .rub, .sgd,
  .hkd, .cny, .pln, .huf, .czk, .zar, .krw, .inr, .brl, .dkk, .idr, .twd, .thb, .ils, .ron]

/-- ISO 4217 code (crate `iso_currency`, `Currency::code`). -/
def Ccy.code : Ccy → List Char
  | .eur => ['E', 'U', 'R']
  | .gbp => ['G', 'B', 'P']
  | .usd => ['U', 'S', 'D']
  | .jpy => ['J', 'P', 'Y']
  | .cad => ['C', 'A', 'D']
  | .aud => ['A', 'U', 'D']
  | .nzd => ['N', 'Z', 'D']
  | .chf => ['C', 'H', 'F']
  | .nok => ['N', 'O', 'K']
  | .sek => ['S', 'E', 'K']
  | .mxn => ['M', 'X', 'N']
  | .«try» => ['T', 'R', 'Y']
  | .rub => ['R', 'U', 'B']
  | .sgd => ['S', 'G', 'D']
  | .hkd => ['H', 'K', 'D']
  | .cny => ['C', 'N', 'Y']
  | .pln => ['P', 'L', 'N']
  | .huf => ['H', 'U', 'F']
  | .czk => ['C', 'Z', 'K']
  | .zar => ['Z', 'A', 'R']
  | .krw => ['K', 'R', 'W']
  | .inr => ['I', 'N', 'R']
  | .brl => ['B', 'R', 'L']
  | .dkk => ['D', 'K', 'K']
  | .idr => ['I', 'D', 'R']
  | .twd => ['T', 'W', 'D']
  | .thb => ['T', 'H', 'B']
  | .ils => ['I', 'L', 'S']
  | .ron => ['R', 'O', 'N']

/-- `Currency::from_code` (crate `iso_currency`), restricted to the currencies of the
model. -/
def Ccy.fromCode (s : List Char) : Option Ccy := Ccy.all.find? fun c => c.code == s

/-- `currency_to_country` (`basic.rs` 92-125); `default()` of a calendar with markets
leaves the market unset.  The fallback arm `_ => Target` is unreachable for the
currencies of the model. -/
def Ccy.country : Ccy → Shipped
  | .eur => .target
  | .gbp => .unitedKingdom none
  | .usd => .unitedStates none
  | .jpy => .japan
  | .cad => .canada none
  | .aud => .australia none
  | .nzd => .newZealand none
  | .chf => .switzerland
  | .nok => .norway
  | .sek => .sweden
  | .mxn => .mexico
  | .«try» => .turkey
  | .rub => .russia none
  | .sgd => .singapore
  | .hkd => .hongKong
  | .cny => .china
  | .pln => .poland none
  | .huf => .hungary
  | .czk => .czechRepublic
  | .zar => .southAfrica
  | .krw => .southKorea
  | .inr => .india
  | .brl => .brazil none
  | .dkk => .denmark
  | .idr => .indonesia
  | .twd => .taiwan
  | .thb => .thailand
  | .ils => .israel none
  | .ron => .romania

/-- `FXUnderlying` (`basic.rs` 21-89). -/
inductive Pair where
  | eurgbp | eurusd | eurcad | eurjpy | eurchf | eurnok | eursek | euraud | eurnzd | eurdkk
  | eurpln | eurhuf | eurczk | eurron | gbpusd | gbpcad | gbpjpy | gbpaud | gbpnzd | gbpchf
  | gbpnok | gbpsek | audusd | nzdusd | usdchf | usdnok | usdsek | usdjpy | usdsgd | usdhkd
  | usdcny | usdpln | usdhuf | usdczk | usdzar | usdkrw | usdinr | usdbrl | usddkk | usdidr
  | usdtwd | usdthb | usdils | usdron | usdcad | usdmxn | usdtry | usdrub | audnzd | audcad
  | audchf | audjpy | audsgd | nzdcad | nzdchf | nzdjpy | nzdsgd | cadjpy | chfjpy | cadchf
  deriving DecidableEq, Repr

/-- All pairs in source order. -/
def Pair.all : List Pair := [
  .eurgbp, .eurusd, .eurcad, .eurjpy, .eurchf, .eurnok, .eursek, .euraud, .eurnzd, .eurdkk,
  .eurpln, .eurhuf, .eurczk, .eurron, .gbpusd, .gbpcad, .gbpjpy, .gbpaud, .gbpnzd, .gbpchf,
  .gbpnok, .gbpsek, .audusd, .nzdusd, .usdchf, .usdnok, .usdsek, .usdjpy, .usdsgd, .usdhkd,
  .usdcny, .usdpln, .usdhuf, .usdczk, .usdzar, .usdkrw, .usdinr, .usdbrl, .usddkk, .usdidr,
  .usdtwd, .usdthb, .usdils, .usdron, .usdcad, .usdmxn, .usdtry, .usdrub, .audnzd, .audcad,
  .audchf, .audjpy, .audsgd, .nzdcad, .nzdchf, .nzdjpy, .nzdsgd, .cadjpy, .chfjpy, .cadchf]

/-- `to_string()` of the derived `strum::Display` (`basic.rs` 20). -/
def Pair.name : Pair → List Char
  | .eurgbp => ['E', 'U', 'R', 'G', 'B', 'P']
  | .eurusd => ['E', 'U', 'R', 'U', 'S', 'D']
  | .eurcad => ['E', 'U', 'R', 'C', 'A', 'D']
  | .eurjpy => ['E', 'U', 'R', 'J', 'P', 'Y']
  | .eurchf => ['E', 'U', 'R', 'C', 'H', 'F']
  | .eurnok => ['E', 'U', 'R', 'N', 'O', 'K']
  | .eursek => ['E', 'U', 'R', 'S', 'E', 'K']
  | .euraud => ['E', 'U', 'R', 'A', 'U', 'D']
  | .eurnzd => ['E', 'U', 'R', 'N', 'Z', 'D']
  | .eurdkk => ['E', 'U', 'R', 'D', 'K', 'K']
  | .eurpln => ['E', 'U', 'R', 'P', 'L', 'N']
  | .eurhuf => ['E', 'U', 'R', 'H', 'U', 'F']
  | .eurczk => ['E', 'U', 'R', 'C', 'Z', 'K']
  | .eurron => ['E', 'U', 'R', 'R', 'O', 'N']
  | .gbpusd => ['G', 'B', 'P', 'U', 'S', 'D']
  | .gbpcad => ['G', 'B', 'P', 'C', 'A', 'D']
  | .gbpjpy => ['G', 'B', 'P', 'J', 'P', 'Y']
  | .gbpaud => ['G', 'B', 'P', 'A', 'U', 'D']
  | .gbpnzd => ['G', 'B', 'P', 'N', 'Z', 'D']
  | .gbpchf => ['G', 'B', 'P', 'C', 'H', 'F']
  | .gbpnok => ['G', 'B', 'P', 'N', 'O', 'K']
  | .gbpsek => ['G', 'B', 'P', 'S', 'E', 'K']
  | .audusd => ['A', 'U', 'D', 'U', 'S', 'D']
  | .nzdusd => ['N', 'Z', 'D', 'U', 'S', 'D']
  | .usdchf => ['U', 'S', 'D', 'C', 'H', 'F']
  | .usdnok => ['U', 'S', 'D', 'N', 'O', 'K']
  | .usdsek => ['U', 'S', 'D', 'S', 'E', 'K']
  | .usdjpy => ['U', 'S', 'D', 'J', 'P', 'Y']
  | .usdsgd => ['U', 'S', 'D', 'S', 'G', 'D']
  | .usdhkd => ['U', 'S', 'D', 'H', 'K', 'D']
  | .usdcny => ['U', 'S', 'D', 'C', 'N', 'Y']
  | .usdpln => ['U', 'S', 'D', 'P', 'L', 'N']
  | .usdhuf => ['U', 'S', 'D', 'H', 'U', 'F']
  | .usdczk => ['U', 'S', 'D', 'C', 'Z', 'K']
  | .usdzar => ['U', 'S', 'D', 'Z', 'A', 'R']
  | .usdkrw => ['U', 'S', 'D', 'K', 'R', 'W']
  | .usdinr => ['U', 'S', 'D', 'I', 'N', 'R']
  | .usdbrl => ['U', 'S', 'D', 'B', 'R', 'L']
  | .usddkk => ['U', 'S', 'D', 'D', 'K', 'K']
  | .usdidr => ['U', 'S', 'D', 'I', 'D', 'R']
  | .usdtwd => ['U', 'S', 'D', 'T', 'W', 'D']
  | .usdthb => ['U', 'S', 'D', 'T', 'H', 'B']
  | .usdils => ['U', 'S', 'D', 'I', 'L', 'S']
  | .usdron => ['U', 'S', 'D', 'R', 'O', 'N']
  | .usdcad => ['U', 'S', 'D', 'C', 'A', 'D']
  | .usdmxn => ['U', 'S', 'D', 'M', 'X', 'N']
  | .usdtry => ['U', 'S', 'D', 'T', 'R', 'Y']
  | .usdrub => ['U', 'S', 'D', 'R', 'U', 'B']
  | .audnzd => ['A', 'U', 'D', 'N', 'Z', 'D']
  | .audcad => ['A', 'U', 'D', 'C', 'A', 'D']
  | .audchf => ['A', 'U', 'D', 'C', 'H', 'F']
  | .audjpy => ['A', 'U', 'D', 'J', 'P', 'Y']
  | .audsgd => ['A', 'U', 'D', 'S', 'G', 'D']
  | .nzdcad => ['N', 'Z', 'D', 'C', 'A', 'D']
  | .nzdchf => ['N', 'Z', 'D', 'C', 'H', 'F']
  | .nzdjpy => ['N', 'Z', 'D', 'J', 'P', 'Y']
  | .nzdsgd => ['N', 'Z', 'D', 'S', 'G', 'D']
  | .cadjpy => ['C', 'A', 'D', 'J', 'P', 'Y']
  | .chfjpy => ['C', 'H', 'F', 'J', 'P', 'Y']
  | .cadchf => ['C', 'A', 'D', 'C', 'H', 'F']

/-- `dom_currency` (`basic.rs` 235-237): the code from byte 3 on. -/
def Pair.dom (p : Pair) : Outcome Ccy := unwrap (Ccy.fromCode (p.name.drop 3))

/-- `frn_currency` (`basic.rs` 239-241): the first three bytes. -/
def Pair.frn (p : Pair) : Outcome Ccy := unwrap (Ccy.fromCode (p.name.take 3))

/-- `FXUnderlying::calendar` (`basic.rs` 243-247): domestic calendar first.  The panics
of `dom_currency` and `frn_currency` are moved to the first use of the calendar. -/
def Pair.calendar (p : Pair) : Cal := fun date => do
  let d ← p.dom
  let f ← p.frn
  joint [d.country.cal, f.country.cal] date

/-- `forward_points_converter` (`basic.rs` 127-138). -/
def Pair.converter : Pair → Int
  | .cadjpy | .usdjpy | .gbpjpy | .eurjpy | .audjpy | .nzdjpy | .chfjpy => 100
  | _ => 10000

/-- Denominator of the day counter chosen by `day_count` (`basic.rs` 140-145):
Actual/360 or Actual/365 Fixed. -/
def Pair.dayCountDenominator : Pair → Int
  | .eurusd | .usdjpy => 360
  | _ => 365

/-- `settles` (`basic.rs` 147-156). -/
def Pair.settles : Pair → Int
  | .usdcad | .usdmxn | .usdtry | .usdrub => 1
  | _ => 2

/-- `cutoff_utc` (`basic.rs` 167-176), in seconds since midnight. -/
def Pair.cutoff : Pair → Int
  | .usdcad | .usdmxn => 17 * 3600
  | .usdtry => 9 * 3600
  | .usdrub => 9 * 3600 + 30 * 60
  | _ => 22 * 3600

/-- `effective_valuation_date` (`basic.rs` 183-198). -/
def Pair.effectiveValuationDate (p : Pair) (valuation time : Int) : Outcome Int :=
  if time ≥ p.cutoff then do
    rollFwd p.calendar (← addDays valuation 1)
  else .ok valuation

/-- `FXUnderlying::settlement_date` (`basic.rs` 205-208). -/
def Pair.settlementDate (p : Pair) (period : Period) (valuation : Int) : Outcome Int :=
  settlementDateWithLag period valuation p.calendar p.settles

/-- `FXUnderlying::near_date` (`basic.rs` 214-221). -/
def Pair.nearDate (p : Pair) (period : Period) (valuation : Int) : Outcome (Option Int) :=
  nearDateWithLag period valuation p.calendar p.settles

end Verif
