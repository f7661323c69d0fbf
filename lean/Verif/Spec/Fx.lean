import Verif.Model.FxPair

/-!
# What a currency pair promises

Independent tables: the market whose holidays a currency follows, the pairs that
settle after one day, the pairs quoted in yen, and the cut-off times.
-/

namespace Verif

/-- The market whose business days a currency follows. -/
def homeMarket : List (String × Shipped) := [
  ("EUR", .target),
  ("GBP", .unitedKingdom none),
  ("USD", .unitedStates none),
  ("JPY", .japan),
  ("CAD", .canada none),
  ("AUD", .australia none),
  ("NZD", .newZealand none),
  ("CHF", .switzerland),
  ("NOK", .norway),
  ("SEK", .sweden),
  ("MXN", .mexico),
  ("TRY", .turkey),
  ("RUB", .russia none),
  ("SGD", .singapore),
  ("HKD", .hongKong),
  ("CNY", .china),
  ("PLN", .poland none),
  ("HUF", .hungary),
  ("CZK", .czechRepublic),
  ("ZAR", .southAfrica),
  ("KRW", .southKorea),
  ("INR", .india),
  ("BRL", .brazil none),
  ("DKK", .denmark),
  ("IDR", .indonesia),
  ("TWD", .taiwan),
  ("THB", .thailand),
  ("ILS", .israel none),
  ("RON", .romania)]

/-- The pairs that settle one day after the trade; all others after two. -/
def nextDayPairs : List String := ["USDCAD", "USDMXN", "USDTRY", "USDRUB"]

/-- Cut-off times (hour, minute, UTC) other than 22:00. -/
def earlyCutoffs : List (String × Int × Int) :=
  [("USDCAD", 17, 0), ("USDMXN", 17, 0), ("USDTRY", 9, 0), ("USDRUB", 9, 30)]

/-- The day `r` is the first after `d` on which both calendars are open. -/
def FirstCommonOpenAfter (a b : Cal) (d r : Int) : Prop :=
  d < r ∧ a r = .ok true ∧ b r = .ok true ∧
    ∀ x, d < x → x < r → ¬ (a x = .ok true ∧ b x = .ok true)

/-- The pairs whose day counter is Actual/360 according to `basic.rs`. -/
def days360Pairs : List String := ["EURUSD", "USDJPY"]

/-- Currencies whose interbank deposits count Actual/360. -/
def moneyMarket360 : List Ccy := [.usd, .eur, .chf, .sek, .dkk]

/-- The unadjusted near date of a swap tenor for a pair that settles `lag` days after trading;
other tenors have no near date of their own. -/
def RawNearDate (period : Period) (val lag e : Int) : Prop :=
  period = .on ∧ e = val ∨ period = .tn ∧ e = val + 1 ∨ period = .sn ∧ e = val + lag

end Verif
