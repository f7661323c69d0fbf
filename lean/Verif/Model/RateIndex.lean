import Verif.Model.Shipped
import Verif.Model.DayCount
import Verif.Model.FxPair
import Verif.Model.YieldCurve

/-!
# The built-in interest rate indices

Model of `/repo/src/markets/interestrate/interestrateindex.rs`.
-/

namespace Verif

/-- `InterestRateIndexEnum` (`interestrateindex.rs` 15-23). -/
inductive IndexCode where
  | aonia
  | cdor (period : Period)
  | eonia
  | estr
  | euribor (period : Period)
  | sonia
  | sofr

/-- `InterestRateIndex` (`interestrateindex.rs` 25-34) with a shipped calendar and one of the day
counters of the crate. -/
structure BuiltinIndex where
  period : Period
  settlementDays : Int
  currency : Ccy
  calendar : Shipped
  convention : Bdc
  dayCounter : DayCounter
  endOfMonth : Bool

/-- `InterestRateIndex::from_enum` (`interestrateindex.rs` 37-119). -/
def indexFromEnum : IndexCode → Option BuiltinIndex
  | .aonia => some
    ⟨.spot, 0, .aud, .austria none, .modifiedFollowing, .actual365 none, false⟩
  | .cdor p => some
    ⟨p, 0, .usd, .unitedStates (some .sofr), .modifiedFollowing, .actual360, false⟩
  | .eonia => some ⟨.spot, 0, .eur, .target, .modifiedFollowing, .actual360, false⟩
  | .estr => some ⟨.spot, 0, .eur, .target, .modifiedFollowing, .actual360, false⟩
  | .euribor p =>
    match p with
    | .days _ | .weeks _ => some ⟨p, 2, .eur, .target, .following, .actual360, false⟩
    | _ => some ⟨p, 2, .eur, .target, .modifiedFollowing, .actual360, false⟩
  | .sofr => some
    ⟨.spot, 0, .usd, .unitedStates (some .sofr), .modifiedFollowing, .actual360, false⟩
  | .sonia => some
    ⟨.spot, 0, .gbp, .unitedKingdom (some .exchange), .modifiedFollowing, .actual365 none, false⟩

/-- The index as the quotes use it (`interestrateindex.rs` 25-34, see `RateIndex`). -/
noncomputable def BuiltinIndex.toRateIndex (i : BuiltinIndex) : RateIndex where
  period := i.period
  settlementDays := i.settlementDays
  calendar := i.calendar.cal
  convention := i.convention
  yearFraction := fun a b => do
    let y ← i.dayCounter.yearFraction a b
    .ok (y : ℝ)
  endOfMonth := i.endOfMonth

end Verif
