import Verif.Model.Cal.Argentina
import Verif.Model.Cal.Australia
import Verif.Model.Cal.Austria
import Verif.Model.Cal.Botswana
import Verif.Model.Cal.Brazil
import Verif.Model.Cal.Canada
import Verif.Model.Cal.Chile
import Verif.Model.Cal.China
import Verif.Model.Cal.CzechRepublic
import Verif.Model.Cal.Denmark
import Verif.Model.Cal.Finland
import Verif.Model.Cal.France
import Verif.Model.Cal.Germany
import Verif.Model.Cal.HongKong
import Verif.Model.Cal.Hungary
import Verif.Model.Cal.Iceland
import Verif.Model.Cal.India
import Verif.Model.Cal.Indonesia
import Verif.Model.Cal.Israel
import Verif.Model.Cal.Italy
import Verif.Model.Cal.Japan
import Verif.Model.Cal.Mexico
import Verif.Model.Cal.NewZealand
import Verif.Model.Cal.Norway
import Verif.Model.Cal.Poland
import Verif.Model.Cal.Romania
import Verif.Model.Cal.Russia
import Verif.Model.Cal.Singapore
import Verif.Model.Cal.Slovakia
import Verif.Model.Cal.SouthAfrica
import Verif.Model.Cal.SouthKorea
import Verif.Model.Cal.Sweden
import Verif.Model.Cal.Switzerland
import Verif.Model.Cal.Taiwan
import Verif.Model.Cal.Target
import Verif.Model.Cal.Thailand
import Verif.Model.Cal.Turkey
import Verif.Model.Cal.Ukraine
import Verif.Model.Cal.UnitedKingdom
import Verif.Model.Cal.UnitedStates

/-! # The shipped calendars

The calendar types of `/repo/src/time/calendars/*.rs` with their markets, all except
`JointCalendar`, which combines others (see `joint` in `Verif.Model.Calendar`). -/

namespace Verif

/-- A shipped calendar with its market (`/repo/src/time/calendars.rs` 74-157 lists
the modules). -/
inductive Shipped where
  | argentina
  | australia (m : Option AustraliaMarket)
  | austria (m : Option AustriaMarket)
  | botswana
  | brazil (m : Option BrazilMarket)
  | canada (m : Option CanadaMarket)
  | chile
  | china
  | czechRepublic
  | denmark
  | finland
  | france (m : Option FranceMarket)
  | germany (m : Option GermanyMarket)
  | hongKong
  | hungary
  | iceland
  | india
  | indonesia
  | israel (m : Option IsraelMarket)
  | italy (m : Option ItalyMarket)
  | japan
  | mexico
  | newZealand (m : Option NewZealandMarket)
  | norway
  | poland (m : Option PolandMarket)
  | romania
  | russia (m : Option RussiaMarket)
  | singapore
  | slovakia
  | southAfrica
  | southKorea
  | sweden
  | switzerland
  | taiwan
  | target
  | thailand
  | turkey
  | ukraine
  | unitedKingdom (m : Option UnitedKingdomMarket)
  | unitedStates (m : Option UnitedStatesMarket)
  | weekendsOnly
  deriving DecidableEq, Repr

/-- The `is_business_day` method of a shipped calendar. -/
def Shipped.cal : Shipped → Cal
  | .argentina => Verif.argentina
  | .australia m => Verif.australia m
  | .austria m => Verif.austria m
  | .botswana => Verif.botswana
  | .brazil m => Verif.brazil m
  | .canada m => Verif.canada m
  | .chile => Verif.chile
  | .china => Verif.china
  | .czechRepublic => Verif.czechRepublic
  | .denmark => Verif.denmark
  | .finland => Verif.finland
  | .france m => Verif.france m
  | .germany m => Verif.germany m
  | .hongKong => Verif.hongKong
  | .hungary => Verif.hungary
  | .iceland => Verif.iceland
  | .india => Verif.india
  | .indonesia => Verif.indonesia
  | .israel m => Verif.israel m
  | .italy m => Verif.italy m
  | .japan => Verif.japan
  | .mexico => Verif.mexico
  | .newZealand m => Verif.newZealand m
  | .norway => Verif.norway
  | .poland m => Verif.poland m
  | .romania => Verif.romania
  | .russia m => Verif.russia m
  | .singapore => Verif.singapore
  | .slovakia => Verif.slovakia
  | .southAfrica => Verif.southAfrica
  | .southKorea => Verif.southKorea
  | .sweden => Verif.sweden
  | .switzerland => Verif.switzerland
  | .taiwan => Verif.taiwan
  | .target => Verif.target
  | .thailand => Verif.thailand
  | .turkey => Verif.turkey
  | .ukraine => Verif.ukraine
  | .unitedKingdom m => Verif.unitedKingdom m
  | .unitedStates m => Verif.unitedStates m
  | .weekendsOnly => Verif.weekendsOnly

/-- Does the calendar look up Easter, so that it only works for 1901-2199? -/
def Shipped.usesEaster : Shipped → Bool
  | .argentina => true
  | .australia (some .settlement) => true
  | .australia (some .asx) => true
  | .australia none => true
  | .austria (some .settlement) => true
  | .austria (some .exchange) => true
  | .austria none => true
  | .botswana => true
  | .brazil (some .settlement) => true
  | .brazil (some .exchange) => true
  | .brazil none => true
  | .canada (some .settlement) => true
  | .canada (some .tsx) => true
  | .canada none => true
  | .chile => true
  | .china => false
  | .czechRepublic => true
  | .denmark => true
  | .finland => true
  | .france (some .settlement) => true
  | .france (some .exchange) => true
  | .france none => true
  | .germany (some .settlement) => true
  | .germany (some .frankfurtStockExchange) => true
  | .germany (some .xetra) => true
  | .germany (some .eurex) => true
  | .germany (some .euwax) => true
  | .germany none => true
  | .hongKong => true
  | .hungary => true
  | .iceland => true
  | .india => true
  | .indonesia => true
  | .israel (some .telAviv) => false
  | .israel (some .shir) => true
  | .israel none => true
  | .italy (some .settlement) => true
  | .italy (some .exchange) => true
  | .italy none => true
  | .japan => false
  | .mexico => true
  | .newZealand (some .wellington) => true
  | .newZealand (some .auckland) => true
  | .newZealand none => true
  | .norway => true
  | .poland (some .settlement) => true
  | .poland (some .wse) => true
  | .poland none => true
  | .romania => true
  | .russia (some .settlement) => false
  | .russia (some .exchange) => false
  | .russia none => false
  | .singapore => true
  | .slovakia => true
  | .southAfrica => true
  | .southKorea => false
  | .sweden => true
  | .switzerland => true
  | .taiwan => false
  | .target => true
  | .thailand => true
  | .turkey => false
  | .ukraine => true
  | .unitedKingdom (some .settlement) => true
  | .unitedKingdom (some .exchange) => true
  | .unitedKingdom (some .metals) => true
  | .unitedKingdom none => true
  | .unitedStates (some .settlement) => false
  | .unitedStates (some .libor) => false
  | .unitedStates (some .nyse) => true
  | .unitedStates (some .governmentBond) => true
  | .unitedStates (some .sofr) => true
  | .unitedStates (some .nerc) => false
  | .unitedStates (some .federalReserve) => false
  | .unitedStates none => false
  | .weekendsOnly => false

end Verif
