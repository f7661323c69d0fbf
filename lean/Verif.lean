import Verif.Lemmas.Date
import Verif.Model.Calendar
import Verif.Lemmas.Calendar
import Verif.Lemmas.Month
import Verif.Props.Adjust
import Verif.Props.Advance
import Verif.Props.Period
import Verif.Props.DayCount
import Verif.Props.Imm
import Verif.Props.Easter
import Verif.Props.Shipped
import Verif.Props.FxPair
import Verif.Props.Forwards
import Verif.Props.YieldCurve
import Verif.Props.Options
import Verif.Props.FxTrade
import Verif.Props.FxVol
import Verif.Props.Swap
import Verif.Props.SwapValue
import Verif.Props.Cap
import Verif.Props.Observer
import Verif.Props.ShortRate
import Verif.Props.HullWhite
import Verif.Props.Simulation
import Verif.Props.Optimize
import Verif.Props.Cholesky
import Verif.Props.Sabr
import Verif.Props.CapletSurface
import Verif.Props.CurveStrip
import Verif.Props.HolidaysEurope
import Verif.Props.HolidaysWorld
import Verif.Props.ActActEuro
import Verif.Props.SabrEffective
import Verif.Props.Cos
import Verif.Props.HhwChf
import Verif.Props.Hlmm
import Verif.Props.Calibrate
import Verif.Props.FxFmm
import Verif.Props.Fmm
import Verif.Props.HhwSim
import Verif.Props.FxFmmSim
import Verif.Props.Dupire
import Verif.Props.TdSabr
import Verif.Props.SabrSlv
import Verif.Props.HhwStock
import Verif.Props.FxFmmCal
import Verif.Props.TdSabrCal
import Verif.Props.YfToDate
import Verif.Props.CapRisk
import Verif.Props.RateIndex
import Verif.Props.MarketContext
import Verif.Props.Feasts
import Verif.Props.Horizon
import Verif.Props.CirLaw
import Verif.Props.SwapRisk
import Verif.Props.Business252
import Verif.Props.Quadrature
import Verif.Props.FxNotional
import Verif.Props.ExpectedPayoff
import Verif.Props.SimLaw
import Verif.Props.YfThirty
import Verif.Props.Checks
import Verif.Props.ModelMc
import Verif.Props.ClosedForms
import Verif.Props.FmmMc
import Verif.Props.Dated
import Verif.Props.HwFit
import Verif.Props.CosBlack
import Verif.Props.Units
import Verif.Props.Inverse
import Verif.Props.Arbitrage
import Verif.Props.Locality
import Verif.Props.Sensitivity
import Verif.Props.Expiries
import Verif.Props.SwapSensitivity
import Verif.Props.QuoteErrors
import Verif.Props.MarketErrors
import Verif.Props.DateShift
import Verif.Props.InputOrder
import Verif.Props.TargetOrder
import Verif.Props.SmileOrder
import Verif.Axioms
