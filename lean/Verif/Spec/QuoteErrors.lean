import Verif.Model.CurveStrip

/-!
# Quotes that are close in terms of the rates they stand for
-/

namespace Verif

/-- Two deposits on the same index whose continuously compounded rates from settlement to maturity differ by
at most `ε`. -/
def DepositNear (ε : ℝ) (val : Int) (q q' : OisRate) : Prop :=
  q'.index = q.index ∧ ∀ s m tau, q.settleDate val = .ok s → q.maturityDate val = .ok m →
    q.index.yearFraction s m = .ok tau → s < m ∧
      |Real.log (1 + tau * q'.value) - Real.log (1 + tau * q.value)| ≤ ε * yf365 s m

/-- Two futures on the same contract, settling from the valuation date on, whose continuously compounded rates
from settlement to maturity differ by at most `ε`. -/
def FuturesNear (ε : ℝ) (val : Int) (q q' : FuturesQuote) : Prop :=
  (∃ v c, q' = { q with value := v, convexity := c }) ∧
  ∀ s m tau, q.settleDate val = .ok s → q.maturityDate val = .ok m → q.yearFraction s m = .ok tau →
    val ≤ s ∧ s < m ∧ 0 < 1 + tau * q.impliedQuote ∧ 0 < 1 + tau * q'.impliedQuote ∧
      |Real.log (1 + tau * q'.impliedQuote) - Real.log (1 + tau * q.impliedQuote)| ≤ ε * yf365 s m

/-- Two pillars of the same instrument whose zero rates differ by at most `ε`. -/
def StrippedNear (ε : ℝ) (p p' : Pillar) : Prop :=
  p'.firstSettle = p.firstSettle ∧ p'.date = p.date ∧ p'.source = p.source ∧ p'.hidden = p.hidden ∧
    |p'.zeroRate - p.zeroRate| ≤ ε

end Verif
