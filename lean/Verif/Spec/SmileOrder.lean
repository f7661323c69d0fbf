import Verif.Spec.FxVol

/-!
# Smile quotes that can be told apart (C104)
-/

namespace Verif

/-- The kind of a quote: at the money, call, put, risk reversal or butterfly. -/
def FxVolQuote.kind : FxVolQuote → Nat
  | .atm _ => 0
  | .call _ _ => 1
  | .put _ _ => 2
  | .riskReversal _ _ => 3
  | .butterfly _ _ => 4

/-- No two quotes of the same kind for the same delta. -/
def SmileQuotesDiffer (qs : List FxVolQuote) : Prop :=
  qs.Pairwise fun a b => a.delta? = b.delta? → a.kind ≠ b.kind

end Verif
