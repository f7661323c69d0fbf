import Verif.Model.CurveStrip
import Verif.Model.Cap

/-!
# Inputs that can be told apart (C104)

Which quotes may be listed in any order: cash quotes with different maturities, cap quotes whose strikes
are equal or clearly apart and whose last periods differ when the strikes are equal.
-/

namespace Verif

open Classical

/-- Two cash quotes that do not mature on the same day. -/
def MaturitiesDiffer (val : Int) (a b : OisRate) : Prop :=
  ∀ m, a.maturityDate val = .ok m → b.maturityDate val ≠ .ok m

/-- Two cap quotes whose last periods start on different days. -/
def LastStartsDiffer (a b : CapQuote) : Prop :=
  ∃ d e, a.lastStart = .ok d ∧ b.lastStart = .ok e ∧ d ≠ e

/-- Strikes that are equal or at least `10⁻¹²` apart. -/
def StrikesApart (qs : List CapQuote) : Prop :=
  ∀ q ∈ qs, ∀ q' ∈ qs, q.strike = q'.strike ∨ 1 / 1000000000000 ≤ |q.strike - q'.strike|

/-- Quotes of the same strike have different last periods. -/
def QuotesDiffer (qs : List CapQuote) : Prop :=
  qs.Pairwise fun a b => a.strike = b.strike → LastStartsDiffer a b

end Verif
