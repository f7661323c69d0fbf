import Verif.Model.Cap

/-!
# Specification vocabulary for the caplet volatility surface
-/

namespace Verif

/-- The nodes of a pillar, strikes strictly increasing. -/
def StrikesIncrease (nodes : List (ℝ × ℝ)) : Prop := nodes.Pairwise fun a b => a.1 < b.1

/-- The pillars of a surface, expiries strictly increasing. -/
def ExpiriesIncrease (pillars : List CapletPillar) : Prop :=
  pillars.Pairwise fun a b => a.expiry < b.expiry

/-- The straight line through two nodes. -/
noncomputable def chord (a b : ℝ × ℝ) (k : ℝ) : ℝ :=
  (a.2 * (b.1 - k) + b.2 * (k - a.1)) / (b.1 - a.1)

/-- The cap or floor described by a quote, as a trade valued on `val`. -/
def CapQuote.toTrade (q : CapQuote) (val : Int) : CapFloor where
  direction := q.direction
  kind := q.kind
  style := q.style
  currency := q.currency
  notional := q.notional
  strike := q.strike
  valuation := val
  schedule := q.schedule
  yearFraction := q.yearFraction

/-- The last caplet of the quote starts on `d`, no other starts later. -/
def CapQuote.LastFixing (q : CapQuote) (d : Int) : Prop :=
  (∃ ps p, q.schedule = ps ++ [p] ∧ p.start = d) ∧ ∀ p ∈ q.schedule, p.start ≤ d

/-- A rectangular quote grid: the strikes are equal or clearly apart, every quoted strike
is quoted up to every quoted last fixing, and no point of the grid is quoted twice. -/
structure RectangularQuotes (qs : List CapQuote) (lastFixing : CapQuote → Int) : Prop where
  fixing : ∀ q ∈ qs, q.LastFixing (lastFixing q)
  apart : ∀ q ∈ qs, ∀ q' ∈ qs, q.strike = q'.strike ∨ 1 / 1000000000000 ≤ |q.strike - q'.strike|
  full : ∀ q ∈ qs, ∀ q' ∈ qs, ∃ q'' ∈ qs, q''.strike = q.strike ∧ lastFixing q'' = lastFixing q'
  once : qs.Pairwise fun q q' => ¬ (q.strike = q'.strike ∧ lastFixing q = lastFixing q')

/-- The root finder delivers points at which the residual is at most `eps`. -/
def SolvesWithin (solve : RootFinder) (eps : ℝ) : Prop :=
  ∀ f x, solve f = .ok x → ∃ r, f x = .ok (some r) ∧ |r| ≤ eps

end Verif
