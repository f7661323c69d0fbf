import Verif.Model.Hlmm

/-!
# The tenor and the decay of the forward market model

Model of `FmmTenor` and `LinearDecay` in `/repo/src/models/interestrate/fmm.rs` over the real
numbers.  Indexing outside a vector and failed assertions are panics.
-/

namespace Verif

open Classical

/-- `FmmTenor` (`fmm.rs` 58-64). -/
structure FmmTenor where
  dates : List ℝ
  rates : List ℝ

/-- `FmmTenor::new` (`fmm.rs` 67-82); the assertions are panics. -/
noncomputable def FmmTenor.new (dates rates : List ℝ) : Outcome FmmTenor :=
  if 2 ≤ dates.length ∧ dates.length = rates.length + 1 ∧ (∃ d, dates[0]? = some d ∧ 0 ≤ d)
    ∧ increasingDates dates
  then .ok ⟨dates, rates⟩ else .panic

/-- `FmmTenor::m` (`fmm.rs` 85-87). -/
def FmmTenor.m (q : FmmTenor) : ℕ := q.rates.length

/-- `FmmTenor::tau` (`fmm.rs` 91-94). -/
noncomputable def FmmTenor.tau (q : FmmTenor) (j : ℕ) : Outcome ℝ :=
  if 1 ≤ j ∧ j ≤ q.m then do
    let a ← unwrap q.dates[j]?
    let b ← unwrap q.dates[j - 1]?
    .ok (a - b)
  else .panic

/-- The loop of `FmmTenor::eta` (`fmm.rs` 100-104) over the given indices. -/
noncomputable def etaLoop (dates : List ℝ) (t : ℝ) : List ℕ → Outcome (Option ℕ)
  | [] => .ok none
  | j :: js => do
    let d ← unwrap dates[j]?
    if t ≤ d then .ok (some j) else etaLoop dates t js

/-- `FmmTenor::eta` (`fmm.rs` 99-106). -/
noncomputable def FmmTenor.eta (q : FmmTenor) (t : ℝ) : Outcome ℕ := do
  let r ← etaLoop q.dates t (List.range' 1 q.m)
  .ok (r.getD (q.m + 1))

/-- `LinearDecay::gamma` (`fmm.rs` 118-128). -/
noncomputable def FmmTenor.gamma (q : FmmTenor) (j : ℕ) (t : ℝ) : Outcome ℝ := do
  let lo ← at1 q.dates j
  let hi ← unwrap q.dates[j]?
  if t ≤ lo then .ok 1
  else if hi ≤ t then .ok 0
  else .ok ((hi - t) / (hi - lo))

/-- `LinearDecay::big_g` (`fmm.rs` 132-134). -/
noncomputable def FmmTenor.bigG (q : FmmTenor) (j : ℕ) (s T : ℝ) : Outcome ℝ := do
  let a ← q.gamma j s
  let b ← q.gamma j T
  .ok (a - b)

end Verif
