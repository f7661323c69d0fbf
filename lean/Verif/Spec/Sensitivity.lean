import Verif.Model.Cap
import Verif.Model.YieldCurve

/-!
# What it means for two sets of inputs to be close
-/

namespace Verif

/-- Two quotes at the same place whose values differ by at most `ε`. -/
def ValueNear {α : Type} (ε : ℝ) (a b : α × ℝ) : Prop := b.1 = a.1 ∧ |b.2 - a.2| ≤ ε

/-- Two visible curve pillars at the same date whose zero rates differ by at most `ε`. -/
def PillarNear (ε : ℝ) (p p' : Pillar) : Prop :=
  p'.date = p.date ∧ p.hidden = false ∧ p'.hidden = false ∧ |p'.zeroRate - p.zeroRate| ≤ ε

/-- Two caplet pillars with the same expiry and strikes whose volatilities differ by at most `ε`. -/
def CapletNear (ε : ℝ) (p p' : CapletPillar) : Prop :=
  p'.expiry = p.expiry ∧ List.Forall₂ (ValueNear ε) p.nodes p'.nodes

/-- Two optional results: both absent, or both present and differing by at most `ε`. -/
def QuoteNear (ε : ℝ) (a b : Outcome (Option ℝ)) : Prop :=
  (a = .ok none ∧ b = .ok none) ∨ ∃ x y, a = .ok (some x) ∧ b = .ok (some y) ∧ |y - x| ≤ ε

end Verif
