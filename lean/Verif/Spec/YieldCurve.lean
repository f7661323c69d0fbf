import Verif.Model.YieldCurve

/-!
# Specification vocabulary for yield curves
-/

namespace Verif

/-- The curve with every pillar's zero rate raised by `s` basis points. -/
noncomputable def bumped (cv : Curve) (s : ℝ) : Curve :=
  ⟨cv.valuation, cv.pillars.map fun p => { p with zeroRate := p.zeroRate + s / 10000 }⟩

end Verif
