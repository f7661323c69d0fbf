import Verif.Spec.Cap
import Verif.Model.Normal

/-!
# Specification vocabulary for the risk figures of caps
-/

namespace Verif

/-- The surface with every volatility raised by `v` basis points. -/
noncomputable def raiseVols (vs : List CapletPillar) (v : ℝ) : List CapletPillar :=
  vs.map fun p => ⟨p.expiry, p.nodes.map fun n => (n.1, n.2 + v * (1 / 10000))⟩

/-- The forward of a period on given discount factors. -/
noncomputable def periodForward (D : Int → ℝ) (tau : ℝ) (p : SchedPeriod) : ℝ :=
  (D p.start / D p.fin - 1) / tau

/-- The value of an undiscounted option with normal variance `V`. -/
noncomputable def normalOption (kind : CapKind) (F K V : ℝ) : ℝ :=
  match kind with
  | .cap => √V * normPdf ((F - K) / √V) + (F - K) * normCdf ((F - K) / √V)
  | .floor => √V * normPdf ((F - K) / √V) + (K - F) * normCdf ((K - F) / √V)

/-- Its derivative in the forward. -/
noncomputable def normalDelta (kind : CapKind) (F K V : ℝ) : ℝ :=
  match kind with
  | .cap => normCdf ((F - K) / √V)
  | .floor => -normCdf ((K - F) / √V)

/-- The rate sensitivity, per basis point, of one unit of notional of a caplet or floorlet: the
discount factor falls with its time, the forward rises with the length of the period. -/
noncomputable def periodDelta (kind : CapKind) (val : Int) (D : Int → ℝ) (tau K V : ℝ)
    (p : SchedPeriod) : ℝ :=
  let F := periodForward D tau p
  1 / 10000 * (tau * D p.pay * (-(yf365 val p.pay) * normalOption kind F K V
    + normalDelta kind F K V * ((yf365 val p.fin - yf365 val p.start) * (1 + tau * F) / tau)))

end Verif
