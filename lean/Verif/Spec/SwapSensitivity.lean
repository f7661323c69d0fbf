import Verif.Model.Cap

/-!
# Gross values of swaps

The sum of the sizes of all amounts a swap exchanges, valued with discount factors `D`; `tau` are the year
fractions of a leg.  A floating payment is split into the notional at its start and that at its end.
-/

namespace Verif

/-- The gross value of the payment of one period. -/
noncomputable def grossFlow (D : Int → ℝ) (tau : Int → Int → ℝ) (kind : LegKind) (p : SchedPeriod) : ℝ :=
  match kind with
  | .fixed c => |c * tau p.start p.fin * p.balance| * D p.pay
  | .float s => |p.balance| * ((D p.start / D p.fin + |s * tau p.start p.fin - 1|) * D p.pay)

/-- The gross value of a schedule and the repayment at its end. -/
noncomputable def grossLeg (D : Int → ℝ) (tau : Int → Int → ℝ) (kind : LegKind) (ps : List SchedPeriod) : ℝ :=
  (ps.map (grossFlow D tau kind)).sum + ((ps.getLast?.map fun p => |p.balance| * D p.pay).getD 0)

/-- The gross value per unit of notional of a caplet or floorlet: its value and the notional at its start. -/
noncomputable def grossCaplet (kind : CapKind) (strike : ℝ) (m : CapletMarket) : ℝ :=
  m.dfPay * (|m.tau * optionValue kind strike m| + |1 + m.tau * m.forward|)

end Verif
