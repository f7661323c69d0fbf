import Verif.Model.Observer

/-!
# Specification of observers, on histories
-/

namespace Verif

variable {σ : Type}

/-- The attachments made in a history, in order (one entry per attachment). -/
def attachments (h : List (ObsOp σ)) : List Nat :=
  h.filterMap fun | .attach i => some i | _ => none

open Classical in
/-- The attachments of observers not dropped in the history, in order.  (The type of
`attach` rules out attaching a dropped observer.) -/
noncomputable def targets (h : List (ObsOp σ)) : List Nat :=
  (attachments h).filter fun i => decide (ObsOp.drop i ∉ h)

/-- The world after the updates of `is` ran one after the other. -/
def worldAfter (update : Nat → σ → σ × Outcome Unit) (is : List Nat) (s : σ) : σ :=
  is.foldl (fun s i => (update i s).1) s

end Verif
