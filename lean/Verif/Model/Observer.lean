import Verif.Model.Outcome

/-!
# Observers

Model of the three `Observable` implementations (`/repo/src/markets/forex/quotes/forwardpoints.rs`
151-180, `/repo/src/markets/termstructures/yieldcurve.rs` 173-193,
`/repo/src/markets/interestrate/volsurface.rs` 89-111; trait in `/repo/src/patterns/observer.rs`).
Observers are identified by a number (the address of the `Rc` allocation); a `Weak` upgrades
as long as the observer has not been dropped.  `update` of an observer is an arbitrary
function on an arbitrary world state.  An observer that attaches to or borrows the
observable from inside `update` (a `RefCell` double borrow) is not modelled.
-/

namespace Verif

/-- The weak references held by an observable, and which observers were dropped. -/
structure Registry where
  weak : List Nat
  dropped : List Nat

/-- Nothing attached, nothing dropped. -/
def Registry.empty : Registry := ⟨[], []⟩

/-- `Weak::upgrade().is_some()`. -/
def Registry.alive (r : Registry) (i : Nat) : Bool := !r.dropped.contains i

/-- `attach` (`forwardpoints.rs` 152-154, `yieldcurve.rs` 174-176, `volsurface.rs` 90-92). -/
def Registry.attach (r : Registry) (i : Nat) : Registry := { r with weak := r.weak ++ [i] }

/-- The last strong reference to an observer goes away. -/
def Registry.drop (r : Registry) (i : Nat) : Registry := { r with dropped := i :: r.dropped }

/-- The notification loop (`forwardpoints.rs` 170-172 etc.): `?` stops at the first error.
Returns the observers whose `update` ran, in order, the new world and the result. -/
def notifyLoop {σ : Type} (update : Nat → σ → σ × Outcome Unit) :
    List Nat → σ → List Nat × σ × Outcome Unit
  | [], s => ([], s, .ok ())
  | i :: is, s =>
    match update i s with
    | (s', .ok ()) => let r := notifyLoop update is s'; (i :: r.1, r.2)
    | (s', e) => ([i], s', e)

/-- `FXForwardHelper::notify_observers` (`forwardpoints.rs` 156-174): prune, then notify. -/
def Registry.notifyPruning {σ : Type} (r : Registry) (update : Nat → σ → σ × Outcome Unit) (s : σ) :
    Registry × List Nat × σ × Outcome Unit :=
  let r' : Registry := { r with weak := r.weak.filter r.alive }
  (r', notifyLoop update (r'.weak.filter r'.alive) s)

/-- `notify_observers` of the yield-curve and cap market data (`yieldcurve.rs` 177-188,
`volsurface.rs` 93-104): no pruning. -/
def Registry.notify {σ : Type} (r : Registry) (update : Nat → σ → σ × Outcome Unit) (s : σ) :
    Registry × List Nat × σ × Outcome Unit :=
  (r, notifyLoop update (r.weak.filter r.alive) s)

/-- What can happen to an observable and its observers.  `notify` carries the behaviour
of the observers in that round. -/
inductive ObsOp (σ : Type) where
  | attach (i : Nat)
  | drop (i : Nat)
  | notify (update : Nat → σ → σ × Outcome Unit)

/-- One operation; `prune` selects the forward helper. -/
def Registry.step {σ : Type} (prune : Bool) (rs : Registry × σ) : ObsOp σ → Registry × σ
  | .attach i => (rs.1.attach i, rs.2)
  | .drop i => (rs.1.drop i, rs.2)
  | .notify u =>
    let x := if prune then rs.1.notifyPruning u rs.2 else rs.1.notify u rs.2
    (x.1, x.2.2.1)

/-- A history of operations from a fresh observable. -/
def Registry.run {σ : Type} (prune : Bool) (s : σ) (h : List (ObsOp σ)) : Registry × σ :=
  h.foldl (Registry.step prune) (Registry.empty, s)

end Verif
