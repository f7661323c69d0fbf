import Verif.Model.Date
import Verif.Model.FxVol
import Verif.Model.Cap
import Mathlib.Analysis.SpecialFunctions.Exp
import Mathlib.Analysis.SpecialFunctions.Pow.Real

/-!
# Date-driven Monte Carlo

Model of `/repo/src/models/common/simulation.rs`.  A simulator is a state type `S` together with
a mutable part `M` (random generator, caches) that `step` threads.  `step` itself is taken not to
panic.  Times are real numbers.
-/

namespace Verif

open Classical Outcome

/-- `trait SimulationModel` (`simulation.rs` 33-48): `&mut self` is the threaded `M`. -/
structure SimModel (S M : Type) where
  initial : M → S
  step : M → S → ℝ → ℝ → S × M

/-- `DatedPaths` (`simulation.rs` 54-59). -/
structure DatedPaths (S : Type) where
  valuation : Int
  obs : List Int
  paths : List (List S)

/-- The uniform refinement loop (`simulation.rs` 121-130) from `cur`, without its first element;
`checked_add_days` returning `None` panics through `expect`. -/
def gridLoop (last : Int) (step : Nat) : Nat → Int → Outcome (List Int)
  | 0, _ => .ok []
  | fuel + 1, cur =>
    if cur < last then
      if Valid (cur + step) then
        let next := if cur + step > last then last else cur + step
        do
          let rest ← gridLoop last step fuel next
          .ok (next :: rest)
      else .panic
    else .ok []

/-- The integration grid (`simulation.rs` 119-135); `last - val` passes suffice because every
pass advances by at least a day. -/
def simGrid (val : Int) (obs : List Int) (last : Int) (step : Nat) : Outcome (List Int) := do
  let uniform ← gridLoop last step (last - val).toNat val
  .ok (dedupDates (((val :: uniform) ++ obs).mergeSort fun a b => decide (a ≤ b)))

/-- Positions of the observation dates in the grid (`simulation.rs` 138-144); a missing date
panics. -/
def obsIndices (ks : KeySearch) (grid : List Int) : List Int → Outcome (List Nat)
  | [] => .ok []
  | d :: ds =>
    match ks.search grid d with
    | .found i => do
      let rest ← obsIndices ks grid ds
      .ok (i :: rest)
    | .missing _ => .panic

/-- `year_fraction(valuation_date, d).unwrap_or(0.0)` (`simulation.rs` 148-151). -/
def yfOrZero (dc : Int → Int → Outcome ℝ) (val d : Int) : Outcome ℝ :=
  match dc val d with
  | .ok x => .ok x
  | .fail _ => .ok 0
  | .panic => .panic

/-- The year fractions of the grid (`simulation.rs` 148-151). -/
def gridTimes (dc : Int → Int → Outcome ℝ) (val : Int) : List Int → Outcome (List ℝ)
  | [] => .ok []
  | d :: ds => do
    let x ← yfOrZero dc val d
    let rest ← gridTimes dc val ds
    .ok (x :: rest)

/-- The loop over one path (`simulation.rs` 155-168): `prev` is the year fraction before grid
index `i`, the list holds those from `i` on, `pending` is `obs_indices[next_obs..]`. -/
noncomputable def runPath {S M : Type} (sim : SimModel S M) :
    ℝ → List ℝ → Nat → S → M → List Nat → List S × M
  | _, [], _, _, m, _ => ([], m)
  | prev, y :: ys, i, s, m, pending =>
    let dt := y - prev
    if dt ≤ 0 then runPath sim y ys (i + 1) s m pending
    else
      let r := sim.step m s (1 / 2 * (y + prev)) dt
      let rest := runPath sim y ys (i + 1) r.1 r.2 (pending.dropWhile fun k => k == i)
      ((pending.takeWhile fun k => k == i).map (fun _ => r.1) ++ rest.1, rest.2)

/-- The loop over all paths (`simulation.rs` 153-169); the generator carries on. -/
noncomputable def runPaths {S M : Type} (sim : SimModel S M) (times : List ℝ) (idx : List Nat) :
    Nat → M → List (List S) × M
  | 0, m => ([], m)
  | n + 1, m =>
    let r := match times with
      | [] => ([], m)
      | y :: ys => runPath sim y ys 1 (sim.initial m) m idx
    let rest := runPaths sim times idx n r.2
    (r.1 :: rest.1, rest.2)

/-- `simulate_at_dates` (`simulation.rs` 95-175); failed assertions panic. -/
noncomputable def simulateAtDates {S M : Type} (ks : KeySearch) (sim : SimModel S M) (m : M)
    (val : Int) (dates : List Int) (nPaths maxStep : Nat) (dc : Int → Int → Outcome ℝ) :
    Outcome (DatedPaths S) :=
  if nPaths = 0 then .panic
  else if maxStep = 0 then .panic
  else if dates = [] then .panic
  else if ∃ d ∈ dates, d ≤ val then .panic
  else
    let obs := dates.mergeSort fun a b => decide (a ≤ b)
    match obs.getLast? with
    | none => .panic
    | some last => do
      let grid ← simGrid val obs last maxStep
      let idx ← obsIndices ks grid obs
      let times ← gridTimes dc val grid
      .ok ⟨val, obs, (runPaths sim times idx nPaths m).1⟩

/-- The column at `idx` of all paths (`simulation.rs` 72); a short path panics. -/
def column {S : Type} (idx : Nat) : List (List S) → Outcome (List S)
  | [] => .ok []
  | p :: ps =>
    match p[idx]? with
    | some x => do
      let rest ← column idx ps
      .ok (x :: rest)
    | none => .panic

/-- `DatedPaths::states_at` (`simulation.rs` 68-73), also the lookup of `sample` (76-81). -/
def DatedPaths.statesAt {S : Type} (ks : KeySearch) (p : DatedPaths S) (d : Int) :
    Outcome (Option (List S)) :=
  match ks.search p.obs d with
  | .missing _ => .ok none
  | .found i => do
    let c ← column i p.paths
    .ok (some c)

/-- `BrownianMotion` (`simulation.rs` 190-232): the generator is a stream of draws and the
position in it. -/
noncomputable def brownian (x0 drift vol : ℝ) (draws : ℕ → ℝ) : SimModel ℝ ℕ where
  initial _ := x0
  step n s _ dt := (s + drift * dt + vol * √dt * draws n, n + 1)

/-- `GeometricBrownianMotion` (`simulation.rs` 245-278). -/
noncomputable def geometric (s0 drift vol : ℝ) (draws : ℕ → ℝ) : SimModel ℝ ℕ where
  initial _ := s0
  step n s _ dt :=
    (s * Real.exp ((drift - 1 / 2 * vol * vol) * dt + vol * √dt * draws n), n + 1)

end Verif
