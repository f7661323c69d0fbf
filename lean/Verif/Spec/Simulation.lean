import Verif.Model.Simulation

/-!
# What a date-driven simulation should return
-/

namespace Verif

/-- Evolve a state over successive dates with times `f`: one step per date, at the midpoint of
the interval and over its length. -/
noncomputable def walk {S M : Type} (sim : SimModel S M) (f : Int → ℝ) : Int → List Int → S × M → S × M
  | _, [], x => x
  | prev, d :: ds, x => walk sim f d ds (sim.step x.2 x.1 ((f prev + f d) / 2) (f d - f prev))

/-- The state at date `d` of a path that starts with generator `m`. -/
noncomputable def stateAt {S M : Type} (sim : SimModel S M) (f : Int → ℝ) (val : Int)
    (later : List Int) (m : M) (d : Int) : S :=
  (walk sim f val (later.filter fun g => decide (g ≤ d)) (sim.initial m, m)).1

/-- `n` paths; each starts with the generator the previous one left behind. -/
noncomputable def expectedPaths {S M : Type} (sim : SimModel S M) (f : Int → ℝ) (val : Int)
    (later obs : List Int) : Nat → M → List (List S)
  | 0, _ => []
  | n + 1, m => obs.map (stateAt sim f val later m) ::
      expectedPaths sim f val later obs n (walk sim f val later (sim.initial m, m)).2

/-- `later` is a valid set of integration dates after `val`: increasing, containing every
observation date, ending at the last of them, with no gap above `step`. -/
structure GoodGrid (val : Int) (obs : List Int) (step : Nat) (later : List Int) : Prop where
  increasing : (val :: later).Pairwise (· < ·)
  covers : ∀ d ∈ obs, d ∈ later
  ends : ∀ g ∈ later, ∃ d ∈ obs, g ≤ d
  gaps : (val :: later).IsChain fun (a b : Int) => b - a ≤ (step : Int)

end Verif
