import Verif.Model.TdSabr
import Verif.Model.Dupire

/-!
# The SABR stochastic-local-volatility particle simulator

Model of `/repo/src/models/forex/sabr_slv.rs` over the real numbers.  The seeded generator is a
stream of draws, two standard normals per path and step: `draws k` feeds the `k`-th move.
-/

namespace Verif

open Classical

/-- `TimeDependentSabrSlvSimulator` without its generator (`sabr_slv.rs` 66-74). -/
structure SlvSim where
  params : TdSabr
  dupire : LocalVol
  nBins : ℕ

/-- `TimeDependentSabrSlvSimulator::new` (`sabr_slv.rs` 77-84). -/
def SlvSim.new (params : TdSabr) (dupire : LocalVol) : SlvSim := ⟨params, dupire, 50⟩

/-- `TimeDependentSabrSlvSimulator::with_bins` (`sabr_slv.rs` 86-90). -/
def SlvSim.withBins (s : SlvSim) (nBins : ℕ) : Outcome SlvSim :=
  if 2 ≤ nBins then .ok { s with nBins := nBins } else .panic

/-- The sort of `bin_vol_sq_by_forward` (`sabr_slv.rs` 172-173): a stable sort of the pairs
`(forward, vol²)` by forward. -/
noncomputable def sortByForward (xs : List (ℝ × ℝ)) : List (ℝ × ℝ) :=
  xs.mergeSort fun a b => decide (a.1 ≤ b.1)

/-- The loop of `bin_vol_sq_by_forward` (`sabr_slv.rs` 178-192) on the part of the sorted list that
is left.  The first argument bounds the number of rounds; every round takes at least one element, so
the length of the list is enough. -/
noncomputable def binLoop (binSize : ℕ) : ℕ → List (ℝ × ℝ) → List ℝ × List ℝ
  | 0, _ => ([], [])
  | fuel + 1, xs =>
    if xs = [] then ([], [])
    else
      let bin := xs.take binSize
      let rest := binLoop binSize fuel (xs.drop binSize)
      ((bin.getLastD (0, 0)).1 :: rest.1, (bin.map Prod.snd).sum / (bin.length : ℝ) :: rest.2)

/-- `bin_vol_sq_by_forward` (`sabr_slv.rs` 170-194): upper bounds and mean squared volatilities.
`div_ceil` by zero panics. -/
noncomputable def binVolSq (states : List SabrState) (nBins : ℕ) : Outcome (List ℝ × List ℝ) :=
  if nBins = 0 then .panic
  else
    let n := states.length
    let indexed := sortByForward (states.map fun s => (s.forward, s.vol * s.vol))
    let binSize := (n + nBins - 1) / nBins
    .ok (binLoop binSize n indexed)

/-- `lookup_bin` (`sabr_slv.rs` 199-207). -/
noncomputable def lookupBin (f : ℝ) (upper means : List ℝ) : Outcome ℝ :=
  match upper.findIdx? fun u => decide (f ≤ u) with
  | some i => unwrap means[i]?
  | none => unwrap means.getLast?

/-- The body of the loop over the states (`sabr_slv.rs` 129-159) for one state: parameters `q` of
the step, its bins, its two normal draws. -/
noncomputable def SlvSim.move (m : SlvSim) (q : Sabr) (bins : List ℝ × List ℝ) (tMid dt : ℝ)
    (z : Fin 2 → ℝ) (s : SabrState) : Outcome SabrState := do
  let dwF := √dt * z 0
  let dwA := √dt * (q.rho * z 0 + √(1 - q.rho * q.rho) * z 1)
  let f := max s.forward (1 / 10 ^ 12)
  let vol := max s.vol 0
  let lvVar ← m.dupire.localVariance tMid f
  let eVol2 ← lookupBin f bins.1 bins.2
  let fBetaM1 := f ^ (q.beta - 1)
  let fScaling := fBetaM1 * fBetaM1
  let denom := max (eVol2 * fScaling) (1 / 10 ^ 12)
  let sigmaSlvSq := max (lvVar / denom) 0
  let sigmaSlv := √sigmaSlvSq
  let diffusionF := sigmaSlv * vol * f ^ q.beta * dwF
  let newF := max (f + diffusionF) 0
  let newVol := vol * Real.exp (-0.5 * q.nu * q.nu * dt + q.nu * dwA)
  .ok ⟨newF, newVol⟩

/-- The loop over the states (`sabr_slv.rs` 129-159), from the draw numbered `k`. -/
noncomputable def SlvSim.moveAll (m : SlvSim) (q : Sabr) (bins : List ℝ × List ℝ) (tMid dt : ℝ)
    (draws : ℕ → Fin 2 → ℝ) : ℕ → List SabrState → Outcome (List SabrState)
  | _, [] => .ok []
  | k, s :: ss => do
    let s' ← m.move q bins tMid dt (draws k) s
    let rest ← m.moveAll q bins tMid dt draws (k + 1) ss
    .ok (s' :: rest)

/-- The loop over the steps (`sabr_slv.rs` 113-161): `n` steps from time `t` and from the draw
numbered `k`. -/
noncomputable def SlvSim.stepLoop (m : SlvSim) (dt : ℝ) (draws : ℕ → Fin 2 → ℝ) :
    ℕ → ℕ → ℝ → List SabrState → Outcome (List SabrState)
  | 0, _, _, states => .ok states
  | n + 1, k, t, states => do
    let tMid := t + 0.5 * dt
    let q ← m.params.at tMid
    let bins ← binVolSq states m.nBins
    let states' ← m.moveAll q bins tMid dt draws k states
    m.stepLoop dt draws n (k + states.length) (t + dt) states'

/-- `TimeDependentSabrSlvSimulator::simulate` (`sabr_slv.rs` 98-163). -/
noncomputable def SlvSim.simulate (m : SlvSim) (draws : ℕ → Fin 2 → ℝ) (tEnd : ℝ)
    (nSteps nPaths : ℕ) : Outcome (List SabrState) :=
  if 0 < nSteps ∧ 0 < nPaths ∧ 0 < tEnd then do
    let alpha0 ← m.params.alpha.at 0
    let states := List.replicate nPaths (⟨m.params.forward0, alpha0⟩ : SabrState)
    m.stepLoop (tEnd / nSteps) draws nSteps 0 0 states
  else .panic

end Verif
