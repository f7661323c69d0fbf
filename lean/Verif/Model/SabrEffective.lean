import Verif.Model.Outcome
import Mathlib.Analysis.SpecialFunctions.Exp
import Mathlib.Data.Real.Sqrt

/-!
# Effective parameters of time-dependent SABR

Model of `/repo/src/models/forex/sabr_effective.rs` over the reals; `x.exp_m1()` is
`Real.exp x - 1`.
-/

namespace Verif

open Classical

/-- `PiecewiseConstant` (`sabr_effective.rs` 48-52). -/
structure PieceConst where
  knots : List ℝ
  values : List ℝ

/-- `PiecewiseConstant::new` (`sabr_effective.rs` 55-67); a failed `assert!` panics. -/
noncomputable def PieceConst.new (knots values : List ℝ) : Outcome PieceConst :=
  if 2 ≤ knots.length then
    if values.length + 1 = knots.length then
      if |knots.headD 0| < 1 / 10 ^ 15 then
        if knots.IsChain (· < ·) then .ok ⟨knots, values⟩ else .panic
      else .panic
    else .panic
  else .panic

/-- `PiecewiseConstant::constant` (`sabr_effective.rs` 71-73). -/
noncomputable def PieceConst.constant (t v : ℝ) : Outcome PieceConst := PieceConst.new [0, t] [v]

/-- `final_time` (`sabr_effective.rs` 79-81). -/
noncomputable def PieceConst.finalTime (p : PieceConst) : ℝ := p.knots.getLastD 0

/-- The loop of `at` (`sabr_effective.rs` 89-93) over the knots from the second on and the values;
the last value is returned when no knot is late enough (94). -/
noncomputable def PieceConst.scan (t last : ℝ) : List ℝ → List ℝ → ℝ
  | k :: ks, v :: vs => if t ≤ k + 1 / 10 ^ 15 then v else PieceConst.scan t last ks vs
  | _, _ => last

/-- `PiecewiseConstant::at` (`sabr_effective.rs` 84-95). -/
noncomputable def PieceConst.at (p : PieceConst) (t : ℝ) : Outcome ℝ :=
  if 0 ≤ t ∧ t ≤ p.finalTime + 1 / 10 ^ 15 then
    if t ≤ p.knots.headD 0 then .ok (p.values.headD 0)
    else .ok (PieceConst.scan t (p.values.getLastD 0) p.knots.tail p.values)
  else .panic

/-- `exp_seg` (`sabr_effective.rs` 101-109). -/
noncomputable def expSeg (c delta : ℝ) : ℝ :=
  let cd := c * delta
  if |cd| < 1 / 10 ^ 8 then delta * (1 + 0.5 * cd + cd * cd / 6 + cd * cd * cd / 24)
  else (Real.exp cd - 1) / c

/-- `exp_seg_diff_kernel` (`sabr_effective.rs` 116-129). -/
noncomputable def expSegDiffKernel (gammaSq delta : ℝ) : ℝ :=
  if |gammaSq * delta| < 1 / 10 ^ 4 then
    0.5 * delta * delta + 7 / 6 * gammaSq * delta * delta * delta
      + 43 / 24 * gammaSq * gammaSq * delta * delta * delta * delta
  else (expSeg (6 * gammaSq) delta - expSeg gammaSq delta) / (5 * gammaSq)

/-- One segment of the aligned schedule: length, vol-vol, term structure. -/
structure Seg where
  delta : ℝ
  gamma : ℝ
  omega : ℝ

/-- Assembles the three vectors of `aligned_segments` (`sabr_effective.rs` 155-160). -/
def mkSegs (knots gammas omegas : List ℝ) : List Seg :=
  List.zipWith (fun d go => ⟨d, go.1, go.2⟩) (List.zipWith (fun b a => b - a) knots.tail knots)
    (gammas.zip omegas)

/-- `aligned_segments` (`sabr_effective.rs` 134-161). -/
noncomputable def alignedSegments (gamma omega : PieceConst) (expiry : ℝ) : Outcome (List Seg) :=
  if gamma.knots = omega.knots then
    if ∃ t ∈ gamma.knots, |t - expiry| < 1 / 10 ^ 12 then
      let count := (gamma.knots.takeWhile fun t => decide (t ≤ expiry + 1 / 10 ^ 12)).length
      if 1 ≤ count ∧ count - 1 ≤ gamma.values.length ∧ count - 1 ≤ omega.values.length then
        .ok (mkSegs (gamma.knots.take count) (gamma.values.take (count - 1)) (omega.values.take (count - 1)))
      else .panic
    else .panic
  else .panic

/-- The loop of `i_integral` (`sabr_effective.rs` 164-174), from state `g_prev`. -/
noncomputable def iLoop : ℝ → List Seg → ℝ
  | _, [] => 0
  | g, s :: rest =>
    s.omega * s.omega * Real.exp g * expSeg (s.gamma * s.gamma) s.delta
      + iLoop (g + s.gamma * s.gamma * s.delta) rest

/-- `i_integral` (`sabr_effective.rs` 164-174). -/
noncomputable def iIntegral (segs : List Seg) : ℝ := iLoop 0 segs

/-- The loop of `lhs_double_integral` (`sabr_effective.rs` 177-197), from state `(g_prev, h_prev)`. -/
noncomputable def lhsLoop : ℝ → ℝ → List Seg → ℝ
  | _, _, [] => 0
  | g, h, s :: rest =>
    s.omega * s.omega * Real.exp g * h * expSeg (s.gamma * s.gamma) s.delta
      + s.omega * s.omega * (s.omega * s.omega) * Real.exp (6 * g) * expSegDiffKernel (s.gamma * s.gamma) s.delta
      + lhsLoop (g + s.gamma * s.gamma * s.delta)
          (h + s.omega * s.omega * Real.exp (5 * g) * expSeg (5 * (s.gamma * s.gamma)) s.delta) rest

/-- `lhs_double_integral` (`sabr_effective.rs` 177-197). -/
noncomputable def lhsDoubleIntegral (segs : List Seg) : ℝ := lhsLoop 0 0 segs

/-- `rhs_at_gamma_tilde` (`sabr_effective.rs` 214-228). -/
noncomputable def rhsAt (gammaTildeSq expiry i : ℝ) : ℝ :=
  let x := gammaTildeSq * expiry
  let denom := Real.exp x - 1
  if |denom| < 1 / 10 ^ 300 then 0.5 * i * i
  else
    let inner := if |x| < 1 / 10 ^ 3 then
        2.5 * (x * x) + 35 / 6 * (x * x) * x + 215 / 24 * (x * x) * (x * x)
          + 1295 / 120 * (x * x) * (x * x) * x
      else (Real.exp (6 * x) - 1) / 6 - (Real.exp x - 1)
    (i * i) / (5 * denom * denom) * inner

/-- The widening of the bracket (`sabr_effective.rs` 257-264): at most `n` more doublings. -/
noncomputable def widen (f : ℝ → ℝ) : Nat → ℝ → ℝ
  | 0, hi => hi
  | n + 1, hi => if f hi < 0 then widen f n (hi * 2) else hi

/-- The bisection (`sabr_effective.rs` 275-286), `n` iterations left. -/
noncomputable def bisectLoop (f : ℝ → ℝ) : Nat → ℝ → ℝ → ℝ × ℝ
  | 0, lo, hi => (lo, hi)
  | n + 1, lo, hi =>
    let mid := 0.5 * (lo + hi)
    let p := if 0 < f mid then (lo, mid) else (mid, hi)
    if p.2 - p.1 < 1 / 10 ^ 14 then p else bisectLoop f n p.1 p.2

/-- `effective_vol_vol` after alignment (`sabr_effective.rs` 247-287). -/
noncomputable def volVolOf (expiry i lhs : ℝ) : Outcome ℝ :=
  if lhs ≤ 0.5 * i * i * (1 + 1 / 10 ^ 12) then .ok 0
  else
    let f := fun g => rhsAt g expiry i - lhs
    let hi := widen f 20 4
    if 0 ≤ f hi then
      let p := bisectLoop f 60 0 hi
      .ok √(0.5 * (p.1 + p.2))
    else .panic

/-- `effective_vol_vol` (`sabr_effective.rs` 238-288). -/
noncomputable def effectiveVolVol (gamma omega : PieceConst) (expiry : ℝ) : Outcome ℝ := do
  let segs ← alignedSegments gamma omega expiry
  volVolOf expiry (iIntegral segs) (lhsDoubleIntegral segs)

/-- `effective_term_structure` (`sabr_effective.rs` 315-340). -/
noncomputable def effectiveTermStructure (gamma omega : PieceConst) (expiry : ℝ) : Outcome ℝ := do
  let segs ← alignedSegments gamma omega expiry
  let i := iIntegral segs
  let gt ← effectiveVolVol gamma omega expiry
  let x := gt * gt * expiry
  let omegaSq := if |x| < 1 / 10 ^ 6 then i / expiry else gt * gt * i / (Real.exp x - 1)
  if 0 ≤ omegaSq then .ok √omegaSq else .panic

/-- The integral of `effective_correlation` (`sabr_effective.rs` 372-382); a vanishing `ω₁` panics. -/
noncomputable def corrIntegral : List Seg → List ℝ → Outcome ℝ
  | s :: rest, r :: rs => do
    if 1 / 10 ^ 15 < |s.omega| then
      let t ← corrIntegral rest rs
      .ok (r * s.gamma / s.omega * s.delta + t)
    else .panic
  | _, _ => .ok 0

/-- `effective_correlation` (`sabr_effective.rs` 358-392). -/
noncomputable def effectiveCorrelation (gamma omega rho : PieceConst) (expiry : ℝ) : Outcome ℝ := do
  if gamma.knots = rho.knots then
    let segs ← alignedSegments gamma omega expiry
    if segs.length ≤ rho.values.length then
      let integral ← corrIntegral segs (rho.values.take segs.length)
      let gt ← effectiveVolVol gamma omega expiry
      let ot ← effectiveTermStructure gamma omega expiry
      if |gt| < 1 / 10 ^ 15 then .ok 0 else .ok (ot / (gt * expiry) * integral)
    else .panic
  else .panic

end Verif
