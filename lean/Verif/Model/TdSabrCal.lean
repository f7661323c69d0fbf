import Verif.Model.Calibrate
import Verif.Model.TdSabr

/-!
# The time-dependent SABR calibrator

Model of `/repo/src/models/forex/sabr_time_dependent_calibrator.rs` over the reals.  The vectors
that the loops extend (`nu_values`, `alpha_values`, `rho_values`) are arguments of the recursions,
and the slices `knots[..=i + 1]` of the knot vector are built along with them.
-/

namespace Verif

open Classical

/-- The `while` loop that widens the bracket (`sabr_time_dependent_calibrator.rs` 158-162 and
198-202): at most `n` more doublings of `hi`, whose value is `fHi`. -/
noncomputable def tdBump (f : ℝ → Outcome ℝ) : ℕ → ℝ → ℝ → Outcome (ℝ × ℝ)
  | 0, hi, fHi => .ok (hi, fHi)
  | n + 1, hi, fHi =>
    if fHi < 0 then do
      let v ← f (hi * 2)
      tdBump f n (hi * 2) v
    else .ok (hi, fHi)

/-- The loop of `bisect` (`sabr_time_dependent_calibrator.rs` 307-318), `n` iterations left. -/
noncomputable def tdBisectLoop (f : ℝ → Outcome ℝ) (tol : ℝ) : ℕ → ℝ → ℝ → Outcome ℝ
  | 0, lo, hi => .ok (0.5 * (lo + hi))
  | n + 1, lo, hi => do
    let mid := 0.5 * (lo + hi)
    let v ← f mid
    if |v| < tol ∨ hi - lo < tol then .ok mid
    else if v < 0 then tdBisectLoop f tol n mid hi
    else tdBisectLoop f tol n lo mid

/-- `bisect` (`sabr_time_dependent_calibrator.rs` 296-320). -/
noncomputable def tdBisect (f : ℝ → Outcome ℝ) (lo hi tol : ℝ) (maxIter : ℕ) : Outcome ℝ := do
  let fLo ← f lo
  let fHi ← f hi
  if 0 < fLo then .ok lo
  else if fHi < 0 then .ok hi
  else tdBisectLoop f tol maxIter lo hi

/-- Bracketing and solving for one segment (`sabr_time_dependent_calibrator.rs` 154-169 and
194-209), from the first upper end `hi0`. -/
noncomputable def tdSolve (f : ℝ → Outcome ℝ) (hi0 : ℝ) : Outcome ℝ := do
  let v ← f hi0
  let p ← tdBump f 20 hi0 v
  if 0 ≤ p.2 then tdBisect f (1 / 10 ^ 6) p.1 (1 / 10 ^ 10) 80 else .panic

/-- `f` of stage 2 (`sabr_time_dependent_calibrator.rs` 133-149): the effective vol-vol with last
value `x`, less the target, with the term structure frozen at the market value. -/
noncomputable def nuGap (ks nus : List ℝ) (T : ℝ) (m : Sabr) (x : ℝ) : Outcome ℝ := do
  let omega ← PieceConst.new ks (List.replicate (nus.length + 1) m.alpha)
  let sched ← PieceConst.new ks (nus ++ [x])
  let g ← effectiveVolVol sched omega T
  .ok (g - m.nu)

/-- Stage 2 (`sabr_time_dependent_calibrator.rs` 132-171): one `ν` per pillar, each pillar given by
its expiry and its market-effective parameters. -/
noncomputable def growNu : List ℝ → List ℝ → List (ℝ × Sabr) → Outcome (List ℝ)
  | _, nus, [] => .ok nus
  | ks, nus, (T, m) :: rest => do
    let nu ← tdSolve (nuGap (ks ++ [T]) nus T m) (max (m.nu * 2) 0.1)
    growNu (ks ++ [T]) (nus ++ [nu]) rest

/-- `f` of stage 3 (`sabr_time_dependent_calibrator.rs` 181-191): the effective term structure with
last value `x`, less the target. -/
noncomputable def alphaGap (ks nus alphas : List ℝ) (T : ℝ) (m : Sabr) (x : ℝ) : Outcome ℝ := do
  let subNu ← PieceConst.new ks nus
  let sched ← PieceConst.new ks (alphas ++ [x])
  let w ← effectiveTermStructure subNu sched T
  .ok (w - m.alpha)

/-- Stage 3 (`sabr_time_dependent_calibrator.rs` 180-211): one `α` per pillar; `nus` are the values
of stage 2, used up to the current segment. -/
noncomputable def growAlpha (nus : List ℝ) : List ℝ → List ℝ → List (ℝ × Sabr) → Outcome (List ℝ)
  | _, alphas, [] => .ok alphas
  | ks, alphas, (T, m) :: rest => do
    let a ← tdSolve (alphaGap (ks ++ [T]) (nus.take (alphas.length + 1)) alphas T m)
      (max (m.alpha * 4) 0.5)
    growAlpha nus (ks ++ [T]) (alphas ++ [a]) rest

/-- Stage 4 (`sabr_time_dependent_calibrator.rs` 222-249): one `ρ` per pillar; `tail` is the
running sum of the unclamped `ρₖ Sₖ`, `prev` the knot before the current segment. -/
noncomputable def growRho (nus alphas : List ℝ) :
    List ℝ → ℝ → List ℝ → ℝ → List (ℝ × Sabr) → Outcome (List ℝ)
  | _, _, rhos, _, [] => .ok rhos
  | ks, prev, rhos, tail, (T, m) :: rest => do
    let subNu ← PieceConst.new (ks ++ [T]) (nus.take (rhos.length + 1))
    let subAlpha ← PieceConst.new (ks ++ [T]) (alphas.take (rhos.length + 1))
    let g ← effectiveVolVol subNu subAlpha T
    let w ← effectiveTermStructure subNu subAlpha T
    let nu ← unwrap nus[rhos.length]?
    let alpha ← unwrap alphas[rhos.length]?
    let s := (T - prev) * nu / alpha
    if 1 / 10 ^ 15 < |s| then do
      let rhs := m.rho * g * T / w
      let rho := (rhs - tail) / s
      growRho nus alphas (ks ++ [T]) T (rhos ++ [max (-0.999) (min rho 0.999)]) (tail + rho * s) rest
    else .panic

/-- `PillarDiagnostics` (`sabr_time_dependent_calibrator.rs` 55-64). -/
structure TdDiag where
  expiry : ℝ
  market : Sabr
  stage1Rmse : ℝ
  postFitRmse : ℝ

/-- `TimeDependentCalibrationResult` (`sabr_time_dependent_calibrator.rs` 67-70). -/
structure TdFit where
  params : TdSabr
  perPillar : List TdDiag

/-- The fit at one pillar (`sabr_time_dependent_calibrator.rs` 100-105): the seed needs a middle
volatility, which indexing an empty vector does not give. -/
noncomputable def tdMarket (beta : ℝ) (o : NmOptions) (q : PillarTarget) : Outcome Sabr := do
  let v ← unwrap q.vols[q.vols.length / 2]?
  let seed ← Sabr.new v beta (-0.2) 0.3
  let targets ← targetsFromGrid q.strikes q.vols
  let fit ← sabrCalibrate seed q.forward targets q.expiry o
  .ok fit.params

/-- Stage 1 (`sabr_time_dependent_calibrator.rs` 98-106). -/
noncomputable def tdMarkets (beta : ℝ) (o : NmOptions) : List PillarTarget → Outcome (List Sabr)
  | [] => .ok []
  | q :: qs => do
    let m ← tdMarket beta o q
    let ms ← tdMarkets beta o qs
    .ok (m :: ms)

/-- The loop over the strikes for the stage-1 error (`sabr_time_dependent_calibrator.rs` 112-116),
from the running sum. -/
noncomputable def tdSumSq (m : Sabr) (forward expiry : ℝ) : ℝ → List (ℝ × ℝ) → Outcome ℝ
  | ss, [] => .ok ss
  | ss, (k, v) :: rest => do
    let w ← haganVol m forward k expiry
    tdSumSq m forward expiry (ss + (w - v) ^ 2) rest

/-- `stage1_rmse` of one pillar (`sabr_time_dependent_calibrator.rs` 110-118). -/
noncomputable def tdStage1Rmse (q : PillarTarget) (m : Sabr) : Outcome ℝ := do
  let ss ← tdSumSq m q.forward q.expiry 0 (q.strikes.zip q.vols)
  .ok √(ss / q.strikes.length)

/-- `stage1_rmse` (`sabr_time_dependent_calibrator.rs` 107-119). -/
noncomputable def tdStage1 : List (PillarTarget × Sabr) → Outcome (List ℝ)
  | [] => .ok []
  | (q, m) :: rest => do
    let e ← tdStage1Rmse q m
    let es ← tdStage1 rest
    .ok (e :: es)

/-- Stages 2 to 4 (`sabr_time_dependent_calibrator.rs` 122-252) for given market-effective
parameters. -/
noncomputable def tdStages (pillars : List (ℝ × Sabr)) (beta forward0 : ℝ) : Outcome TdSabr := do
  let knots := 0 :: pillars.map Prod.fst
  let nus ← growNu [0] [] pillars
  let nuSched ← PieceConst.new knots nus
  let alphas ← growAlpha nus [0] [] pillars
  let alphaSched ← PieceConst.new knots alphas
  let rhos ← growRho nus alphas [0] 0 [] 0 pillars
  let rhoSched ← PieceConst.new knots rhos
  TdSabr.new alphaSched rhoSched nuSched beta forward0

/-- The diagnostics of pillar `i` (`sabr_time_dependent_calibrator.rs` 260-285). -/
noncomputable def tdDiag (p : TdSabr) (i : ℕ) (q : PillarTarget) (m : Sabr) (r1 : ℝ) :
    Outcome TdDiag := do
  let subNu ← PieceConst.new (p.alpha.knots.take (i + 2)) (p.nu.values.take (i + 1))
  let subAlpha ← PieceConst.new (p.alpha.knots.take (i + 2)) (p.alpha.values.take (i + 1))
  let subRho ← PieceConst.new (p.alpha.knots.take (i + 2)) (p.rho.values.take (i + 1))
  let g ← effectiveVolVol subNu subAlpha q.expiry
  let w ← effectiveTermStructure subNu subAlpha q.expiry
  let r ← effectiveCorrelation subNu subAlpha subRho q.expiry
  .ok ⟨q.expiry, m, r1,
    √(((g - m.nu) * (g - m.nu) + (w - m.alpha) * (w - m.alpha) + (r - m.rho) * (r - m.rho)) / 3)⟩

/-- The loop over the pillars (`sabr_time_dependent_calibrator.rs` 255-286). -/
noncomputable def tdDiags (p : TdSabr) : ℕ → List ((PillarTarget × Sabr) × ℝ) → Outcome (List TdDiag)
  | _, [] => .ok []
  | i, ((q, m), r1) :: rest => do
    let d ← tdDiag p i q m r1
    let ds ← tdDiags p (i + 1) rest
    .ok (d :: ds)

/-- `calibrate_time_dependent` (`sabr_time_dependent_calibrator.rs` 83-289). -/
noncomputable def tdCalibrate (pillars : List PillarTarget) (beta forward0 : ℝ) (o : NmOptions) :
    Outcome TdFit :=
  if pillars ≠ [] ∧ (pillars.map (·.expiry)).IsChain (· < ·) then do
    let market ← tdMarkets beta o pillars
    let rmses ← tdStage1 (pillars.zip market)
    let params ← tdStages ((pillars.map (·.expiry)).zip market) beta forward0
    let diags ← tdDiags params 0 ((pillars.zip market).zip rmses)
    .ok ⟨params, diags⟩
  else .panic

/-- `SabrTimeDependentSurfaceCalibrator::calibrate` (`sabr_time_dependent_calibrator.rs` 342-366);
the report has no optimiser result. -/
noncomputable def tdSurfaceCalibrate (beta forward0 : ℝ) (strips : List SmileStrip) (o : NmOptions) :
    Outcome (FitReport TdSabr 3) := do
  let res ← tdCalibrate (strips.map SmileStrip.pillar) beta forward0 o
  .ok ⟨res.params, (res.perPillar.map (·.stage1Rmse)).foldl max 0, none⟩

end Verif
