import Verif.Model.FmmTenor
import Verif.Model.Cholesky

/-!
# The forward market model: volatility, simulation, bonds and bank account

Model of `Fmm`, `FmmSimulator`, `bond_price` and `bank_account` in
`/repo/src/models/interestrate/fmm.rs` over the real numbers.  The standard normal draws of a step
are a parameter.  Indexing outside a vector and failed assertions are panics.  `powf` is
`Real.rpow`, which agrees with it for positive bases.
-/

namespace Verif

open Classical

/-- `VolSchedule` (`fmm.rs` 154-158). -/
inductive VolSchedule where
  | piecewiseConstant (schedules : List (List (ℝ × ℝ)))
  | hoLeeEquivalent (vol meanReversion : ℝ)

/-- The loop over the knots (`fmm.rs` 167-173): stops at the first knot after `t`. -/
noncomputable def knotLoop (t : ℝ) : ℝ → List (ℝ × ℝ) → ℝ
  | last, [] => last
  | last, (start, sigma) :: rest => if start ≤ t then knotLoop t sigma rest else last

/-- `VolSchedule::sigma_at` (`fmm.rs` 161-192). -/
noncomputable def VolSchedule.sigmaAt (s : VolSchedule) (j : ℕ) (t : ℝ) (q : FmmTenor) :
    Outcome ℝ :=
  match s with
  | .piecewiseConstant schedules => do
    let perRate ← at1 schedules j
    match perRate with
    | [] => .panic
    | (start, sigma) :: rest => .ok (knotLoop t sigma ((start, sigma) :: rest))
  | .hoLeeEquivalent vol a => do
    let lo ← at1 q.dates j
    let hi ← unwrap q.dates[j]?
    if hi ≤ t then .ok 0
    else if |a| < 1 / 10 ^ 12 then .ok (vol * (hi - lo))
    else .ok (vol * (Real.exp (-a * (lo - t)) - Real.exp (-a * (hi - t))) / a)

/-- `Fmm` (`fmm.rs` 207-228); `LinearDecay` has no fields. -/
structure Fmm where
  tenor : FmmTenor
  sigmas : List ℝ
  correlation : List (List ℝ)
  betas : Option (List ℝ)
  schedule : Option VolSchedule

/-- `Fmm::new` (`fmm.rs` 231-264); the assertions are panics. -/
noncomputable def Fmm.new (tenor : FmmTenor) (sigmas : List ℝ) (correlation : List (List ℝ)) :
    Outcome Fmm :=
  let m := tenor.m
  if sigmas.length = m ∧ correlation.length = m
    ∧ (∀ i < m, ∃ row, correlation[i]? = some row ∧ row.length = m
        ∧ |row.getD i 0 - 1| < 1 / 10 ^ 12
        ∧ ∀ j < m, |row.getD j 0 - (correlation.getD j []).getD i 0| < 1 / 10 ^ 12
            ∧ |row.getD j 0| ≤ 1 + 1 / 10 ^ 12)
    ∧ ∀ s ∈ sigmas, 0 ≤ s
  then .ok ⟨tenor, sigmas, correlation, none, none⟩ else .panic

/-- `Fmm::with_betas` (`fmm.rs` 270-278). -/
noncomputable def Fmm.withBetas (f : Fmm) (betas : List ℝ) : Outcome Fmm :=
  if betas.length = f.tenor.m ∧ ∀ b ∈ betas, 0 ≤ b ∧ b ≤ 1
  then .ok { f with betas := some betas } else .panic

/-- The checks on a piecewise-constant schedule (`fmm.rs` 285-300). -/
def VolSchedule.accepted (s : VolSchedule) (m : ℕ) : Prop :=
  match s with
  | .piecewiseConstant sched => sched.length = m ∧ ∀ perRate ∈ sched, perRate ≠ []
      ∧ ∀ i, i + 1 < perRate.length →
        (perRate.getD i (0, 0)).1 < (perRate.getD (i + 1) (0, 0)).1
  | .hoLeeEquivalent _ _ => True

/-- `Fmm::with_vol_schedule` (`fmm.rs` 284-303). -/
noncomputable def Fmm.withVolSchedule (f : Fmm) (s : VolSchedule) : Outcome Fmm :=
  if s.accepted f.tenor.m then .ok { f with schedule := some s } else .panic

/-- `Fmm::sigma_at` (`fmm.rs` 307-312). -/
noncomputable def Fmm.sigmaAt (f : Fmm) (j : ℕ) (t : ℝ) : Outcome ℝ :=
  match f.schedule with
  | some s => s.sigmaAt j t f.tenor
  | none => at1 f.sigmas j

/-- `Fmm::displacement_level` (`fmm.rs` 325-334). -/
noncomputable def Fmm.displacementLevel (f : Fmm) (j : ℕ) (r : ℝ) : Outcome ℝ :=
  match f.betas with
  | none => .ok 1
  | some betas => do
    let b ← at1 betas j
    let r0 ← at1 f.tenor.rates j
    .ok (b * r + (1 - b) * r0)

/-- `Fmm::adapted_vol` (`fmm.rs` 339-341). -/
noncomputable def Fmm.adaptedVol (f : Fmm) (j : ℕ) (t r : ℝ) : Outcome ℝ := do
  let s ← f.sigmaAt j t
  let l ← f.displacementLevel j r
  .ok (s * l)

/-- `FmmPath` (`fmm.rs` 363-370). -/
structure FmmPath where
  rates : List ℝ
  yDiag : List ℝ
  ratesAtStart : List ℝ
  yAtStart : List ℝ
  xActive : ℝ
  t : ℝ

/-- `FmmSimulator` (`fmm.rs` 376-381) without the generator; the factor as in `Model/Cholesky`. -/
structure FmmSimulator where
  model : Fmm
  chol : ℕ → ℕ → ℝ

/-- `FmmSimulator::new` (`fmm.rs` 384-391). -/
noncomputable def FmmSimulator.new (f : Fmm) : Outcome FmmSimulator :=
  match cholesky f.correlation.length fun i j => (f.correlation.getD i []).getD j 0 with
  | some l => .ok ⟨f, l⟩
  | none => .fail .invalidData

/-- `FmmSimulator::initial_path` (`fmm.rs` 398-410). -/
noncomputable def FmmSimulator.initialPath (s : FmmSimulator) : Outcome FmmPath := do
  let m := s.model.tenor.m
  let r ← unwrap s.model.tenor.rates[0]?
  .ok ⟨s.model.tenor.rates, List.replicate m 0, (List.replicate m 0).set 0 r,
    List.replicate m 0, 0, 0⟩

/-- The correlated increments (`fmm.rs` 434-448), `dw[i]` for the zero-based `i`; `z` are the
standard normal draws. -/
noncomputable def FmmSimulator.dw (s : FmmSimulator) (dt : ℝ) (z : List ℝ) (i : ℕ) : ℝ :=
  (((List.range s.model.correlation.length).map (s.chol i)).zip z |>.take (i + 1)
    |>.map fun (a, b) => a * b).sum * √dt

/-- The entry of `drift_weight` (`fmm.rs` 464). -/
noncomputable def fmmDriftWeight (f : Fmm) (rates : List ℝ) (tMid : ℝ) (i : ℕ) : Outcome ℝ := do
  let g ← f.tenor.gamma i tMid
  let r ← at1 rates i
  let sig ← f.adaptedVol i tMid r
  let tau ← f.tenor.tau i
  .ok (sig * g * tau / (1 + tau * r))

/-- The new `j`-th rate (`fmm.rs` 467-483). -/
noncomputable def FmmSimulator.newRate (s : FmmSimulator) (rates : List ℝ) (tMid dt : ℝ)
    (z : List ℝ) (etaOld j : ℕ) : Outcome ℝ := do
  let f := s.model
  let r ← at1 rates j
  if j < etaOld then .ok r
  else do
    let g ← f.tenor.gamma j tMid
    if g = 0 then .ok r
    else do
      let sig ← f.adaptedVol j tMid r
      let sum ← (List.range' etaOld (j + 1 - etaOld)).foldlM (fun (acc : ℝ) (i : ℕ) => do
        let c ← entry f.correlation i j
        let w ← fmmDriftWeight f rates tMid i
        .ok (acc + c * w)) 0
      let drift := sig * g * sum
      let diffusion := sig * g * s.dw dt z (j - 1)
      .ok (r + drift * dt + diffusion)

/-- The new `Y_{j,j}` (`fmm.rs` 490-501). -/
noncomputable def Fmm.newY (f : Fmm) (p : FmmPath) (tMid dt : ℝ) (j : ℕ) : Outcome ℝ := do
  let tj ← unwrap f.tenor.dates[j]?
  let y ← at1 p.yDiag j
  if tj ≤ p.t then .ok y
  else do
    let tau ← f.tenor.tau j
    let r ← at1 p.rates j
    let sig ← f.adaptedVol j tMid r
    .ok (y + (sig / (r + 1 / tau)) ^ 2 * min (tj - p.t) dt)

/-- The new `x_k` (`fmm.rs` 508-525); `newRates` and `newYs` are already up to date. -/
noncomputable def FmmSimulator.newX (s : FmmSimulator) (p : FmmPath) (tMid dt : ℝ) (z : List ℝ)
    (etaOld : ℕ) (newRates newYs : List ℝ) : Outcome ℝ :=
  let f := s.model
  if 1 ≤ etaOld ∧ etaOld ≤ f.tenor.m then do
    let k := etaOld
    let lo ← at1 f.tenor.dates k
    let hi ← unwrap f.tenor.dates[k]?
    if lo < p.t ∧ p.t < hi then do
      let tau ← f.tenor.tau k
      let r0 ← at1 p.rates k
      let r1 ← at1 newRates k
      let rMid := 1 / 2 * (r0 + r1)
      let sig ← f.adaptedVol k tMid rMid
      let y1 ← at1 newYs k
      let y0 ← at1 p.yAtStart k
      let driftX := 1 / tau * (y1 - y0)
      .ok (p.xActive + (driftX * dt + sig / (rMid + 1 / tau) * s.dw dt z (k - 1)))
    else .ok p.xActive
  else .ok p.xActive

/-- `FmmSimulator::step` (`fmm.rs` 426-541).  A path has one entry per rate in each vector, so the
vectors are rebuilt entry by entry. -/
noncomputable def FmmSimulator.step (s : FmmSimulator) (p : FmmPath) (dt : ℝ) (z : List ℝ) :
    Outcome FmmPath :=
  if 0 < dt then do
    let q := s.model.tenor
    let m := q.m
    let tMid := p.t + 1 / 2 * dt
    let etaOld ← q.eta p.t
    let newRates ← collectO (fun i => s.newRate p.rates tMid dt z etaOld (i + 1)) (List.range m)
    let newYs ← collectO (fun i => s.model.newY p tMid dt (i + 1)) (List.range m)
    let newX ← s.newX p tMid dt z etaOld newRates newYs
    let etaNew ← q.eta (p.t + dt)
    let crossed := fun k => etaOld + 1 ≤ k ∧ k ≤ min etaNew m
    let startRates ← collectO (fun i =>
      if crossed (i + 1) then at1 newRates (i + 1) else at1 p.ratesAtStart (i + 1)) (List.range m)
    let startYs ← collectO (fun i =>
      if crossed (i + 1) then at1 newYs (i + 1) else at1 p.yAtStart (i + 1)) (List.range m)
    let x := if etaOld + 1 ≤ min etaNew m then 0 else newX
    .ok ⟨newRates, newYs, startRates, startYs, x, p.t + dt⟩
  else .panic

/-- The steps of one path (`fmm.rs` 557-560). -/
noncomputable def FmmSimulator.run (s : FmmSimulator) (dt : ℝ) :
    FmmPath → List (List ℝ) → Outcome FmmPath
  | p, [] => .ok p
  | p, z :: zs => do
    let p' ← s.step p dt z
    s.run dt p' zs

/-- One path of `FmmSimulator::simulate_terminal` (`fmm.rs` 547-564) with the draws of each
step. -/
noncomputable def FmmSimulator.simulatePath (s : FmmSimulator) (tEnd : ℝ) (draws : List (List ℝ)) :
    Outcome FmmPath :=
  if 0 < tEnd ∧ 0 < draws.length then do
    let p ← s.initialPath
    s.run (tEnd / draws.length) p draws
  else .panic

/-- The loop over the paths (`fmm.rs` 556-562); each step takes the next vector of the stream. -/
noncomputable def FmmSimulator.pathsLoop (s : FmmSimulator) (dt : ℝ) (nSteps : ℕ) (draws : ℕ → List ℝ) :
    ℕ → ℕ → Outcome (List FmmPath)
  | 0, _ => .ok []
  | n + 1, k => do
    let p ← s.initialPath
    let p' ← s.run dt p ((List.range nSteps).map fun i => draws (k + i))
    let rest ← s.pathsLoop dt nSteps draws n (k + nSteps)
    .ok (p' :: rest)

/-- `FmmSimulator::simulate_terminal` (`fmm.rs` 547-564). -/
noncomputable def FmmSimulator.simulateTerminal (s : FmmSimulator) (draws : ℕ → List ℝ) (tEnd : ℝ)
    (nSteps nPaths : ℕ) : Outcome (List FmmPath) :=
  if 0 < tEnd ∧ 0 < nSteps ∧ 0 < nPaths then
    s.pathsLoop (tEnd / nSteps) nSteps draws nPaths 0
  else .panic

/-- `back_stub_forward_bond` (`fmm.rs` 611-645). -/
noncomputable def backStubForwardBond (f : Fmm) (p : FmmPath) (k : ℕ) (T p0T p0K : ℝ) :
    Outcome ℝ :=
  let q := f.tenor
  if 1 ≤ k ∧ k ≤ q.m then do
    let lo ← at1 q.dates k
    let hi ← unwrap q.dates[k]?
    if p.t ≤ lo + 1 / 10 ^ 15 then
      if lo - 1 / 10 ^ 15 < T ∧ T ≤ hi + 1 / 10 ^ 15 then do
        let r ← at1 p.rates k
        let tau ← q.tau k
        let g1 ← q.bigG k lo T
        let g2 ← q.bigG k T hi
        let y ← at1 p.yDiag k
        .ok (p0T * (1 + tau * r) ^ (-g1) * p0K ^ (-g1) * Real.exp (1 / 2 * g1 * g2 * y))
      else .panic
    else .panic
  else .panic

/-- `front_stub_bond` (`fmm.rs` 667-711). -/
noncomputable def frontStubBond (f : Fmm) (p : FmmPath) (T p0T p0K : ℝ) : Outcome ℝ := do
  let q := f.tenor
  let k ← q.eta p.t
  if 1 ≤ k ∧ k ≤ q.m then do
    let lo ← at1 q.dates k
    let hi ← unwrap q.dates[k]?
    if lo - 1 / 10 ^ 15 < p.t ∧ p.t < hi + 1 / 10 ^ 15 then
      if p.t - 1 / 10 ^ 15 < T ∧ T ≤ hi + 1 / 10 ^ 15 then do
        let tau ← q.tau k
        let r ← at1 p.ratesAtStart k
        let yStart ← at1 p.yAtStart k
        let y1 ← at1 p.yDiag k
        let y := y1 - yStart
        let x := p.xActive
        let g ← q.bigG k p.t T
        let gTK ← q.bigG k T hi
        let gKT ← q.bigG k lo T
        let gtK ← q.bigG k p.t hi
        let gKt ← q.bigG k lo p.t
        .ok (p0T * p0K ^ (-g) * (1 + tau * r) ^ (-g)
          * Real.exp (-g * x - 1 / 2 * g * g * y + 1 / 2 * yStart * (gTK * gKT - gtK * gKt)))
      else .panic
    else .panic
  else .panic

/-- `InitialDiscountCurve::p0_fwd` (`fmm.rs` 724-726) of the curve `p0`. -/
noncomputable def p0Fwd (p0 : ℝ → ℝ) (s T : ℝ) : ℝ := p0 T / p0 s

/-- `FlatCurve::p0` (`fmm.rs` 738-740). -/
noncomputable def flatCurve (rate T : ℝ) : ℝ := Real.exp (-rate * T)

/-- The bond to a date of the current period (`fmm.rs` 772-784 and 799-811): the back stub at the
start of the period, the front stub inside. -/
noncomputable def currentPeriodBond (f : Fmm) (p : FmmPath) (k : ℕ) (T : ℝ) (p0 : ℝ → ℝ) :
    Outcome ℝ := do
  let lo ← at1 f.tenor.dates k
  let hi ← unwrap f.tenor.dates[k]?
  if p.t ≤ lo + 1 / 10 ^ 15 then
    backStubForwardBond f p k T (p0Fwd p0 lo T) (p0Fwd p0 lo hi)
  else frontStubBond f p T (p0Fwd p0 p.t T) (p0Fwd p0 lo hi)

/-- `bond_price` (`fmm.rs` 752-832). -/
noncomputable def bondPrice (f : Fmm) (p : FmmPath) (T : ℝ) (p0 : ℝ → ℝ) : Outcome ℝ :=
  let q := f.tenor
  if p.t - 1 / 10 ^ 15 ≤ T then
    if |T - p.t| < 1 / 10 ^ 15 then .ok 1
    else do
      let e ← q.eta p.t
      let eT ← q.eta T
      if eT = e ∧ 1 ≤ e ∧ e ≤ q.m then currentPeriodBond f p e T p0
      else if eT ≤ q.m then do
        let tEta ← unwrap q.dates[e]?
        let front ← currentPeriodBond f p e tEta p0
        let middle ← (List.range' (e + 1) (eT - (e + 1))).foldlM (fun (acc : ℝ) (j : ℕ) => do
          let tau ← q.tau j
          let r ← at1 p.rates j
          .ok (acc / (1 + tau * r))) 1
        let lo ← at1 q.dates eT
        let hi ← unwrap q.dates[eT]?
        let back ← backStubForwardBond f p eT T (p0Fwd p0 lo T) (p0Fwd p0 lo hi)
        .ok (front * middle * back)
      else .panic
  else .panic

/-- `bank_account` (`fmm.rs` 847-868). -/
noncomputable def bankAccount (f : Fmm) (p : FmmPath) (p0 : ℝ → ℝ) : Outcome ℝ := do
  let q := f.tenor
  let e ← q.eta p.t
  let product ← (List.range' 1 (min e q.m)).foldlM (fun (acc : ℝ) (j : ℕ) => do
    let tau ← q.tau j
    let r ← at1 p.rates j
    .ok (acc * (1 + tau * r))) 1
  if q.m < e then .ok product
  else do
    let tEta ← unwrap q.dates[e]?
    let bond ← bondPrice f p tEta p0
    .ok (product * bond)

end Verif
