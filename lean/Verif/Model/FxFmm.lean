import Verif.Model.FmmTenor

/-!
# The FX-FMM model and its characteristic function

Model of `/repo/src/models/forex/fx_fmm.rs` and `/repo/src/models/forex/fx_fmm1_chf.rs` over the
real and complex numbers.  `Complex64::sqrt` and `ln` are the principal branches; division by zero,
which gives NaN in the code, is only used where the theorems show it does not occur.  The texts of
the validation errors are not modelled.
-/

namespace Verif

open Classical

/-- `FmmSide` (`fx_fmm.rs` 66-81); the decay is the linear one, the only one there is. -/
structure FmmSide where
  sigmas : List ℝ
  lambda : ℝ
  eta : ℝ
  v0 : ℝ
  rateCorr : List (List ℝ)

/-- `FmmSide::validate` (`fx_fmm.rs` 86-125) returns `Ok`. -/
def FmmSide.Valid (l : FmmSide) (t : FmmTenor) : Prop :=
  l.sigmas.length = t.m ∧ l.rateCorr.length = t.m
    ∧ (∀ row ∈ l.rateCorr, row.length = t.m)
    ∧ (∀ (i : ℕ) (r : List ℝ), l.rateCorr[i]? = some r →
        (∀ x, r[i]? = some x → |x - 1| ≤ 1 / 10 ^ 12)
        ∧ ∀ (j : ℕ) (r' : List ℝ), l.rateCorr[j]? = some r' → ∀ x y, r[j]? = some x → r'[i]? = some y →
          |x - y| ≤ 1 / 10 ^ 12 ∧ |x| ≤ 1 + 1 / 10 ^ 12)
    ∧ (0 < l.lambda ∧ 0 < l.eta ∧ 0 < l.v0)
    ∧ ∀ s ∈ l.sigmas, 0 ≤ s

/-- `FmmSide::psi_base` (`fx_fmm.rs` 150-159). -/
noncomputable def FmmSide.psiBase (l : FmmSide) (t : FmmTenor) : Outcome (List ℝ) :=
  collectO (fun idx => do
    let tauJ ← t.tau (idx + 1)
    let r ← unwrap t.rates[idx]?
    let s ← unwrap l.sigmas[idx]?
    .ok (tauJ * s / (1 + tauJ * r))) (List.range t.m)

/-- `FxFmmCorrelations` (`fx_fmm.rs` 172-188). -/
structure FmmCorr where
  xiSigma : ℝ
  xiD : List ℝ
  xiF : List ℝ
  sigmaD : List ℝ
  sigmaF : List ℝ
  cross : List (List ℝ)

/-- `FxFmmCorrelations::validate` (`fx_fmm.rs` 191-249) returns `Ok`. -/
def FmmCorr.Valid (c : FmmCorr) (t : FmmTenor) : Prop :=
  |c.xiSigma| ≤ 1 + 1 / 10 ^ 12 ∧ c.xiD.length = t.m ∧ c.xiF.length = t.m
    ∧ c.sigmaD.length = t.m ∧ c.sigmaF.length = t.m ∧ c.cross.length = t.m
    ∧ (∀ row ∈ c.cross, row.length = t.m ∧ ∀ x ∈ row, |x| ≤ 1 + 1 / 10 ^ 12)
    ∧ ∀ x ∈ c.xiD ++ c.xiF ++ c.sigmaD ++ c.sigmaF, |x| ≤ 1 + 1 / 10 ^ 12

/-- `FxFmmParams` (`fx_fmm.rs` 254-264). -/
structure FmmParams where
  fx0 : ℝ
  heston : Cir
  tenor : FmmTenor
  domestic : FmmSide
  foreign : FmmSide
  correlations : FmmCorr

/-- `FxFmmParams::validate` (`fx_fmm.rs` 268-273) returns `Ok`. -/
def FmmParams.Valid (p : FmmParams) : Prop :=
  p.domestic.Valid p.tenor ∧ p.foreign.Valid p.tenor ∧ p.correlations.Valid p.tenor

/-- `psi_at` (`fx_fmm.rs` 283-291). -/
noncomputable def FmmSide.psiAt (l : FmmSide) (q : FmmTenor) (t : ℝ) : Outcome (List ℝ) := do
  let base ← l.psiBase q
  collectO (fun idx => do
    let b ← unwrap base[idx]?
    let g ← q.gamma (idx + 1) t
    .ok (b * g)) (List.range q.m)

/-- `compute_a_side` (`fx_fmm.rs` 293-309). -/
noncomputable def fmmASide (l : FmmSide) (q : FmmTenor) (t : ℝ) (start : ℕ) : Outcome ℝ := do
  let psi ← l.psiAt q t
  let m := q.m
  if m < start then .ok 0
  else do
    let diag ← (List.range' start (m + 1 - start)).foldlM (fun (acc : ℝ) (j : ℕ) => do
      let x ← at1 psi j
      Outcome.ok (acc + x * x)) 0
    (List.range' start (m + 1 - start)).foldlM (fun (acc : ℝ) (i : ℕ) =>
      (List.range' (i + 1) (m - i)).foldlM (fun (acc : ℝ) (j : ℕ) => do
        let x ← at1 psi i
        let y ← at1 psi j
        let c ← entry l.rateCorr i j
        Outcome.ok (acc + 2 * x * y * c)) acc) diag

/-- `compute_a_d` (`fx_fmm.rs` 314-316). -/
noncomputable def fmmAD (p : FmmParams) (t : ℝ) (start : ℕ) : Outcome ℝ :=
  fmmASide p.domestic p.tenor t start

/-- `compute_a_f` (`fx_fmm.rs` 319-321). -/
noncomputable def fmmAF (p : FmmParams) (t : ℝ) (start : ℕ) : Outcome ℝ :=
  fmmASide p.foreign p.tenor t start

/-- The CIR process of a currency's variance (`fx_fmm.rs` 330-343 and `fx_fmm1_chf.rs` 182-193). -/
noncomputable def FmmSide.cir (l : FmmSide) : Cir :=
  { kappa := l.lambda, theta := l.v0, gamma := l.eta, sigma0 := l.v0 }

/-- `compute_f_linearised` (`fx_fmm.rs` 326-375). -/
noncomputable def fmmF (p : FmmParams) (t : ℝ) (start : ℕ) : Outcome ℝ := do
  let psiD ← p.domestic.psiAt p.tenor t
  let psiF ← p.foreign.psiAt p.tenor t
  let phiXi ← p.heston.sqrtMean t
  let phiD ← p.domestic.cir.sqrtMean t
  let phiF ← p.foreign.cir.sqrtMean t
  let m := p.tenor.m
  if m < start then .ok 0
  else do
    let idx := List.range' start (m + 1 - start)
    let ab ← idx.foldlM (fun (acc : ℝ) (j : ℕ) => do
      let x ← at1 psiD j
      let r ← at1 p.correlations.xiD j
      Outcome.ok (acc + x * r)) 0
    let twoAb := ab * (2 * phiXi * phiD)
    let ac ← idx.foldlM (fun (acc : ℝ) (j : ℕ) => do
      let x ← at1 psiF j
      let r ← at1 p.correlations.xiF j
      Outcome.ok (acc + x * r)) 0
    let twoAc := ac * (2 * phiXi * phiF)
    let bc ← idx.foldlM (fun (acc : ℝ) (j : ℕ) =>
      idx.foldlM (fun (acc : ℝ) (k : ℕ) => do
        let x ← at1 psiD j
        let y ← at1 psiF k
        let c ← entry p.correlations.cross j k
        Outcome.ok (acc + x * y * c)) acc) 0
    let twoBc := bc * (2 * phiD * phiF)
    .ok (twoAb - twoAc - twoBc)

/-! ## The characteristic function -/

/-- `FxFmm1ForwardChf` (`fx_fmm1_chf.rs` 75-98).  `SubSegment` (`fx_fmm1_chf.rs` 60-72) and
`ChfComponents` (`fx_fmm1_chf.rs` 43-49) have the fields of the structures of `fx_hlmm1_chf.rs`,
whose models `Segment` and `HlmmComponents` are used here. -/
structure FmmChf where
  params : FmmParams
  expiry : ℝ
  subSegments : List Segment
  psiBaseD : List ℝ
  psiBaseF : List ℝ
  phiSigma : Cir
  phiD : Cir
  phiF : Cir
  nSub : ℕ
  nSimpson : ℕ

/-- The loop collecting the tenor boundaries (`fx_fmm1_chf.rs` 135-140) over the given indices. -/
noncomputable def fmmTauLoop (dates : List ℝ) (expiry : ℝ) : List ℕ → Outcome (List ℝ)
  | [] => .ok []
  | k :: ks => do
    let d ← unwrap dates[k]?
    let rest ← fmmTauLoop dates expiry ks
    let tauB := expiry - d
    .ok (if 0 < tauB ∧ tauB < expiry + 1 / 10 ^ 12 then tauB :: rest else rest)

/-- All boundaries (`fx_fmm1_chf.rs` 134-146); without rates the range `0..=m-1` underflows. -/
noncomputable def fmmTauBoundaries (t : FmmTenor) (expiry : ℝ) : Outcome (List ℝ) :=
  if t.m = 0 then .panic
  else do
    let l ← fmmTauLoop t.dates expiry (List.range t.m).reverse
    match l.getLast? with
    | none => .ok (l ++ [expiry])
    | some x => .ok (if 1 / 10 ^ 12 < |x - expiry| then l ++ [expiry] else l)

/-- The inner loop of `with_resolution` (`fx_fmm1_chf.rs` 157-176): the chunks with the given
numbers of the segment from `prev` to `tauJ`, of which there are `n`. -/
noncomputable def chunkLoop (p : FmmParams) (expiry prev tauJ : ℝ) (n : ℕ) :
    List ℕ → Outcome (List Segment)
  | [] => .ok []
  | i :: is => do
    let h := (tauJ - prev) / n
    let lo := prev + i * h
    let hi := if i + 1 = n then tauJ else lo + h
    let tMid := expiry - 0.5 * (lo + hi)
    let e ← p.tenor.eta tMid
    let start := min e (p.tenor.m + 1)
    let ad ← fmmAD p tMid start
    let af ← fmmAF p tMid start
    let rest ← chunkLoop p expiry prev tauJ n is
    .ok (⟨hi, hi - lo, start, ad, af⟩ :: rest)

/-- The outer loop of `with_resolution` (`fx_fmm1_chf.rs` 149-178). -/
noncomputable def subLoop (p : FmmParams) (expiry : ℝ) (n : ℕ) : ℝ → List ℝ → Outcome (List Segment)
  | _, [] => .ok []
  | prev, tauJ :: rest =>
    if tauJ - prev ≤ 0 then subLoop p expiry n tauJ rest
    else do
      let chunks ← chunkLoop p expiry prev tauJ n (List.range n)
      let segs ← subLoop p expiry n tauJ rest
      .ok (chunks ++ segs)

/-- `FxFmm1ForwardChf::with_resolution` (`fx_fmm1_chf.rs` 114-207). -/
noncomputable def FmmChf.withResolution (p : FmmParams) (expiry : ℝ) (nSub nSimpson : ℕ) :
    Outcome FmmChf :=
  if 0 < expiry ∧ 1 ≤ nSub ∧ (2 ≤ nSimpson ∧ nSimpson % 2 = 0) ∧ p.Valid then do
    let taus ← fmmTauBoundaries p.tenor expiry
    let segs ← subLoop p expiry nSub 0 taus
    let bd ← p.domestic.psiBase p.tenor
    let bf ← p.foreign.psiBase p.tenor
    .ok { params := p, expiry := expiry, subSegments := segs, psiBaseD := bd, psiBaseF := bf,
          phiSigma := p.heston, phiD := p.domestic.cir, phiF := p.foreign.cir, nSub := nSub,
          nSimpson := nSimpson }
  else .panic

/-- `FxFmm1ForwardChf::new` (`fx_fmm1_chf.rs` 110-112). -/
noncomputable def FmmChf.new (p : FmmParams) (expiry : ℝ) : Outcome FmmChf :=
  FmmChf.withResolution p expiry 1 32

/-- `heston_c` (`fx_fmm1_chf.rs` 302-315). -/
noncomputable def fmmHestonC (u : ℂ) (kappa gamma rho tau : ℝ) : ℂ :=
  if tau ≤ 0 then 0
  else
    let iu := Complex.I * u
    let b2MinusB := iu * iu - iu
    let x : ℂ := kappa - gamma * rho * iu
    let d := (x * x - gamma * gamma * iu * (iu - 1)) ^ (1 / 2 : ℂ)
    let e := Complex.exp (-d * tau)
    b2MinusB * (1 - e) / (x + d - (x - d) * e)

/-- `heston_a_closed_form` (`fx_fmm1_chf.rs` 331-354). -/
noncomputable def fmmHestonA (u : ℂ) (kappa theta gamma rho tau : ℝ) : ℂ :=
  if tau ≤ 0 then 0
  else
    let iu := Complex.I * u
    let x : ℂ := kappa - gamma * rho * iu
    let d := (x * x - gamma * gamma * iu * (iu - 1)) ^ (1 / 2 : ℂ)
    let g := (x - d) / (x + d)
    let e := Complex.exp (-d * tau)
    ((kappa * theta : ℝ) : ℂ) / (gamma * gamma)
      * ((x - d) * tau - 2 * Complex.log ((1 - g * e) / (1 - g)))

/-- `heston_a_increment` (`fx_fmm1_chf.rs` 318-329). -/
noncomputable def fmmHestonAIncrement (u : ℂ) (kappa theta gamma rho tau1 tau2 : ℝ) : ℂ :=
  fmmHestonA u kappa theta gamma rho tau2 - fmmHestonA u kappa theta gamma rho tau1

/-- `advance_d_riccati` (`fx_fmm1_chf.rs` 359-389). -/
noncomputable def fmmAdvanceD (u : ℂ) (lambda eta aj v0 : ℝ) (dPrev : ℂ) (s : ℝ) : ℂ × ℂ :=
  if s ≤ 0 then (dPrev, 0)
  else
    let iu := Complex.I * u
    let u2PlusIu := u * u + iu
    let etaSq := eta * eta
    let delta := (((lambda * lambda : ℝ) : ℂ) + ((etaSq * aj : ℝ) : ℂ) * u2PlusIu) ^ (1 / 2 : ℂ)
    let denom : ℂ := lambda + delta - (etaSq : ℂ) * dPrev
    let num : ℂ := lambda - delta - (etaSq : ℂ) * dPrev
    let ell := num / denom
    let e := Complex.exp (-delta * s)
    let chi := num * (1 - e) / ((etaSq : ℂ) * (1 - ell * e))
    let coef : ℂ := ((v0 * lambda / etaSq : ℝ) : ℂ)
    (dPrev + chi, coef * ((lambda - delta) * s - 2 * Complex.log ((1 - ell * e) / (1 - ell))))

/-- `f_at` (`fx_fmm1_chf.rs` 418-466). -/
noncomputable def FmmChf.fAt (q : FmmChf) (t : ℝ) (start : ℕ) : Outcome ℝ := do
  let p := q.params
  let m := p.tenor.m
  if m < start then .ok 0
  else do
    let phiXi ← q.phiSigma.sqrtMean t
    let phiD ← q.phiD.sqrtMean t
    let phiF ← q.phiF.sqrtMean t
    let idx := List.range' start (m + 1 - start)
    let ab ← idx.foldlM (fun (acc : ℝ) (j : ℕ) => do
      let g ← p.tenor.gamma j t
      let x ← at1 q.psiBaseD j
      let r ← at1 p.correlations.xiD j
      Outcome.ok (acc + x * g * r)) 0
    let twoAb := ab * (2 * phiXi * phiD)
    let ac ← idx.foldlM (fun (acc : ℝ) (j : ℕ) => do
      let g ← p.tenor.gamma j t
      let x ← at1 q.psiBaseF j
      let r ← at1 p.correlations.xiF j
      Outcome.ok (acc + x * g * r)) 0
    let twoAc := ac * (2 * phiXi * phiF)
    let bc ← idx.foldlM (fun (acc : ℝ) (j : ℕ) => do
      let gj ← p.tenor.gamma j t
      idx.foldlM (fun (acc : ℝ) (k : ℕ) => do
        let gk ← p.tenor.gamma k t
        let x ← at1 q.psiBaseD j
        let y ← at1 q.psiBaseF k
        let c ← entry p.correlations.cross j k
        Outcome.ok (acc + x * gj * y * gk * c)) acc) 0
    let twoBc := bc * (2 * phiD * phiF)
    .ok (twoAb - twoAc - twoBc)

/-- `simpson_f_integral` (`fx_fmm1_chf.rs` 396-413). -/
noncomputable def FmmChf.simpsonInt (q : FmmChf) (tau1 tau2 : ℝ) (start n : ℕ) : Outcome ℝ := do
  let h := (tau2 - tau1) / n
  let acc ← (List.range (n + 1)).foldlM (fun (acc : ℝ) (k : ℕ) => do
    let s := tau1 + k * h
    let v ← q.fAt (q.expiry - s) start
    Outcome.ok (acc + simpsonWeight n k * v)) 0
  .ok (acc * h / 3)

/-- One pass of the loop of `components` (`fx_fmm1_chf.rs` 231-280). -/
noncomputable def FmmChf.pass (q : FmmChf) (u : ℂ) (st : ChfState) (seg : Segment) :
    Outcome ChfState := do
  let p := q.params
  let rd := fmmAdvanceD u p.domestic.lambda p.domestic.eta seg.ad p.domestic.v0 st.dd seg.length
  let rf := fmmAdvanceD u p.foreign.lambda p.foreign.eta seg.af p.foreign.v0 st.df seg.length
  let dac := fmmHestonAIncrement u p.heston.kappa p.heston.theta p.heston.gamma
    p.correlations.xiSigma st.tauPrev seg.tau
  let fInt ← q.simpsonInt st.tauPrev seg.tau seg.startIdx (max q.nSimpson 2)
  let u2PlusIu := u * u + Complex.I * u
  let daf := -(1 / 2 : ℂ) * u2PlusIu * (fInt : ℂ)
  .ok ⟨rd.1, rf.1, st.a + (dac + rd.2 + rf.2 + daf), seg.tau⟩

/-- `FxFmm1ForwardChf::components` (`fx_fmm1_chf.rs` 214-283). -/
noncomputable def FmmChf.components (q : FmmChf) (u : ℂ) : Outcome HlmmComponents := do
  let b := Complex.I * u
  let c := fmmHestonC u q.params.heston.kappa q.params.heston.gamma q.params.correlations.xiSigma
    q.expiry
  let st ← q.subSegments.foldlM (q.pass u) ⟨0, 0, 0, 0⟩
  .ok ⟨st.a, b, c, st.dd, st.df⟩

/-- The product in `discount_factors_from_rates` (`fx_fmm1_chf.rs` 475-478). -/
noncomputable def rateProduct (t : FmmTenor) : Outcome ℝ :=
  (List.range' 1 t.m).foldlM (fun (acc : ℝ) (k : ℕ) => do
    let tau ← t.tau k
    let l ← at1 t.rates k
    Outcome.ok (acc / (1 + tau * l))) 1

/-- `discount_factors_from_rates` (`fx_fmm1_chf.rs` 472-484). -/
noncomputable def rateDiscounts (p : FmmParams) (expiry : ℝ) : Outcome (ℝ × ℝ) := do
  let tn ← unwrap p.tenor.dates[p.tenor.m]?
  let q ← rateProduct p.tenor
  if tn + 1 / 10 ^ 12 < expiry then do
    let r ← at1 p.tenor.rates p.tenor.m
    let q' := q * Real.exp (-r * (expiry - tn))
    .ok (q', q')
  else .ok (q, q)

/-- `FxFmm1ForwardChf::evaluate` (`fx_fmm1_chf.rs` 290-298). -/
noncomputable def FmmChf.evaluate (q : FmmChf) (u : ℂ) : Outcome ℂ := do
  let p := q.params
  let comps ← q.components u
  let dfs ← rateDiscounts p q.expiry
  let x0 := Real.log (p.fx0 * dfs.2 / dfs.1)
  .ok (comps.assemble x0 p.heston.sigma0 p.domestic.v0 p.foreign.v0)

end Verif
