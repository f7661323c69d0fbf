import Verif.Model.HhwChf
import Verif.Model.Date

/-!
# The FX-HLMM model and its characteristic function

Model of `/repo/src/models/forex/fx_hlmm.rs` and `/repo/src/models/forex/fx_hlmm1_chf.rs`
over the real and complex numbers.  `Complex64::sqrt` and `ln` are the principal branches; division
by zero, which gives NaN in the code, is only used where the theorems show it does not occur.
-/

namespace Verif

open Classical

/-- `LiborTenor` (`fx_hlmm.rs` 54-59). -/
structure LiborTenor where
  dates : List ℝ
  libors : List ℝ

/-- The loop over adjacent dates in `LiborTenor::new` (`fx_hlmm.rs` 69-74). -/
def increasingDates : List ℝ → Prop
  | a :: b :: l => a < b ∧ increasingDates (b :: l)
  | _ => True

/-- `LiborTenor::new` (`fx_hlmm.rs` 62-76); the assertions are panics. -/
noncomputable def LiborTenor.new (dates libors : List ℝ) : Outcome LiborTenor :=
  if dates.length = libors.length + 1 ∧ (∃ d, dates[0]? = some d ∧ 0 ≤ d) ∧ increasingDates dates
  then .ok ⟨dates, libors⟩ else .panic

/-- `LiborTenor::n` (`fx_hlmm.rs` 79-81). -/
def LiborTenor.n (t : LiborTenor) : ℕ := t.libors.length

/-- `LiborTenor::tau` (`fx_hlmm.rs` 85-88). -/
noncomputable def LiborTenor.tau (t : LiborTenor) (k : ℕ) : Outcome ℝ :=
  if 1 ≤ k ∧ k ≤ t.n then do
    let a ← unwrap t.dates[k]?
    let b ← unwrap t.dates[k - 1]?
    .ok (a - b)
  else .panic

/-- The loop of `LiborTenor::m` (`fx_hlmm.rs` 94-98): index of the first date not before `t`. -/
noncomputable def firstNotBefore (t : ℝ) : List ℝ → ℕ → Option ℕ
  | [], _ => none
  | tk :: l, k => if t ≤ tk then some k else firstNotBefore t l (k + 1)

/-- `LiborTenor::m` (`fx_hlmm.rs` 93-100). -/
noncomputable def LiborTenor.m (q : LiborTenor) (t : ℝ) : ℕ :=
  (firstNotBefore t q.dates 0).getD q.n

/-- `LiborTenor::active` (`fx_hlmm.rs` 104-107). -/
noncomputable def LiborTenor.active (q : LiborTenor) (t : ℝ) : List ℕ :=
  List.range' (q.m t + 1) (q.n - q.m t)

/-- `DdSvLmm` (`fx_hlmm.rs` 121-135). -/
structure DdSvLmm where
  sigmas : List ℝ
  betas : List ℝ
  lambda : ℝ
  eta : ℝ
  v0 : ℝ
  liborCorr : List (List ℝ)

/-- `DdSvLmm::validate` (`fx_hlmm.rs` 141-182) returns `Ok`; the texts of the errors are not
modelled. -/
def DdSvLmm.Valid (l : DdSvLmm) (t : LiborTenor) : Prop :=
  l.sigmas.length = t.n ∧ l.betas.length = t.n ∧ l.liborCorr.length = t.n
    ∧ (∀ row ∈ l.liborCorr, row.length = t.n)
    ∧ (∀ (i : ℕ) (r : List ℝ), l.liborCorr[i]? = some r →
        (∀ x, r[i]? = some x → |x - 1| ≤ 1 / 10 ^ 12)
        ∧ ∀ (j : ℕ) (r' : List ℝ), l.liborCorr[j]? = some r' → ∀ x y, r[j]? = some x → r'[i]? = some y →
          |x - y| ≤ 1 / 10 ^ 12 ∧ |x| ≤ 1 + 1 / 10 ^ 12)
    ∧ 0 < l.lambda ∧ 0 < l.eta ∧ 0 < l.v0

/-- `map(…).collect()` over indices (`fx_hlmm.rs` 188-195). -/
def collectO (f : ℕ → Outcome ℝ) : List ℕ → Outcome (List ℝ)
  | [] => .ok []
  | j :: js => do
    let x ← f j
    let xs ← collectO f js
    .ok (x :: xs)

/-- `DdSvLmm::psi` (`fx_hlmm.rs` 186-196). -/
noncomputable def DdSvLmm.psi (l : DdSvLmm) (t : LiborTenor) : Outcome (List ℝ) :=
  collectO (fun j => do
    let tauK ← t.tau (j + 1)
    let lk0 ← unwrap t.libors[j]?
    let s ← unwrap l.sigmas[j]?
    .ok (tauK * s * lk0 / (1 + tauK * lk0))) (List.range t.n)

/-- `FxHlmmCorrelations` (`fx_hlmm.rs` 202-213). -/
structure HlmmCorr where
  xiSigma : ℝ
  xiD : List ℝ
  xiF : List ℝ
  cross : List (List ℝ)

/-- `FxHlmmCorrelations::validate` (`fx_hlmm.rs` 216-259) returns `Ok`. -/
def HlmmCorr.Valid (c : HlmmCorr) (t : LiborTenor) : Prop :=
  |c.xiSigma| ≤ 1 + 1 / 10 ^ 12 ∧ c.xiD.length = t.n ∧ c.xiF.length = t.n ∧ c.cross.length = t.n
    ∧ (∀ row ∈ c.cross, row.length = t.n ∧ ∀ x ∈ row, |x| ≤ 1 + 1 / 10 ^ 12)
    ∧ (∀ x ∈ c.xiD, |x| ≤ 1 + 1 / 10 ^ 12) ∧ ∀ x ∈ c.xiF, |x| ≤ 1 + 1 / 10 ^ 12

/-- `FxHlmmParams` (`fx_hlmm.rs` 264-275). -/
structure HlmmParams where
  fx0 : ℝ
  heston : Cir
  tenor : LiborTenor
  domestic : DdSvLmm
  foreign : DdSvLmm
  correlations : HlmmCorr

/-- `FxHlmmParams::validate` (`fx_hlmm.rs` 279-284) returns `Ok`. -/
def HlmmParams.Valid (p : HlmmParams) : Prop :=
  p.domestic.Valid p.tenor ∧ p.foreign.Valid p.tenor ∧ p.correlations.Valid p.tenor

/-- The vector entry `v[j - 1]`, as in `psi[j - 1]` (`fx_hlmm.rs` 327); `usize` underflow
panics. -/
noncomputable def at1 {α : Type} (v : List α) (j : ℕ) : Outcome α :=
  if j = 0 then .panic else unwrap v[j - 1]?

/-- The matrix entry `corr[i - 1][j - 1]` (`fx_hlmm.rs` 333). -/
noncomputable def entry (m : List (List ℝ)) (i j : ℕ) : Outcome ℝ := do
  let row ← at1 m i
  at1 row j

/-- `compute_a_side` (`fx_hlmm.rs` 318-337). -/
noncomputable def computeASide (l : DdSvLmm) (t : LiborTenor) (start : ℕ) : Outcome ℝ := do
  let psi ← l.psi t
  let n := t.n
  if n < start then .ok 0
  else do
    let diag ← (List.range' start (n + 1 - start)).foldlM (fun (acc : ℝ) (j : ℕ) => do
      let x ← at1 psi j
      Outcome.ok (acc + x * x)) 0
    (List.range' start (n + 1 - start)).foldlM (fun (acc : ℝ) (i : ℕ) =>
      (List.range' (i + 1) (n - i)).foldlM (fun (acc : ℝ) (j : ℕ) => do
        let x ← at1 psi i
        let y ← at1 psi j
        let c ← entry l.liborCorr i j
        Outcome.ok (acc + 2 * x * y * c)) acc) diag

/-- `compute_a_d` (`fx_hlmm.rs` 299-306). -/
noncomputable def computeAD (p : HlmmParams) (start : ℕ) : Outcome ℝ :=
  computeASide p.domestic p.tenor start

/-- `compute_a_f` (`fx_hlmm.rs` 309-316). -/
noncomputable def computeAF (p : HlmmParams) (start : ℕ) : Outcome ℝ :=
  computeASide p.foreign p.tenor start

/-- The CIR process of a currency's variance in `compute_f_linearised` (`fx_hlmm.rs` 349-361). -/
noncomputable def DdSvLmm.cir (l : DdSvLmm) : Cir :=
  { kappa := l.lambda, theta := l.v0, gamma := l.eta, sigma0 := l.v0 }

/-- `compute_f_linearised` (`fx_hlmm.rs` 342-394). -/
noncomputable def computeF (p : HlmmParams) (t : ℝ) (start : ℕ) : Outcome ℝ := do
  let psiD ← p.domestic.psi p.tenor
  let psiF ← p.foreign.psi p.tenor
  let phiXi ← p.heston.sqrtMean t
  let phiD ← p.domestic.cir.sqrtMean t
  let phiF ← p.foreign.cir.sqrtMean t
  let n := p.tenor.n
  if n < start then .ok 0
  else do
    let idx := List.range' start (n + 1 - start)
    let ab ← idx.foldlM (fun (acc : ℝ) (j : ℕ) => do
      let x ← at1 psiD j
      let r ← at1 p.correlations.xiD j
      Outcome.ok (acc + x * r)) 0
    let twoAb := ab * (2 * phiXi * phiD)
    let ac ← idx.foldlM (fun (acc : ℝ) (j : ℕ) => do
      let x ← at1 psiF j
      let r ← at1 p.correlations.xiF j
      Outcome.ok (acc + x * r)) 0
    let twoAc := ac * (2 * phiXi * phiF)
    let bc ← idx.foldlM (fun (acc : ℝ) (j : ℕ) =>
      idx.foldlM (fun (acc : ℝ) (k : ℕ) => do
        let x ← at1 psiD j
        let y ← at1 psiF k
        let c ← entry p.correlations.cross j k
        Outcome.ok (acc + x * y * c)) acc) 0
    let twoBc := bc * (2 * phiD * phiF)
    .ok (twoAb - twoAc - twoBc)

/-! ## The characteristic function -/

/-- `ChfComponents` (`fx_hlmm1_chf.rs` 42-48). -/
structure HlmmComponents where
  a : ℂ
  b : ℂ
  c : ℂ
  dd : ℂ
  df : ℂ

/-- `ChfComponents::assemble` (`fx_hlmm1_chf.rs` 52-54). -/
noncomputable def HlmmComponents.assemble (q : HlmmComponents) (x sigma vd vf : ℝ) : ℂ :=
  Complex.exp (q.a + q.b * x + q.c * sigma + q.dd * vd + q.df * vf)

/-- `Segment` (`fx_hlmm1_chf.rs` 60-71). -/
structure Segment where
  tau : ℝ
  length : ℝ
  startIdx : ℕ
  ad : ℝ
  af : ℝ

/-- `FxHlmm1ForwardChf` (`fx_hlmm1_chf.rs` 74-81). -/
structure HlmmChf where
  params : HlmmParams
  expiry : ℝ
  segments : List Segment
  nSimpson : ℕ

/-- The boundaries collected by the first loop of `with_simpson_steps` (`fx_hlmm1_chf.rs` 99-105)
over the given indices. -/
noncomputable def tauLoop (dates : List ℝ) (expiry : ℝ) : List ℕ → Outcome (List ℝ)
  | [] => .ok []
  | k :: ks => do
    let d ← unwrap dates[k]?
    let rest ← tauLoop dates expiry ks
    let tauB := expiry - d
    .ok (if 0 < tauB ∧ tauB < expiry + 1 / 10 ^ 12 then tauB :: rest else rest)

/-- All boundaries (`fx_hlmm1_chf.rs` 93-114); with no period the range `0..=n-1` underflows. -/
noncomputable def tauBoundaries (t : LiborTenor) (expiry : ℝ) : Outcome (List ℝ) :=
  if t.n = 0 then .panic
  else do
    let l ← tauLoop t.dates expiry (List.range t.n).reverse
    match l.getLast? with
    | none => .ok (l ++ [expiry])
    | some x => .ok (if 1 / 10 ^ 12 < |x - expiry| then l ++ [expiry] else l)

/-- The second loop of `with_simpson_steps` (`fx_hlmm1_chf.rs` 116-138). -/
noncomputable def segmentLoop (p : HlmmParams) (expiry : ℝ) : ℝ → List ℝ → Outcome (List Segment)
  | _, [] => .ok []
  | prev, tauJ :: rest =>
    if tauJ - prev ≤ 0 then segmentLoop p expiry tauJ rest
    else do
      let tMid := expiry - 0.5 * (prev + tauJ)
      let start := p.tenor.m tMid + 1
      let ad ← computeAD p start
      let af ← computeAF p start
      let segs ← segmentLoop p expiry tauJ rest
      .ok (⟨tauJ, tauJ - prev, start, ad, af⟩ :: segs)

/-- `FxHlmm1ForwardChf::with_simpson_steps` (`fx_hlmm1_chf.rs` 88-146). -/
noncomputable def HlmmChf.withSimpsonSteps (p : HlmmParams) (expiry : ℝ) (n : ℕ) : Outcome HlmmChf :=
  if (2 ≤ n ∧ n % 2 = 0) ∧ 0 < expiry ∧ p.Valid then do
    let taus ← tauBoundaries p.tenor expiry
    let segs ← segmentLoop p expiry 0 taus
    .ok ⟨p, expiry, segs, n⟩
  else .panic

/-- `FxHlmm1ForwardChf::new` (`fx_hlmm1_chf.rs` 84-86). -/
noncomputable def HlmmChf.new (p : HlmmParams) (expiry : ℝ) : Outcome HlmmChf :=
  HlmmChf.withSimpsonSteps p expiry 32

/-- `heston_c` (`fx_hlmm1_chf.rs` 246-259). -/
noncomputable def hestonCFn (u : ℂ) (kappa gamma rho tau : ℝ) : ℂ :=
  if tau ≤ 0 then 0
  else
    let iu := Complex.I * u
    let b2MinusB := iu * iu - iu
    let x : ℂ := kappa - gamma * rho * iu
    let d := (x * x - gamma * gamma * iu * (iu - 1)) ^ (1 / 2 : ℂ)
    let e := Complex.exp (-d * tau)
    b2MinusB * (1 - e) / (x + d - (x - d) * e)

/-- `heston_a_closed_form` (`fx_hlmm1_chf.rs` 277-300). -/
noncomputable def hestonAClosed (u : ℂ) (kappa theta gamma rho tau : ℝ) : ℂ :=
  if tau ≤ 0 then 0
  else
    let iu := Complex.I * u
    let x : ℂ := kappa - gamma * rho * iu
    let d := (x * x - gamma * gamma * iu * (iu - 1)) ^ (1 / 2 : ℂ)
    let g := (x - d) / (x + d)
    let e := Complex.exp (-d * tau)
    ((kappa * theta : ℝ) : ℂ) / (gamma * gamma)
      * ((x - d) * tau - 2 * Complex.log ((1 - g * e) / (1 - g)))

/-- `heston_a_increment` (`fx_hlmm1_chf.rs` 263-275). -/
noncomputable def hestonAIncrement (u : ℂ) (kappa theta gamma rho tau1 tau2 : ℝ) : ℂ :=
  hestonAClosed u kappa theta gamma rho tau2 - hestonAClosed u kappa theta gamma rho tau1

/-- `advance_d_riccati` (`fx_hlmm1_chf.rs` 306-340). -/
noncomputable def advanceD (u : ℂ) (lambda eta aj v0 : ℝ) (dPrev : ℂ) (s : ℝ) : ℂ × ℂ :=
  if s ≤ 0 then (dPrev, 0)
  else
    let iu := Complex.I * u
    let u2PlusIu := u * u + iu
    let etaSq := eta * eta
    let delta := (((lambda * lambda : ℝ) : ℂ) + ((etaSq * aj : ℝ) : ℂ) * u2PlusIu) ^ (1 / 2 : ℂ)
    let denom : ℂ := lambda + delta - (etaSq : ℂ) * dPrev
    let num : ℂ := lambda - delta - (etaSq : ℂ) * dPrev
    let ell := num / denom
    let e := Complex.exp (-delta * s)
    let chi := num * (1 - e) / ((etaSq : ℂ) * (1 - ell * e))
    let coef : ℂ := ((v0 * lambda / etaSq : ℝ) : ℂ)
    (dPrev + chi, coef * ((lambda - delta) * s - 2 * Complex.log ((1 - ell * e) / (1 - ell))))

/-- `simpson_f_integral` (`fx_hlmm1_chf.rs` 343-367). -/
noncomputable def simpsonF (p : HlmmParams) (expiry tau1 tau2 : ℝ) (start n : ℕ) : Outcome ℝ := do
  let h := (tau2 - tau1) / n
  let acc ← (List.range (n + 1)).foldlM (fun (acc : ℝ) (k : ℕ) => do
    let s := tau1 + k * h
    let v ← computeF p (expiry - s) start
    Outcome.ok (acc + simpsonWeight n k * v)) 0
  .ok (acc * h / 3)

/-- The state of the loop of `components`: `d_d`, `d_f`, `a`, `tau_prev`. -/
structure ChfState where
  dd : ℂ
  df : ℂ
  a : ℂ
  tauPrev : ℝ

/-- One pass of the loop of `components` (`fx_hlmm1_chf.rs` 171-221). -/
noncomputable def HlmmChf.pass (q : HlmmChf) (u : ℂ) (st : ChfState) (seg : Segment) :
    Outcome ChfState := do
  let p := q.params
  let rd := advanceD u p.domestic.lambda p.domestic.eta seg.ad p.domestic.v0 st.dd seg.length
  let rf := advanceD u p.foreign.lambda p.foreign.eta seg.af p.foreign.v0 st.df seg.length
  let dac := hestonAIncrement u p.heston.kappa p.heston.theta p.heston.gamma p.correlations.xiSigma
    st.tauPrev seg.tau
  let fInt ← simpsonF p q.expiry st.tauPrev seg.tau seg.startIdx q.nSimpson
  let u2PlusIu := u * u + Complex.I * u
  let daf := -(1 / 2 : ℂ) * u2PlusIu * (fInt : ℂ)
  .ok ⟨rd.1, rf.1, st.a + (dac + rd.2 + rf.2 + daf), seg.tau⟩

/-- `FxHlmm1ForwardChf::components` (`fx_hlmm1_chf.rs` 153-224). -/
noncomputable def HlmmChf.components (q : HlmmChf) (u : ℂ) : Outcome HlmmComponents := do
  let b := Complex.I * u
  let c := hestonCFn u q.params.heston.kappa q.params.heston.gamma q.params.correlations.xiSigma
    q.expiry
  let st ← q.segments.foldlM (q.pass u) ⟨0, 0, 0, 0⟩
  .ok ⟨st.a, b, c, st.dd, st.df⟩

/-- The product in `discount_factors_from_libors` (`fx_hlmm1_chf.rs` 383-386). -/
noncomputable def liborProduct (t : LiborTenor) : Outcome ℝ :=
  (List.range' 1 t.n).foldlM (fun (acc : ℝ) (k : ℕ) => do
    let tau ← t.tau k
    let l ← at1 t.libors k
    Outcome.ok (acc / (1 + tau * l))) 1

/-- `discount_factors_from_libors` (`fx_hlmm1_chf.rs` 380-392). -/
noncomputable def liborDiscounts (p : HlmmParams) (expiry : ℝ) : Outcome (ℝ × ℝ) := do
  let tn ← unwrap p.tenor.dates[p.tenor.n]?
  let q ← liborProduct p.tenor
  if tn + 1 / 10 ^ 12 < expiry then do
    let r ← at1 p.tenor.libors p.tenor.n
    let q' := q * Real.exp (-r * (expiry - tn))
    .ok (q', q')
  else .ok (q, q)

/-- `FxHlmm1ForwardChf::evaluate` (`fx_hlmm1_chf.rs` 233-241). -/
noncomputable def HlmmChf.evaluate (q : HlmmChf) (u : ℂ) : Outcome ℂ := do
  let p := q.params
  let comps ← q.components u
  let dfs ← liborDiscounts p q.expiry
  let x0 := Real.log (p.fx0 * dfs.2 / dfs.1)
  .ok (comps.assemble x0 p.heston.sigma0 p.domestic.v0 p.foreign.v0)

end Verif
