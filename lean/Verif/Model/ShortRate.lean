import Verif.Model.Outcome
import Mathlib.Analysis.SpecialFunctions.Gamma.Basic
import Mathlib.Analysis.SpecialFunctions.Log.Basic
import Mathlib.Analysis.SpecialFunctions.Pow.Real

/-!
# CIR and Hull-White processes

Model of `/repo/src/models/common/cir.rs` and `/repo/src/models/interestrate/hull_white.rs`
over the real numbers; `statrs::function::gamma::ln_gamma` is `log (Gamma x)`.  Random draws
are arguments.
-/

namespace Verif

open Classical

/-- `CirProcess` (`cir.rs` 41-50). -/
structure Cir where
  kappa : ℝ
  theta : ℝ
  gamma : ℝ
  sigma0 : ℝ

/-- `CirProcess::mean` (`cir.rs` 54-60). -/
noncomputable def Cir.mean (p : Cir) (t : ℝ) : ℝ :=
  if t ≤ 0 then p.sigma0
  else
    let decay := Real.exp (-p.kappa * t)
    p.sigma0 * decay + p.theta * (1 - decay)

/-- `CirProcess::variance` (`cir.rs` 64-73). -/
noncomputable def Cir.variance (p : Cir) (t : ℝ) : ℝ :=
  if t ≤ 0 then 0
  else
    let decay := Real.exp (-p.kappa * t)
    let g2k := p.gamma * p.gamma / p.kappa
    let oneMinus := 1 - decay
    p.sigma0 * g2k * decay * oneMinus + p.theta * (g2k * (1 / 2)) * oneMinus * oneMinus

/-- The loop of `sqrt_mean_tol` (`cir.rs` 130-140) with `fuel` passes left; the counter bound
`k_next > 2000` ends it. -/
noncomputable def sqrtMeanLoop (tol halfEps a b : ℝ) : Nat → Nat → ℝ → ℝ → ℝ
  | 0, _, _, sum => sum
  | fuel + 1, k, term, sum =>
    let ratio := halfEps * (b + k) / ((k + 1 : ℕ) * (a + k))
    let term' := term * ratio
    let sum' := sum + term'
    if |term'| ≤ tol * |sum'| ∨ 2000 < k + 1 then sum'
    else sqrtMeanLoop tol halfEps a b fuel (k + 1) term' sum'

/-- `CirProcess::sqrt_mean_tol` (`cir.rs` 86-142).  The loop runs at most 2001 times. -/
noncomputable def Cir.sqrtMeanTol (p : Cir) (t tol : ℝ) : Outcome ℝ :=
  if t ≤ 0 then .ok (√(max p.sigma0 0))
  else if p.kappa ≤ 0 then .panic
  else if |p.gamma| < 1 / 10 ^ 14 then .ok (√(max (p.mean t) 0))
  else
    let oneMinus := 1 - Real.exp (-p.kappa * t)
    let c := p.gamma * p.gamma * oneMinus / (4 * p.kappa)
    let ell := 4 * p.kappa * p.theta / (p.gamma * p.gamma)
    let eps := 4 * p.kappa * p.sigma0 * Real.exp (-p.kappa * t) / (p.gamma * p.gamma * oneMinus)
    if 500 < eps then
      let m := max (p.mean t) (1 / 10 ^ 300)
      let v := p.variance t
      .ok (√(max (m * (1 - v / (8 * m * m))) 0))
    else
      let halfEps := 1 / 2 * eps
      let a := 1 / 2 * ell
      let b := 1 / 2 * (ell + 1)
      let term := Real.exp (Real.log (Real.Gamma b) - Real.log (Real.Gamma a))
      .ok (√(2 * c) * Real.exp (-(1 / 2) * eps) * sqrtMeanLoop tol halfEps a b 2001 0 term term)

/-- `CirProcess::sqrt_mean` (`cir.rs` 81-83). -/
noncomputable def Cir.sqrtMean (p : Cir) (t : ℝ) : Outcome ℝ := p.sqrtMeanTol t (1 / 10 ^ 14)

/-- `CirProcess::sqrt_mean_infinity` (`cir.rs` 146-152). -/
noncomputable def Cir.sqrtMeanInfinity (p : Cir) : Outcome ℝ :=
  if p.kappa ≤ 0 then .panic
  else if p.gamma ≤ 0 then .panic
  else
    let ell := 4 * p.kappa * p.theta / (p.gamma * p.gamma)
    let ratio := Real.exp (Real.log (Real.Gamma (1 / 2 * (ell + 1))) - Real.log (Real.Gamma (1 / 2 * ell)))
    .ok (p.gamma / √(2 * p.kappa) * ratio)

/-- `SqrtMeanProxy` (`cir.rs` 181-187). -/
structure SqrtMeanProxy where
  beta1 : ℝ
  beta2 : ℝ
  beta3 : ℝ

/-- `CirProcess::sqrt_mean_proxy` (`cir.rs` 164-172). -/
noncomputable def Cir.sqrtMeanProxy (p : Cir) : Outcome SqrtMeanProxy := do
  let beta1 ← p.sqrtMeanInfinity
  .ok ⟨beta1, √(max p.sigma0 0) - beta1, p.kappa⟩

/-- `SqrtMeanProxy::eval` (`cir.rs` 190-192). -/
noncomputable def SqrtMeanProxy.eval (q : SqrtMeanProxy) (t : ℝ) : ℝ :=
  q.beta1 + q.beta2 * Real.exp (-q.beta3 * t)

/-- `CirProcess::feller_satisfied` (`cir.rs` 176-178). -/
def Cir.feller (p : Cir) : Prop := p.gamma * p.gamma ≤ 2 * p.kappa * p.theta

/-- `CirSimulator::step` (`cir.rs` 233-240) with draw `z`. -/
noncomputable def Cir.step (p : Cir) (state dt z : ℝ) : ℝ :=
  let sigma := max state 0
  max (sigma + p.kappa * (p.theta - sigma) * dt + p.gamma * √sigma * √dt * z) 0

/-- `HullWhite1F` (`hull_white.rs` 29-34). -/
structure HullWhite where
  lambda : ℝ
  sigma : ℝ

/-- `HullWhite1F::b` (`hull_white.rs` 39-45). -/
noncomputable def HullWhite.b (h : HullWhite) (t T : ℝ) : ℝ :=
  if |h.lambda| < 1 / 10 ^ 12 then -(T - t)
  else (Real.exp (-h.lambda * (T - t)) - 1) / h.lambda

/-- `short_rate_variance` (`hull_white.rs` 50-60). -/
noncomputable def HullWhite.shortRateVariance (h : HullWhite) (t1 t2 : ℝ) : ℝ :=
  if t2 - t1 ≤ 0 then 0
  else if |h.lambda| < 1 / 10 ^ 12 then h.sigma * h.sigma * (t2 - t1)
  else
    let a := 2 * h.lambda
    h.sigma * h.sigma / a * (1 - Real.exp (-a * (t2 - t1)))

/-- The antiderivative `tau_fn` inside `bond_log_variance` (`hull_white.rs` 75-87). -/
noncomputable def HullWhite.tauFn (h : HullWhite) (T s : ℝ) : ℝ :=
  if |h.lambda| < 1 / 10 ^ 12 then -((T - s) ^ 3) / 3
  else
    let e1 := Real.exp (-h.lambda * (T - s))
    let e2 := Real.exp (-2 * h.lambda * (T - s))
    1 / (h.lambda * h.lambda) * (-(1 / 2) / h.lambda * e2 + 2 / h.lambda * e1 + s)

/-- `bond_log_variance` (`hull_white.rs` 68-89); the assertion panics. -/
noncomputable def HullWhite.bondLogVariance (h : HullWhite) (s1 s2 T : ℝ) : Outcome ℝ :=
  if s2 < s1 then .panic
  else if s2 = s1 then .ok 0
  else .ok (h.sigma * h.sigma * (h.tauFn T s2 - h.tauFn T s1))

/-- `discount_affine` (`hull_white.rs` 112-130). -/
noncomputable def HullWhite.discountAffine (h : HullWhite) (t T r p0t p0T f0t : ℝ) : ℝ :=
  let b := h.b t T
  let convexity :=
    if |h.lambda| < 1 / 10 ^ 12 then h.sigma * h.sigma * t * b * b * (1 / 2)
    else h.sigma * h.sigma / (4 * h.lambda) * (1 - Real.exp (-2 * h.lambda * t)) * b * b
  p0T / p0t * Real.exp (-b * f0t - convexity + b * r)

/-- `HullWhiteSimulator::step` (`hull_white.rs` 198-202) with draw `z`. -/
noncomputable def HullWhite.step (h : HullWhite) (theta : ℝ → ℝ) (state t dt z : ℝ) : ℝ :=
  state + h.lambda * (theta t - state) * dt + h.sigma * √dt * z

end Verif
