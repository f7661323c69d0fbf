import Verif.Lemmas.HhwChf
import Mathlib.Probability.Distributions.Gaussian.Real
import Mathlib.MeasureTheory.Measure.CharacteristicFunction.Basic

/-!
# C62: the FX-HHW1 characteristic function
-/

namespace Verif

open Outcome Classical MeasureTheory ProbabilityTheory

/-- Parameters used in the examples (those of the unit tests). -/
noncomputable def paperHhw : HhwParams :=
  ⟨27 / 20, ⟨1 / 2, 1 / 10, 3 / 10, 1 / 10⟩, ⟨1 / 100, 7 / 1000⟩, ⟨1 / 20, 12 / 1000⟩, 1 / 50, 1 / 20,
    1 / 50, 1 / 20, ⟨-2 / 5, -3 / 20, -3 / 20, 3 / 10, 3 / 10, 1 / 4⟩⟩

theorem even_two_mul {n : ℕ} (hn : 2 ≤ n) (he : n % 2 = 0) : ∃ m, 0 < m ∧ n = 2 * m :=
  ⟨n / 2, by omega, by omega⟩

theorem evaluate_eq (p : HhwParams) (hk : 0 < p.heston.kappa) {T : ℝ} (hT : 0 ≤ T) {m : ℕ}
    (hm : 0 < m) : ∃ q, HhwChf.withSimpsonSteps p T (2 * m) = .ok q ∧ ∀ u : ℂ,
      q.components u T = .ok ⟨simpsonPanels m T fun s => integrandVal p u s T, Complex.I * u,
        p.cOfTau u T⟩ ∧
      q.evaluate u = .ok (Complex.exp ((simpsonPanels m T fun s => integrandVal p u s T)
        + Complex.I * u * (p.logForward T : ℝ) + p.cOfTau u T * (p.heston.sigma0 : ℝ))) := by
  refine ⟨_, withSimpsonSteps_eq p hk T hm, fun u => ?_⟩
  have h := components_expiry p u hT hm (2 * m)
  refine ⟨h, ?_⟩
  rw [HhwChf.evaluate]
  dsimp only
  rw [h]
  rfl

/-! ## Domain -/

/-- **C62.** The evaluator is only built with an even number of at least two intervals. -/
theorem C62_panics (p : HhwParams) (T : ℝ) {n : ℕ} (h : n < 2 ∨ n % 2 = 1) :
    HhwChf.withSimpsonSteps p T n = .panic := by
  rw [HhwChf.withSimpsonSteps, if_neg (by omega)]

example : HhwChf.withSimpsonSteps paperHhw 1 7 = .panic := C62_panics _ _ (.inr (by norm_num))

/-- **C62.** The elapsed time has to lie between zero and the expiry. -/
theorem C62_tau_range (q : HhwChf) (u : ℂ) {tau : ℝ} (h : tau < 0 ∨ q.expiry + 1 / 10 ^ 12 < tau) :
    q.components u tau = .panic := by
  rw [HhwChf.components, if_neg]
  rintro ⟨h1, h2⟩
  rcases h with h | h <;> linarith

example (q : HhwChf) (u : ℂ) : q.components u (-1) = .panic := C62_tau_range q u (.inl (by norm_num))

/-- The divisor of `c_of_tau`. -/
noncomputable def chfDivisor (p : HhwParams) (u : ℂ) (tau : ℝ) : ℂ :=
  let x : ℂ := p.heston.kappa - p.heston.gamma * p.correlations.xiSigma * (Complex.I * u)
  let d := (x * x - p.heston.gamma * p.heston.gamma * (Complex.I * u) * (Complex.I * u - 1)) ^ (1 / 2 : ℂ)
  x + d - (x - d) * Complex.exp (-d * tau)

/-- **C62.** For real frequencies the divisor of `C` is never zero. -/
theorem C62_divisor (p : HhwParams) (hk : 0 < p.heston.kappa) (hr : |p.correlations.xiSigma| ≤ 1)
    (u : ℝ) {tau : ℝ} (ht : 0 ≤ tau) : chfDivisor p u tau ≠ 0 := by
  obtain ⟨h1, h2, h3⟩ := chf_regular p hk hr u
  exact hestonDen_ne_zero h1 h2 ((sq_nonneg _).trans h3) ht

example : chfDivisor paperHhw ((3 : ℝ) : ℂ) 5 ≠ 0 :=
  C62_divisor _ (by norm_num [paperHhw]) (by rw [abs_le]; norm_num [paperHhw]) _ (by norm_num)

/-- **C62.** At the martingale frequency the divisor vanishes only for `κ = γ ρ`. -/
theorem C62_divisor_martingale (p : HhwParams)
    (h : p.heston.kappa ≠ p.heston.gamma * p.correlations.xiSigma) (tau : ℝ) :
    chfDivisor p (-Complex.I) tau ≠ 0 := by
  have hI : Complex.I * -Complex.I = 1 := by rw [mul_neg, Complex.I_mul_I, neg_neg]
  have hx : (p.heston.kappa : ℂ) - p.heston.gamma * p.correlations.xiSigma * (Complex.I * -Complex.I)
      = ((p.heston.kappa - p.heston.gamma * p.correlations.xiSigma : ℝ) : ℂ) := by
    rw [hI]; push_cast; ring
  have hx0 : p.heston.kappa - p.heston.gamma * p.correlations.xiSigma ≠ 0 := sub_ne_zero.2 h
  unfold chfDivisor
  dsimp only
  rw [hx]
  set x := p.heston.kappa - p.heston.gamma * p.correlations.xiSigma
  rw [hI, sub_self, mul_zero, sub_zero]
  set d : ℂ := ((x : ℂ) * x) ^ (1 / 2 : ℂ) with hd
  have hdd : d * d = (x : ℂ) * x := by
    have := Complex.cpow_nat_inv_pow ((x : ℂ) * x) (n := 2) two_ne_zero
    rw [pow_two] at this
    rw [hd, show (1 / 2 : ℂ) = ((2 : ℕ) : ℂ)⁻¹ by norm_num]
    exact this
  have hxc : (x : ℂ) ≠ 0 := by exact_mod_cast hx0
  have : (d - x) * (d + x) = 0 := by linear_combination hdd
  rcases mul_eq_zero.1 this with h1 | h1
  · have : d = x := sub_eq_zero.1 h1
    rw [this, sub_self, zero_mul, sub_zero]
    intro h0
    apply hxc
    linear_combination h0 / 2
  · have : d = -x := eq_neg_of_add_eq_zero_left h1
    rw [this]
    intro h0
    have h2 : (x : ℂ) * Complex.exp (- -(x : ℂ) * tau) = 0 := by linear_combination -h0 / 2
    exact mul_ne_zero hxc (Complex.exp_ne_zero _) h2

example : chfDivisor paperHhw (-Complex.I) 2 ≠ 0 :=
  C62_divisor_martingale _ (by norm_num [paperHhw]) _

/-! ## Normalisation and the martingale property -/

theorem cOfTau_of_Q (p : HhwParams) {u : ℂ} (h : chfQ u = 0) (t : ℝ) : p.cOfTau u t = 0 := by
  by_cases ht : t ≤ 0
  · rw [HhwParams.cOfTau, if_pos ht]
  · rw [cOfTau_eq p u (not_le.1 ht).le, h, hestonC, zero_mul, zero_div]

theorem integrandVal_of_Q (p : HhwParams) {u : ℂ} (h : chfQ u = 0) (s T : ℝ) :
    integrandVal p u s T = 0 := by
  have h2 : (Complex.I * u) ^ 2 - Complex.I * u = 0 := by rw [pow_two]; exact h
  rw [integrandVal, cOfTau_of_Q p h, driftRate, h2]
  simp

/-- **C62.** The characteristic function is one at frequency zero. -/
theorem C62_zero (p : HhwParams) (hk : 0 < p.heston.kappa) {T : ℝ} (hT : 0 ≤ T) {n : ℕ} (hn : 2 ≤ n)
    (he : n % 2 = 0) : ∃ q, HhwChf.withSimpsonSteps p T n = .ok q ∧ q.evaluate 0 = .ok 1 := by
  obtain ⟨m, hm, rfl⟩ := even_two_mul hn he
  obtain ⟨q, hq, h⟩ := evaluate_eq p hk hT hm
  refine ⟨q, hq, ?_⟩
  have hQ : chfQ 0 = 0 := by simp [chfQ]
  rw [(h 0).2]
  simp [integrandVal_of_Q p hQ, cOfTau_of_Q p hQ, simpsonPanels]

example : ∃ q, HhwChf.new paperHhw 5 = .ok q ∧ q.evaluate 0 = .ok 1 :=
  C62_zero paperHhw (by norm_num [paperHhw]) (by norm_num) (by norm_num) (by norm_num)

/-- **C62.** The forward is a martingale: at frequency `-i` the value is the initial forward
`ξ(0) P_f(0,T) / P_d(0,T)`, whatever the quadrature. -/
theorem C62_martingale (p : HhwParams) (hk : 0 < p.heston.kappa) (hfx : 0 < p.fx0) {T : ℝ}
    (hT : 0 ≤ T) {n : ℕ} (hn : 2 ≤ n) (he : n % 2 = 0) :
    ∃ q, HhwChf.withSimpsonSteps p T n = .ok q
      ∧ q.evaluate (-Complex.I) = .ok ((p.fx0 * Real.exp ((p.rd0 - p.rf0) * T) : ℝ) : ℂ) := by
  obtain ⟨m, hm, rfl⟩ := even_two_mul hn he
  obtain ⟨q, hq, h⟩ := evaluate_eq p hk hT hm
  refine ⟨q, hq, ?_⟩
  have hI : Complex.I * -Complex.I = 1 := by rw [mul_neg, Complex.I_mul_I, neg_neg]
  have hQ : chfQ (-Complex.I) = 0 := by rw [chfQ, hI]; ring
  have h0 : simpsonPanels m T (fun s => integrandVal p (-Complex.I) s T) = 0 := by
    simp [integrandVal_of_Q p hQ, simpsonPanels]
  rw [(h _).2, h0, cOfTau_of_Q p hQ, hI, zero_add, one_mul, zero_mul, add_zero, ← Complex.ofReal_exp,
    HhwParams.logForward, Real.exp_log (by positivity), mul_div_assoc, ← Real.exp_sub]
  congr 5
  ring

example : ∃ q, HhwChf.new paperHhw 5 = .ok q
    ∧ q.evaluate (-Complex.I) = .ok ((27 / 20 * Real.exp ((1 / 50 - 1 / 20) * 5) : ℝ) : ℂ) :=
  C62_martingale paperHhw (by norm_num [paperHhw]) (by norm_num [paperHhw]) (by norm_num)
    (by norm_num) (by norm_num)

/-- **C62.** Opposite real frequencies give conjugate values. -/
theorem C62_conjugate (p : HhwParams) (hk : 0 < p.heston.kappa) (hr : |p.correlations.xiSigma| ≤ 1)
    {T : ℝ} (hT : 0 ≤ T) {n : ℕ} (hn : 2 ≤ n) (he : n % 2 = 0) :
    ∃ q, HhwChf.withSimpsonSteps p T n = .ok q ∧ ∀ u : ℝ, ∃ z, q.evaluate (u : ℂ) = .ok z
      ∧ q.evaluate ((-u : ℝ) : ℂ) = .ok ((starRingEnd ℂ) z) := by
  obtain ⟨m, hm, rfl⟩ := even_two_mul hn he
  obtain ⟨q, hq, h⟩ := evaluate_eq p hk hT hm
  refine ⟨q, hq, fun u => ⟨_, (h u).2, ?_⟩⟩
  have hI : Complex.I * ((-u : ℝ) : ℂ) = (starRingEnd ℂ) (Complex.I * (u : ℂ)) := by
    rw [map_mul, Complex.conj_I, Complex.conj_ofReal]; push_cast; ring
  rw [(h _).2]
  simp_rw [integrandVal_conj p hk hr]
  rw [simpsonPanels_conj, cOfTau_conj p hk hr, hI, ← Complex.exp_conj]
  simp only [map_add, map_mul, Complex.conj_ofReal]

example : ∃ q, HhwChf.new paperHhw 5 = .ok q ∧ ∀ u : ℝ, ∃ z, q.evaluate (u : ℂ) = .ok z
    ∧ q.evaluate ((-u : ℝ) : ℂ) = .ok ((starRingEnd ℂ) z) :=
  C62_conjugate paperHhw (by norm_num [paperHhw]) (by rw [abs_le]; norm_num [paperHhw]) (by norm_num)
    (by norm_num) (by norm_num)

/-! ## The cache -/

/-- **C62.** The cached path gives exactly the value of the direct path. -/
theorem C62_cached (p : HhwParams) (hk : 0 < p.heston.kappa) {T : ℝ} (hT : 0 < T) {n : ℕ}
    (hn : 2 ≤ n) (he : n % 2 = 0) : ∃ g, p.buildGrid T n = .ok g
      ∧ ∀ u : ℂ, p.aCached u g = p.aOfTau u T T n := by
  obtain ⟨m, hm, rfl⟩ := even_two_mul hn he
  refine ⟨_, buildGrid_eq p hk T _, fun u => ?_⟩
  rw [aCached_eq p u T hm, aOfTau_eq p hk u hT T hm]

example : ∃ g, paperHhw.buildGrid 5 128 = .ok g ∧ ∀ u : ℂ, paperHhw.aCached u g
    = paperHhw.aOfTau u 5 5 128 :=
  C62_cached paperHhw (by norm_num [paperHhw]) (by norm_num) (by norm_num) (by norm_num)

/-! ## The equation for `C` -/

/-- **C62.** `C` starts at zero and solves the Riccati equation. -/
theorem C62_riccati (p : HhwParams) (hk : 0 < p.heston.kappa) (hr : |p.correlations.xiSigma| ≤ 1)
    (u : ℝ) : p.cOfTau u 0 = 0 ∧ ContinuousOn (p.cOfTau u) (Set.Ici 0)
      ∧ ∀ t : ℝ, 0 < t → HasDerivAt (p.cOfTau u) (riccatiRate p u (p.cOfTau u t)) t := by
  obtain ⟨h1, h2, h3⟩ := chf_regular p hk hr u
  have hdd : chfD p u * chfD p u
      = chfX p u * chfX p u - ((p.heston.gamma ^ 2 : ℝ) : ℂ) * chfQ u := by
    rw [chfD_sq, chfDisc_eq]
  have hD : ∀ t : ℝ, 0 ≤ t → HasDerivAt (hestonC (chfQ u) (chfX p u) (chfD p u))
      (riccatiRate p u (p.cOfTau u t)) t := by
    intro t ht
    have := hasDerivAt_hestonC hdd (hestonDen_ne_zero h1 h2 ((sq_nonneg _).trans h3) ht)
    rw [riccatiRate_eq, cOfTau_eq p u ht]
    exact this
  have hEq : Set.EqOn (p.cOfTau u) (hestonC (chfQ u) (chfX p u) (chfD p u)) (Set.Ici 0) :=
    fun t ht => cOfTau_eq p u ht
  refine ⟨?_, ?_, ?_⟩
  · rw [HhwParams.cOfTau, if_pos (le_refl _)]
  · refine ContinuousOn.congr (fun t ht => (hD t ht).continuousAt.continuousWithinAt) hEq
  · intro t ht
    refine (hD t ht.le).congr_of_eventuallyEq ?_
    filter_upwards [lt_mem_nhds ht] with s hs
    exact cOfTau_eq p u (le_of_lt hs)

example : paperHhw.cOfTau ((2 : ℝ) : ℂ) 0 = 0 ∧ ContinuousOn (paperHhw.cOfTau ((2 : ℝ) : ℂ)) (Set.Ici 0)
    ∧ ∀ t : ℝ, 0 < t → HasDerivAt (paperHhw.cOfTau ((2 : ℝ) : ℂ))
      (riccatiRate paperHhw ((2 : ℝ) : ℂ) (paperHhw.cOfTau ((2 : ℝ) : ℂ) t)) t :=
  C62_riccati paperHhw (by norm_num [paperHhw]) (by rw [abs_le]; norm_num [paperHhw]) 2

/-- **C62.** For real frequencies a larger initial variance never increases the modulus: the real
part of `C` is not positive. -/
theorem C62_damping (p : HhwParams) (hk : 0 < p.heston.kappa) (hr : |p.correlations.xiSigma| ≤ 1)
    (u t : ℝ) : (p.cOfTau u t).re ≤ 0 := by
  by_cases ht : t ≤ 0
  · rw [HhwParams.cOfTau, if_pos ht]; simp
  have ht : 0 ≤ t := (not_le.1 ht).le
  rw [cOfTau_eq p u ht]
  obtain ⟨h1, h2, h3⟩ := chf_regular p hk hr u
  by_cases hg : p.heston.gamma = 0
  · -- no volatility of variance
    have hx : chfX p u = (p.heston.kappa : ℂ) := by simp [chfX, hg]
    have hdisc : chfDisc p u = ((p.heston.kappa ^ 2 : ℝ) : ℂ) := by
      simp [chfDisc, hx, hg]; ring
    have hd : chfD p u = (p.heston.kappa : ℂ) := by
      rw [chfD, hdisc, show (1 / 2 : ℂ) = ((1 / 2 : ℝ) : ℂ) by norm_num,
        ← Complex.ofReal_cpow (by positivity), ← Real.sqrt_eq_rpow, Real.sqrt_sq hk.le]
    have hq : chfQ u = ((-(u ^ 2) : ℝ) : ℂ) + ((-u : ℝ) : ℂ) * Complex.I := by
      rw [chfQ]; push_cast; linear_combination (u : ℂ) ^ 2 * Complex.I_sq
    have hC : hestonC (chfQ u) (chfX p u) (chfD p u) t
        = chfQ u * (((1 - Real.exp (-p.heston.kappa * t)) / (2 * p.heston.kappa) : ℝ) : ℂ) := by
      rw [hestonC, hestonDen, hx, hd, sub_self, zero_mul, sub_zero]
      push_cast
      rw [mul_div_assoc, two_mul]
    rw [hC, Complex.re_mul_ofReal, hq]
    simp only [Complex.add_re, Complex.ofReal_re, Complex.mul_re, Complex.I_re, Complex.I_im,
      Complex.ofReal_im]
    have : Real.exp (-p.heston.kappa * t) ≤ 1 := Real.exp_le_one_iff.2 (by nlinarith)
    have h5 : 0 ≤ (1 - Real.exp (-p.heston.kappa * t)) / (2 * p.heston.kappa) :=
      div_nonneg (by linarith) (by linarith)
    nlinarith [mul_nonneg (sq_nonneg u) h5]
  · have hdd : chfD p u * chfD p u
        = chfX p u * chfX p u - ((p.heston.gamma ^ 2 : ℝ) : ℂ) * chfQ u := by
      rw [chfD_sq, chfDisc_eq]
    exact hestonC_re_nonpos (by positivity) hdd h1 h2 h3 ht

example : (paperHhw.cOfTau ((2 : ℝ) : ℂ) 3).re ≤ 0 :=
  C62_damping paperHhw (by norm_num [paperHhw]) (by rw [abs_le]; norm_num [paperHhw]) 2 3

/-! ## The equation for `A` -/

/-- **C62.** The exponential-affine form solves the pricing equation of the linearised model at
calendar time `T - τ` exactly when `C` solves the Riccati equation and `A` has the rate `driftRate`
with the coefficients `φ`, `B_d`, `B_f` taken at that calendar time. -/
theorem C62_affine (p : HhwParams) (phi : ℝ → ℝ) (T tau : ℝ) (u : ℂ) (A C : ℝ → ℂ) {A' C' : ℂ}
    (hA : HasDerivAt A A' tau) (hC : HasDerivAt C C' tau) :
    (∀ x v : ℝ, HasDerivAt (fun t => Complex.exp (A t + Complex.I * u * x + C t * v))
      (fwdGenerator p (phi (T - tau)) (p.domestic.b (T - tau) T) (p.foreign.b (T - tau) T)
        (fun x v => Complex.exp (A tau + Complex.I * u * x + C tau * v)) x v) tau)
    ↔ C' = riccatiRate p u (C tau) ∧ A' = driftRate p (phi (T - tau)) (p.domestic.b (T - tau) T)
        (p.foreign.b (T - tau) T) u (C tau) :=
  affine_pde_iff p _ _ _ u A C hA hC

example : ∀ x v : ℝ, HasDerivAt (fun t : ℝ => Complex.exp (0 + Complex.I * (0 : ℂ) * x + 0 * v))
      (fwdGenerator paperHhw 0 (paperHhw.domestic.b (1 - 1) 1) (paperHhw.foreign.b (1 - 1) 1)
        (fun x v => Complex.exp (0 + Complex.I * (0 : ℂ) * x + 0 * v)) x v) (1 : ℝ) :=
  (C62_affine paperHhw (fun _ => 0) 1 1 0 (fun _ => 0) (fun _ => 0) (hasDerivAt_const _ _)
    (hasDerivAt_const _ _)).2 ⟨by simp [riccatiRate], by simp [driftRate]⟩

/-- The rate the quadrature for `A(u, T)` has to integrate, as a function of the time to maturity. -/
noncomputable def requiredRate (p : HhwParams) (u : ℂ) (s T : ℝ) : ℂ :=
  driftRate p (phiOf p.heston (T - s)) (p.domestic.b (T - s) T) (p.foreign.b (T - s) T) u
    (p.cOfTau u s)

/-- **C62.** What the code integrates instead: `C` at time to maturity `s`, but `φ`, `B_d` and `B_f`
at calendar time `s`. -/
theorem C62_integrand (p : HhwParams) (hk : 0 < p.heston.kappa) (u : ℂ) (s T : ℝ) :
    p.integrand u s T = .ok (driftRate p (phiOf p.heston s) (p.domestic.b s T) (p.foreign.b s T) u
      (p.cOfTau u s)) := integrand_eq p hk u s T

example (u : ℂ) : paperHhw.integrand u 1 5 = .ok (driftRate paperHhw (phiOf paperHhw.heston 1)
    (paperHhw.domestic.b 1 5) (paperHhw.foreign.b 1 5) u (paperHhw.cOfTau u 1)) :=
  C62_integrand paperHhw (by norm_num [paperHhw]) u 1 5

/-- The part of the rate that couples the variance to the interest rates. -/
noncomputable def crossRate (p : HhwParams) (phi bd bf : ℝ) (u : ℂ) : ℂ :=
  ((p.heston.gamma * p.correlations.sigmaD * p.domestic.sigma * bd * phi : ℝ) : ℂ)
      * (1 - Complex.I * u)
    + ((p.heston.gamma * p.correlations.sigmaF * p.foreign.sigma * bf * phi : ℝ) : ℂ) * (Complex.I * u)

theorem driftRate_split (p : HhwParams) (phi bd bf : ℝ) (u c : ℂ) :
    driftRate p phi bd bf u c = ((p.heston.kappa * p.heston.theta : ℝ) : ℂ) * c
      + (fwdVarX p phi bd bf 0 / 2 : ℝ) * ((Complex.I * u) ^ 2 - Complex.I * u)
      + crossRate p phi bd bf u * c := by
  simp only [driftRate, crossRate, fwdCovXV]
  push_cast
  ring

/-- The gap between the two Simpson sums is that of the coupling terms alone. -/
theorem simpson_gap (p : HhwParams) (u : ℂ) (T : ℝ) {m : ℕ} (hm : 0 < m) :
    simpsonPanels m T (fun s => integrandVal p u s T)
      = simpsonPanels m T (fun s => requiredRate p u s T)
        + simpsonPanels m T (fun s =>
          (crossRate p (phiOf p.heston s) (p.domestic.b s T) (p.foreign.b s T) u
            - crossRate p (phiOf p.heston (T - s)) (p.domestic.b (T - s) T) (p.foreign.b (T - s) T) u)
          * p.cOfTau u s) := by
  set V : ℝ → ℂ := fun s => (fwdVarX p (phiOf p.heston s) (p.domestic.b s T) (p.foreign.b s T) 0 / 2 : ℝ)
    * ((Complex.I * u) ^ 2 - Complex.I * u) with hV
  set K : ℝ → ℂ := fun s => crossRate p (phiOf p.heston s) (p.domestic.b s T) (p.foreign.b s T) u with hK
  have e1 : (fun s => integrandVal p u s T) = fun s =>
      (((p.heston.kappa * p.heston.theta : ℝ) : ℂ) * p.cOfTau u s + K (T - s) * p.cOfTau u s) + V s
        + (K s - K (T - s)) * p.cOfTau u s := by
    funext s
    rw [integrandVal, driftRate_split]
    simp only [hV, hK]
    ring
  have e2 : (fun s => requiredRate p u s T) = fun s =>
      (((p.heston.kappa * p.heston.theta : ℝ) : ℂ) * p.cOfTau u s + K (T - s) * p.cOfTau u s)
        + V (T - s) := by
    funext s
    rw [requiredRate, driftRate_split]
    simp only [hV, hK]
    ring
  rw [e1, e2]
  rw [simpsonPanels_add m T (fun s => ((p.heston.kappa * p.heston.theta : ℝ) : ℂ) * p.cOfTau u s
      + K (T - s) * p.cOfTau u s + V s), simpsonPanels_add m T _ V,
    simpsonPanels_add m T _ (fun s => V (T - s)), simpsonPanels_reflect m hm T V]

/-- **C62 (partial).** If the variance is uncorrelated with both short rates (or they are
deterministic, or the variance is), the value of `A` is the Simpson sum of the required rate.
Missing: the general case, which is false, see `C62_drift_false`. -/
theorem C62_drift_partial (p : HhwParams) (hk : 0 < p.heston.kappa) {T : ℝ} (hT : 0 ≤ T) {m : ℕ}
    (hm : 0 < m) (hd : p.heston.gamma * p.correlations.sigmaD * p.domestic.sigma = 0)
    (hf : p.heston.gamma * p.correlations.sigmaF * p.foreign.sigma = 0) :
    ∃ q, HhwChf.withSimpsonSteps p T (2 * m) = .ok q ∧ ∀ u : ℂ, ∃ c, q.components u T = .ok c
      ∧ c.b = Complex.I * u ∧ c.c = p.cOfTau u T
      ∧ c.a = simpsonPanels m T (fun s => requiredRate p u s T) := by
  obtain ⟨q, hq, h⟩ := evaluate_eq p hk hT hm
  refine ⟨q, hq, fun u => ⟨_, (h u).1, rfl, rfl, ?_⟩⟩
  dsimp only
  rw [simpson_gap p u T hm]
  have hz : ∀ phi bd bf, crossRate p phi bd bf u = 0 := by
    intro phi bd bf
    rw [crossRate, hd, hf]
    simp
  simp [hz, simpsonPanels]

example : ∃ q, HhwChf.withSimpsonSteps { paperHhw with correlations :=
      { paperHhw.correlations with sigmaD := 0, sigmaF := 0 } } 5 (2 * 64) = .ok q := by
  obtain ⟨q, h, -⟩ := C62_drift_partial { paperHhw with correlations :=
      { paperHhw.correlations with sigmaD := 0, sigmaF := 0 } } (by norm_num [paperHhw])
    (T := 5) (by norm_num) (m := 64) (by norm_num) (by simp) (by simp)
  exact ⟨q, h⟩

/-- **C62.** The gap with two intervals, for all parameters: it is the coupling at time zero times
`C(T)`. -/
theorem C62_two_interval_gap (p : HhwParams) (hk : 0 < p.heston.kappa) {T : ℝ} (hT : 0 ≤ T) :
    ∃ q, HhwChf.withSimpsonSteps p T 2 = .ok q ∧ ∀ u : ℂ, ∃ c, q.components u T = .ok c
      ∧ c.a = simpsonPanels 1 T (fun s => requiredRate p u s T)
        - ((T / 6 : ℝ) : ℂ) * (crossRate p (√(max p.heston.sigma0 0)) (p.domestic.b 0 T)
          (p.foreign.b 0 T) u * p.cOfTau u T) := by
  obtain ⟨q, hq, h⟩ := evaluate_eq p hk hT (m := 1) one_pos
  refine ⟨q, hq, fun u => ⟨_, (h u).1, ?_⟩⟩
  dsimp only
  rw [simpson_gap p u T one_pos, sub_eq_add_neg]
  congr 1
  have hb : ∀ h : HullWhite, h.b T T = 0 := by
    intro h
    rw [HullWhite.b]
    split_ifs <;> simp
  have hc0 : p.cOfTau u 0 = 0 := by rw [HhwParams.cOfTau, if_pos (le_refl _)]
  have e1 : T - 1 * (T / (2 * 1)) = 1 * (T / (2 * 1)) := by ring
  have e2 : (2 : ℝ) * (T / (2 * 1)) = T := by ring
  have hcr : crossRate p (phiOf p.heston T) 0 0 u = 0 := by simp [crossRate]
  simp only [simpsonPanels, Finset.sum_range_one, Nat.cast_one, Nat.mul_zero, Nat.zero_add,
    Nat.cast_zero, zero_mul, hc0, mul_zero, zero_add, e1, e2, sub_self, Nat.cast_ofNat, hb, hcr,
    phiOf_of_nonpos p.heston (le_refl (0 : ℝ)), zero_sub]
  push_cast
  ring

example : ∃ q, HhwChf.withSimpsonSteps paperHhw 1 2 = .ok q := by
  obtain ⟨q, h, -⟩ := C62_two_interval_gap paperHhw (by norm_num [paperHhw]) (T := 1) (by norm_num)
  exact ⟨q, h⟩

/-- The parameters of the counterexample: a Ho-Lee domestic rate correlated with the variance only,
and a volatility of variance below the threshold at which `sqrt_mean` switches to the mean. -/
noncomputable def gapHhw : HhwParams :=
  ⟨1, ⟨1, 1, 1 / 10 ^ 15, 1⟩, ⟨0, 1⟩, ⟨0, 0⟩, 0, 0, 0, 0, ⟨0, 0, 0, 1 / 2, 0, 0⟩⟩

theorem gap_phi (s : ℝ) : phiOf gapHhw.heston s = 1 := by
  by_cases hs : s ≤ 0
  · rw [phiOf_of_nonpos _ hs]; norm_num [gapHhw]
  · have h : |gapHhw.heston.gamma| < 1 / 10 ^ 14 := by
      rw [abs_lt]; norm_num [gapHhw]
    have hm : gapHhw.heston.mean s = 1 := by
      rw [Cir.mean, if_neg hs]; simp only [gapHhw]; ring
    rw [phiOf, Cir.sqrtMean, Cir.sqrtMeanTol, if_neg hs, if_neg (by norm_num [gapHhw]), if_pos h, hm]
    norm_num

/-- The real closed form at the frequency of the counterexample. -/
noncomputable def gapC (d t : ℝ) : ℝ :=
  -(1 / 4) * (1 - Real.exp (-d * t)) / (1 + d - (1 - d) * Real.exp (-d * t))

theorem gap_c {t : ℝ} (ht : 0 ≤ t) :
    gapHhw.cOfTau (-(Complex.I / 2)) t = (gapC (√(1 + (1 / 10 ^ 15) ^ 2 / 4)) t : ℝ) := by
  have hI : Complex.I * -(Complex.I / 2) = ((1 / 2 : ℝ) : ℂ) := by
    push_cast; linear_combination -(1 / 2 : ℂ) * Complex.I_mul_I
  have hq : chfQ (-(Complex.I / 2)) = ((-(1 / 4) : ℝ) : ℂ) := by
    rw [chfQ, hI]; push_cast; ring
  have hx : chfX gapHhw (-(Complex.I / 2)) = ((1 : ℝ) : ℂ) := by
    rw [chfX, hI]; simp [gapHhw]
  have hdisc : chfDisc gapHhw (-(Complex.I / 2)) = ((1 + (1 / 10 ^ 15) ^ 2 / 4 : ℝ) : ℂ) := by
    rw [chfDisc, hI, hx]; simp only [gapHhw]; push_cast; ring
  have hd : chfD gapHhw (-(Complex.I / 2)) = ((√(1 + (1 / 10 ^ 15) ^ 2 / 4) : ℝ) : ℂ) := by
    rw [chfD, hdisc, show (1 / 2 : ℂ) = ((1 / 2 : ℝ) : ℂ) by norm_num,
      ← Complex.ofReal_cpow (by positivity), ← Real.sqrt_eq_rpow]
  rw [cOfTau_eq _ _ ht, hestonC, hestonDen, hq, hx, hd, gapC]
  push_cast
  rfl

theorem gapC_lt {d s t : ℝ} (hd : 1 ≤ d) (hs : 0 ≤ s) (hst : s < t) : gapC d t < gapC d s := by
  have he : Real.exp (-d * t) < Real.exp (-d * s) := Real.exp_lt_exp.2 (by nlinarith)
  have h1 : Real.exp (-d * s) ≤ 1 := Real.exp_le_one_iff.2 (by nlinarith)
  have h0 : 0 < Real.exp (-d * t) := Real.exp_pos _
  unfold gapC
  set a := Real.exp (-d * s)
  set b := Real.exp (-d * t)
  rw [div_lt_div_iff₀ (by nlinarith) (by nlinarith)]
  nlinarith

/-- **C62 (refuted as stated).** The value of `A` is not the quadrature of the rate that the pricing
equation requires: with a variance correlated with the domestic rate, at `u = -i/2` and `T = 1`, the
real part is too small for every number of intervals. -/
theorem C62_drift_false : ∃ (p : HhwParams) (u : ℂ), 0 < p.heston.kappa ∧ ∀ m : ℕ, 0 < m →
    ∃ q, HhwChf.withSimpsonSteps p 1 (2 * m) = .ok q ∧ ∃ c, q.components u 1 = .ok c
      ∧ c.a.re < (simpsonPanels m 1 (fun s => requiredRate p u s 1)).re := by
  refine ⟨gapHhw, -(Complex.I / 2), by norm_num [gapHhw], fun m hm => ?_⟩
  obtain ⟨q, hq, h⟩ := evaluate_eq gapHhw (by norm_num [gapHhw]) (T := 1) zero_le_one hm
  refine ⟨q, hq, _, (h _).1, ?_⟩
  dsimp only
  rw [simpson_gap _ _ _ hm, Complex.add_re]
  set d := √(1 + (1 / 10 ^ 15) ^ 2 / 4 : ℝ) with hd
  have hd1 : 1 ≤ d := by
    rw [hd]; exact Real.one_le_sqrt.2 (by norm_num)
  have hI : Complex.I * -(Complex.I / 2) = ((1 / 2 : ℝ) : ℂ) := by
    push_cast; linear_combination -(1 / 2 : ℂ) * Complex.I_mul_I
  -- the coupling difference
  have hK : ∀ s, crossRate gapHhw (phiOf gapHhw.heston s) (gapHhw.domestic.b s 1)
        (gapHhw.foreign.b s 1) (-(Complex.I / 2))
      - crossRate gapHhw (phiOf gapHhw.heston (1 - s)) (gapHhw.domestic.b (1 - s) 1)
        (gapHhw.foreign.b (1 - s) 1) (-(Complex.I / 2))
      = ((1 / 10 ^ 15 / 4 * (2 * s - 1) : ℝ) : ℂ) := by
    intro s
    have hb : ∀ s, gapHhw.domestic.b s 1 = s - 1 := by
      intro s
      rw [HullWhite.b, if_pos (by norm_num [gapHhw])]; ring
    rw [crossRate, crossRate, gap_phi, gap_phi, hb, hb, hI]
    simp only [gapHhw]
    push_cast
    ring
  set f : ℝ → ℂ := fun s => ((1 / 10 ^ 15 / 4 * (2 * s - 1) * gapC d s : ℝ) : ℂ) with hf
  have hg : simpsonPanels m 1 (fun s => (crossRate gapHhw (phiOf gapHhw.heston s)
        (gapHhw.domestic.b s 1) (gapHhw.foreign.b s 1) (-(Complex.I / 2))
      - crossRate gapHhw (phiOf gapHhw.heston (1 - s)) (gapHhw.domestic.b (1 - s) 1)
        (gapHhw.foreign.b (1 - s) 1) (-(Complex.I / 2))) * gapHhw.cOfTau (-(Complex.I / 2)) s)
      = simpsonPanels m 1 f := by
    apply simpsonPanels_congr m zero_le_one
    intro s hs
    rw [hK, gap_c hs, hf, ← Complex.ofReal_mul]
  rw [hg]
  have hsym : 2 * simpsonPanels m 1 f = simpsonPanels m 1 (fun s =>
      ((1 / 10 ^ 15 / 4 * (2 * s - 1) * (gapC d s - gapC d (1 - s)) : ℝ) : ℂ)) := by
    have h1 := simpsonPanels_add m 1 f (fun s => f (1 - s))
    rw [simpsonPanels_reflect m hm 1 f, ← two_mul] at h1
    rw [← h1]
    congr 1
    funext s
    simp only [hf]
    push_cast
    ring
  -- every node contributes a non-positive amount, the first one a negative amount
  set G : ℝ → ℝ := fun s => 1 / 10 ^ 15 / 4 * (2 * s - 1) * (gapC d s - gapC d (1 - s)) with hG
  have hGle : ∀ s, 0 ≤ s → s ≤ 1 → G s ≤ 0 := by
    intro s h0 h1
    simp only [hG]
    rcases lt_trichotomy s (1 / 2) with h | h | h
    · have := gapC_lt hd1 h0 (show s < 1 - s by linarith)
      have h2 : (2 * s - 1) * (gapC d s - gapC d (1 - s)) ≤ 0 :=
        mul_nonpos_of_nonpos_of_nonneg (by linarith) (by linarith)
      rw [mul_assoc]
      exact mul_nonpos_of_nonneg_of_nonpos (by positivity) h2
    · subst h; norm_num
    · have := gapC_lt hd1 (show 0 ≤ 1 - s by linarith) (show 1 - s < s by linarith)
      have h2 : (2 * s - 1) * (gapC d s - gapC d (1 - s)) ≤ 0 :=
        mul_nonpos_of_nonneg_of_nonpos (by linarith) (by linarith)
      rw [mul_assoc]
      exact mul_nonpos_of_nonneg_of_nonpos (by positivity) h2
  have hG0 : G 0 < 0 := by
    have := gapC_lt hd1 (le_refl 0) (show (0 : ℝ) < 1 by norm_num)
    simp only [hG]
    rw [sub_zero]
    nlinarith
  have hm' : (0 : ℝ) < m := by exact_mod_cast hm
  have hre : (simpsonPanels m 1 (fun s => ((G s : ℝ) : ℂ))).re
      = ∑ j ∈ Finset.range m, 1 / (2 * m) / 3 * (G ((2 * j : ℕ) * (1 / (2 * m)))
        + 4 * G ((2 * j + 1 : ℕ) * (1 / (2 * m))) + G ((2 * j + 2 : ℕ) * (1 / (2 * m)))) := by
    rw [simpsonPanels, Complex.re_sum]
    apply Finset.sum_congr rfl
    intro j _
    rw [Complex.re_ofReal_mul]
    simp
  have hnode : ∀ k : ℕ, k ≤ 2 * m → G (k * (1 / (2 * m))) ≤ 0 := by
    intro k hk
    have hk' : (k : ℝ) ≤ 2 * m := by exact_mod_cast hk
    apply hGle
    · positivity
    · rw [mul_one_div, div_le_one (by positivity)]; exact hk'
  have hneg : (simpsonPanels m 1 (fun s => ((G s : ℝ) : ℂ))).re < 0 := by
    rw [hre]
    have hpos : (0 : ℝ) < 1 / (2 * m) / 3 := by positivity
    have : ∀ j ∈ Finset.range m, 1 / (2 * m) / 3 * (G ((2 * j : ℕ) * (1 / (2 * m)))
        + 4 * G ((2 * j + 1 : ℕ) * (1 / (2 * m))) + G ((2 * j + 2 : ℕ) * (1 / (2 * m)))) ≤ 0 := by
      intro j hj
      have hj := Finset.mem_range.1 hj
      have a := hnode (2 * j) (by omega)
      have b := hnode (2 * j + 1) (by omega)
      have c := hnode (2 * j + 2) (by omega)
      exact mul_nonpos_of_nonneg_of_nonpos hpos.le (by linarith)
    refine Finset.sum_neg' this ⟨0, Finset.mem_range.2 hm, ?_⟩
    have b := hnode (2 * 0 + 1) (by omega)
    have c := hnode (2 * 0 + 2) (by omega)
    have a : G (((2 * 0 : ℕ) : ℝ) * (1 / (2 * m))) < 0 := by
      simpa using hG0
    exact mul_neg_of_pos_of_neg hpos (by linarith)
  rw [← hsym] at hneg
  have : (2 * simpsonPanels m 1 f).re = 2 * (simpsonPanels m 1 f).re := by simp
  rw [this] at hneg
  linarith

/-! ## The Heston limit -/

theorem driftRate_heston (p : HhwParams) (hd : p.domestic.sigma = 0) (hf : p.foreign.sigma = 0)
    (phi bd bf : ℝ) (u c : ℂ) :
    driftRate p phi bd bf u c = ((p.heston.kappa * p.heston.theta : ℝ) : ℂ) * c := by
  simp [driftRate, fwdCovXV, fwdVarX, hd, hf]

/-- The Heston exponent: the exact solution of the pricing equation without rate volatility. -/
noncomputable def hestonExponent (p : HhwParams) (u : ℂ) (T x v : ℝ) : ℂ :=
  (∫ t in (0 : ℝ)..T, ((p.heston.kappa * p.heston.theta : ℝ) : ℂ) * p.cOfTau u t)
    + Complex.I * u * x + p.cOfTau u T * v

/-- **C62.** With deterministic rates the exact exponent solves the pricing equation, and the value
of the code differs from it by a factor whose exponent is of fourth order in the number of
intervals. -/
theorem C62_heston (p : HhwParams) (hk : 0 < p.heston.kappa) (hr : |p.correlations.xiSigma| ≤ 1)
    (hd : p.domestic.sigma = 0) (hf : p.foreign.sigma = 0) {T : ℝ} (hT : 0 ≤ T) (u : ℝ) :
    (∀ t x v phi bd bf : ℝ, 0 < t → HasDerivAt (fun t => Complex.exp (hestonExponent p u t x v))
      (fwdGenerator p phi bd bf (fun x v => Complex.exp (hestonExponent p u t x v)) x v) t)
    ∧ ∃ M : ℝ, ∀ m : ℕ, 0 < m → ∃ q, HhwChf.withSimpsonSteps p T (2 * m) = .ok q
      ∧ ∃ e : ℂ, ‖e‖ ≤ M / (2 * m) ^ 4
        ∧ q.evaluate u = .ok (Complex.exp (hestonExponent p u T (p.logForward T) p.heston.sigma0 + e)) := by
  obtain ⟨h1, h2, h3⟩ := chf_regular p hk hr u
  have hdd : chfD p u * chfD p u
      = chfX p u * chfX p u - ((p.heston.gamma ^ 2 : ℝ) : ℂ) * chfQ u := by
    rw [chfD_sq, chfDisc_eq]
  have hden : ∀ t, 0 ≤ t → hestonDen (chfX p u) (chfD p u) t ≠ 0 := fun t ht =>
    hestonDen_ne_zero h1 h2 ((sq_nonneg _).trans h3) ht
  constructor
  · intro t x v phi bd bf ht
    obtain ⟨hc0, hcc, hcd⟩ := C62_riccati p hk hr u
    have hA : HasDerivAt (fun t => ∫ s in (0 : ℝ)..t,
        ((p.heston.kappa * p.heston.theta : ℝ) : ℂ) * p.cOfTau u s)
        (driftRate p phi bd bf u (p.cOfTau u t)) t := by
      rw [driftRate_heston p hd hf]
      have hcont : ContinuousOn (fun s => ((p.heston.kappa * p.heston.theta : ℝ) : ℂ) * p.cOfTau u s)
          (Set.Ici 0) := hcc.const_mul _ |>.congr fun _ _ => rfl
      apply intervalIntegral.integral_hasDerivAt_right
      · apply ContinuousOn.intervalIntegrable
        exact hcont.mono (by rw [Set.uIcc_of_le ht.le]; exact fun s hs => hs.1)
      · exact ⟨Set.Ici 0, Ici_mem_nhds ht, hcont.aestronglyMeasurable measurableSet_Ici⟩
      · exact (hcont.continuousAt (Ici_mem_nhds ht))
    exact (affine_pde_iff p phi bd bf u _ _ hA (hcd t ht)).2 ⟨rfl, rfl⟩ x v
  · obtain ⟨M, hM⟩ := hestonC_quadrature hdd hT hden (((p.heston.kappa * p.heston.theta : ℝ)) : ℂ)
    refine ⟨M, fun m hm => ?_⟩
    obtain ⟨q, hq, h⟩ := evaluate_eq p hk hT hm
    refine ⟨q, hq, _, hM m hm, ?_⟩
    rw [(h u).2]
    congr 2
    have e1 : simpsonPanels m T (fun s => integrandVal p u s T) = simpsonPanels m T
        (fun t => ((p.heston.kappa * p.heston.theta : ℝ) : ℂ)
          * hestonC (chfQ u) (chfX p u) (chfD p u) t) := by
      apply simpsonPanels_congr m hT
      intro s hs
      rw [integrandVal, driftRate_heston p hd hf, cOfTau_eq p u hs]
    have e2 : (∫ t in (0 : ℝ)..T, ((p.heston.kappa * p.heston.theta : ℝ) : ℂ)
          * hestonC (chfQ u) (chfX p u) (chfD p u) t)
        = ∫ t in (0 : ℝ)..T, ((p.heston.kappa * p.heston.theta : ℝ) : ℂ) * p.cOfTau u t := by
      apply intervalIntegral.integral_congr
      intro t ht
      rw [Set.uIcc_of_le hT] at ht
      dsimp only
      rw [cOfTau_eq p u ht.1]
    rw [e1, e2, hestonExponent]
    ring

/-- Deterministic rates for the examples. -/
noncomputable def hestonHhw : HhwParams :=
  { paperHhw with domestic := ⟨1 / 100, 0⟩, foreign := ⟨1 / 20, 0⟩ }

example : ∃ M : ℝ, ∀ m : ℕ, 0 < m → ∃ q, HhwChf.withSimpsonSteps hestonHhw 2 (2 * m) = .ok q
    ∧ ∃ e : ℂ, ‖e‖ ≤ M / (2 * m) ^ 4 ∧ q.evaluate ((3 : ℝ) : ℂ)
      = .ok (Complex.exp (hestonExponent hestonHhw ((3 : ℝ) : ℂ) 2 (hestonHhw.logForward 2)
        hestonHhw.heston.sigma0 + e)) :=
  (C62_heston hestonHhw (by norm_num [hestonHhw, paperHhw])
    (by rw [abs_le]; norm_num [hestonHhw, paperHhw]) rfl rfl (by norm_num) 3).2

/-- **C62.** With deterministic rates the modulus at real frequencies is at most one. -/
theorem C62_modulus (p : HhwParams) (hk : 0 < p.heston.kappa) (hr : |p.correlations.xiSigma| ≤ 1)
    (hd : p.domestic.sigma = 0) (hf : p.foreign.sigma = 0) (hth : 0 ≤ p.heston.theta)
    (hs0 : 0 ≤ p.heston.sigma0) {T : ℝ} (hT : 0 ≤ T) {n : ℕ} (hn : 2 ≤ n) (he : n % 2 = 0) :
    ∃ q, HhwChf.withSimpsonSteps p T n = .ok q ∧ ∀ u : ℝ, ∃ z, q.evaluate (u : ℂ) = .ok z ∧ ‖z‖ ≤ 1 := by
  obtain ⟨m, hm, rfl⟩ := even_two_mul hn he
  obtain ⟨q, hq, h⟩ := evaluate_eq p hk hT hm
  refine ⟨q, hq, fun u => ⟨_, (h u).2, ?_⟩⟩
  rw [Complex.norm_exp, Real.exp_le_one_iff]
  have hC := C62_damping p hk hr u
  have h1 : (simpsonPanels m T fun s => integrandVal p u s T).re ≤ 0 := by
    rw [simpsonPanels, Complex.re_sum]
    apply Finset.sum_nonpos
    intro j _
    rw [Complex.re_ofReal_mul]
    have hI : ∀ s, (integrandVal p u s T).re ≤ 0 := by
      intro s
      rw [integrandVal, driftRate_heston p hd hf, Complex.re_ofReal_mul]
      exact mul_nonpos_of_nonneg_of_nonpos (by positivity) (hC s)
    apply mul_nonpos_of_nonneg_of_nonpos (by positivity)
    have e4 : ∀ z : ℂ, (4 * z).re = 4 * z.re := fun z => by simp
    rw [Complex.add_re, Complex.add_re, e4]
    linarith [hI (((2 * j : ℕ) : ℝ) * (T / (2 * m))), hI (((2 * j + 1 : ℕ) : ℝ) * (T / (2 * m))),
      hI (((2 * j + 2 : ℕ) : ℝ) * (T / (2 * m)))]
  have h2 : (Complex.I * (u : ℂ) * ((p.logForward T : ℝ) : ℂ)).re = 0 := by simp
  have h3 : (p.cOfTau u T * ((p.heston.sigma0 : ℝ) : ℂ)).re ≤ 0 := by
    rw [Complex.re_mul_ofReal]
    exact mul_nonpos_of_nonpos_of_nonneg (hC T) hs0
  rw [Complex.add_re, Complex.add_re, h2]
  linarith

example : ∃ q, HhwChf.new hestonHhw 2 = .ok q ∧ ∀ u : ℝ, ∃ z, q.evaluate (u : ℂ) = .ok z ∧ ‖z‖ ≤ 1 :=
  C62_modulus hestonHhw (by norm_num [hestonHhw, paperHhw])
    (by rw [abs_le]; norm_num [hestonHhw, paperHhw]) rfl rfl (by norm_num [hestonHhw, paperHhw])
    (by norm_num [hestonHhw, paperHhw]) (by norm_num) (by norm_num) (by norm_num)

/-! ## The Black–Scholes limit -/

/-- `C` without volatility of variance. -/
theorem cOfTau_no_volvol (p : HhwParams) (hk : 0 < p.heston.kappa) (hg : p.heston.gamma = 0) (u : ℂ)
    {t : ℝ} (ht : 0 ≤ t) :
    p.cOfTau u t = chfQ u / (2 * p.heston.kappa) * (1 - Complex.exp (-(p.heston.kappa : ℂ) * t)) := by
  have hx : chfX p u = (p.heston.kappa : ℂ) := by simp [chfX, hg]
  have hdisc : chfDisc p u = ((p.heston.kappa ^ 2 : ℝ) : ℂ) := by
    simp [chfDisc, hx, hg]; ring
  have hd : chfD p u = (p.heston.kappa : ℂ) := by
    rw [chfD, hdisc, show (1 / 2 : ℂ) = ((1 / 2 : ℝ) : ℂ) by norm_num,
      ← Complex.ofReal_cpow (by positivity), ← Real.sqrt_eq_rpow, Real.sqrt_sq hk.le]
  rw [cOfTau_eq p u ht, hestonC, hestonDen, hx, hd, sub_self, zero_mul, sub_zero, two_mul]
  ring

/-- **C62.** Without rate volatility and volatility of variance, started at the mean `θ`, the value
is the characteristic function of the Black–Scholes log-forward, normal with mean
`log F - θT/2` and variance `θT`, up to a factor whose exponent is at most
`θ |u² + iu| κ⁴ T⁵ / (360 n⁴)`. -/
theorem C62_black_scholes (p : HhwParams) (hk : 0 < p.heston.kappa) (hg : p.heston.gamma = 0)
    (hd : p.domestic.sigma = 0) (hf : p.foreign.sigma = 0) (hth : 0 ≤ p.heston.theta)
    (hs0 : p.heston.sigma0 = p.heston.theta) {T : ℝ} (hT : 0 ≤ T) {m : ℕ} (hm : 0 < m) :
    ∃ q, HhwChf.withSimpsonSteps p T (2 * m) = .ok q ∧ ∀ u : ℝ, ∃ e : ℂ,
      ‖e‖ ≤ p.heston.theta * ‖(u : ℂ) ^ 2 + Complex.I * u‖ * p.heston.kappa ^ 4 * T ^ 5
        / (360 * (2 * m) ^ 4)
      ∧ q.evaluate u = .ok (charFun (gaussianReal (p.logForward T - p.heston.theta * T / 2)
          (p.heston.theta * T).toNNReal) u * Complex.exp e) := by
  obtain ⟨q, hq, h⟩ := evaluate_eq p hk hT hm
  refine ⟨q, hq, fun u => ?_⟩
  set κ := p.heston.kappa with hκ
  set θ := p.heston.theta with hθ
  have hκc : (κ : ℂ) ≠ 0 := by exact_mod_cast hk.ne'
  have hQ : chfQ u = -((u : ℂ) ^ 2 + Complex.I * u) := by
    rw [chfQ]; linear_combination (u : ℂ) ^ 2 * Complex.I_sq
  set B : ℂ := (θ : ℂ) * chfQ u / 2 with hB
  set f : ℝ → ℂ := fun t => B * (1 - Complex.exp (-(κ : ℂ) * t)) with hfdef
  -- the integrand
  have e1 : simpsonPanels m T (fun s => integrandVal p u s T) = simpsonPanels m T f := by
    apply simpsonPanels_congr m hT
    intro s hs
    rw [integrandVal, driftRate_heston p hd hf, cOfTau_no_volvol p hk hg u hs]
    simp only [hfdef, hB, ← hκ, ← hθ]
    push_cast
    field_simp
  have hexp := hasDerivAt_expNeg (κ : ℂ)
  have d1 : ∀ t ∈ Set.Icc 0 T, HasDerivAt f (B * κ * Complex.exp (-(κ : ℂ) * t)) t := by
    intro t _
    refine (((hexp t).const_sub 1).const_mul B).congr_deriv ?_
    ring
  have d2 : ∀ t ∈ Set.Icc 0 T, HasDerivAt (fun t : ℝ => B * κ * Complex.exp (-(κ : ℂ) * t))
      (-(B * κ ^ 2) * Complex.exp (-(κ : ℂ) * t)) t := by
    intro t _
    refine ((hexp t).const_mul (B * κ)).congr_deriv ?_
    ring
  have d3 : ∀ t ∈ Set.Icc 0 T, HasDerivAt (fun t : ℝ => -(B * κ ^ 2) * Complex.exp (-(κ : ℂ) * t))
      (B * κ ^ 3 * Complex.exp (-(κ : ℂ) * t)) t := by
    intro t _
    refine ((hexp t).const_mul (-(B * κ ^ 2))).congr_deriv ?_
    ring
  have d4 : ∀ t ∈ Set.Icc 0 T, HasDerivAt (fun t : ℝ => B * κ ^ 3 * Complex.exp (-(κ : ℂ) * t))
      (-(B * κ ^ 4) * Complex.exp (-(κ : ℂ) * t)) t := by
    intro t _
    refine ((hexp t).const_mul (B * κ ^ 3)).congr_deriv ?_
    ring
  have hM : ∀ t ∈ Set.Icc 0 T, ‖-(B * (κ : ℂ) ^ 4) * Complex.exp (-(κ : ℂ) * t)‖
      ≤ θ * ‖(u : ℂ) ^ 2 + Complex.I * u‖ * κ ^ 4 / 2 := by
    intro t ht
    have hle : ‖Complex.exp (-(κ : ℂ) * t)‖ ≤ 1 := by
      rw [Complex.norm_exp, Real.exp_le_one_iff, ← Complex.ofReal_neg, ← Complex.ofReal_mul,
        Complex.ofReal_re]
      nlinarith [ht.1]
    have hn : ‖-(B * (κ : ℂ) ^ 4)‖ = θ * ‖(u : ℂ) ^ 2 + Complex.I * u‖ * κ ^ 4 / 2 := by
      rw [norm_neg, norm_mul, norm_pow, hB, hQ, norm_div, norm_mul, norm_neg, Complex.norm_real,
        Complex.norm_real, Real.norm_of_nonneg hth, Real.norm_of_nonneg hk.le]
      norm_num
      ring
    rw [norm_mul, hn]
    exact mul_le_of_le_one_right (by positivity) hle
  have herr := simpson_composite hT d1 d2 d3 d4 hM hm
  have hint : (∫ t in (0 : ℝ)..T, f t)
      = B * T - B / κ * (1 - Complex.exp (-(κ : ℂ) * T)) := by
    have hF : ∀ t ∈ Set.uIcc 0 T, HasDerivAt (fun t : ℝ => B * t + B / κ * Complex.exp (-(κ : ℂ) * t))
        (f t) t := by
      intro t _
      have h1 : HasDerivAt (fun t : ℝ => B * (t : ℂ)) B t := by
        simpa using (Complex.ofRealCLM.hasDerivAt (x := t)).const_mul B
      refine (h1.add ((hexp t).const_mul (B / κ))).congr_deriv ?_
      simp only [hfdef]
      field_simp
      ring
    have hcont : Continuous f := by
      simp only [hfdef]; fun_prop
    rw [intervalIntegral.integral_eq_sub_of_hasDerivAt hF (hcont.intervalIntegrable _ _)]
    simp
    ring
  refine ⟨simpsonPanels m T f - ∫ t in (0 : ℝ)..T, f t, ?_, ?_⟩
  · refine herr.trans (le_of_eq ?_)
    rw [div_mul_eq_mul_div, div_div]
    ring_nf
  · rw [(h u).2, e1, charFun_gaussianReal, ← Complex.exp_add, hint, cOfTau_no_volvol p hk hg u hT, hs0,
      Real.coe_toNNReal _ (mul_nonneg hth hT)]
    congr 2
    simp only [hB, hQ, ← hκ]
    push_cast
    field_simp
    ring

/-- Constant variance for the example. -/
noncomputable def bsHhw : HhwParams :=
  { hestonHhw with heston := ⟨1, 1 / 25, 0, 1 / 25⟩ }

example : ∃ q, HhwChf.new bsHhw 1 = .ok q ∧ ∀ u : ℝ, ∃ e : ℂ,
    ‖e‖ ≤ bsHhw.heston.theta * ‖(u : ℂ) ^ 2 + Complex.I * u‖ * bsHhw.heston.kappa ^ 4 * 1 ^ 5
      / (360 * (2 * (64 : ℕ)) ^ 4)
    ∧ q.evaluate u = .ok (charFun (gaussianReal (bsHhw.logForward 1 - bsHhw.heston.theta * 1 / 2)
        (bsHhw.heston.theta * 1).toNNReal) u * Complex.exp e) :=
  C62_black_scholes bsHhw (by norm_num [bsHhw]) rfl rfl rfl (by norm_num [bsHhw]) rfl (by norm_num)
    (m := 64) (by norm_num)

end Verif
