import Verif.Spec.ShortRate
import Mathlib.Analysis.SpecialFunctions.Exp
import Mathlib.Analysis.SpecialFunctions.ExpDeriv
import Mathlib.Analysis.SpecialFunctions.Gamma.BohrMollerup
import Mathlib.Analysis.Complex.Exponential
import Mathlib.Algebra.Order.BigOperators.Ring.Finset
import Mathlib.Analysis.InnerProductSpace.Basic
import Mathlib.Tactic.Positivity
import Mathlib.Tactic.FieldSimp
import Mathlib.Tactic.Linarith

/-!
# C48, C49: CIR and Hull-White
-/

namespace Verif

open Classical Filter Topology
open scoped Real

/-! ## C48 -/

theorem cir_mean_eq (p : Cir) {t : ℝ} (ht : 0 ≤ t) :
    p.mean t = p.sigma0 * Real.exp (-p.kappa * t) + p.theta * (1 - Real.exp (-p.kappa * t)) := by
  rw [Cir.mean]
  by_cases h : t ≤ 0
  · have : t = 0 := le_antisymm h ht
    subst this; rw [if_pos le_rfl]; simp
  · rw [if_neg h]

theorem cir_variance_eq (p : Cir) {t : ℝ} (ht : 0 ≤ t) :
    p.variance t = p.sigma0 * (p.gamma * p.gamma / p.kappa) * Real.exp (-p.kappa * t) *
        (1 - Real.exp (-p.kappa * t)) +
      p.theta * (p.gamma * p.gamma / p.kappa * (1 / 2)) * (1 - Real.exp (-p.kappa * t)) *
        (1 - Real.exp (-p.kappa * t)) := by
  rw [Cir.variance]
  by_cases h : t ≤ 0
  · have : t = 0 := le_antisymm h ht
    subst this; rw [if_pos le_rfl]; simp
  · rw [if_neg h]

theorem exp_neg_mem (k t : ℝ) (hk : 0 < k) (ht : 0 ≤ t) :
    0 < Real.exp (-k * t) ∧ Real.exp (-k * t) ≤ 1 := by
  refine ⟨Real.exp_pos _, Real.exp_le_one_iff.2 ?_⟩
  have := mul_nonneg hk.le ht; linarith

/-- **C48**: the mean starts at `sigma_0`. -/
theorem C48_mean_start (p : Cir) (t : ℝ) (ht : t ≤ 0) : p.mean t = p.sigma0 := by
  rw [Cir.mean, if_pos ht]

/-- **C48**: the mean lies between the start value and the long-run mean. -/
theorem C48_mean_between (p : Cir) (hk : 0 < p.kappa) (t : ℝ) :
    min p.sigma0 p.theta ≤ p.mean t ∧ p.mean t ≤ max p.sigma0 p.theta := by
  by_cases h : t ≤ 0
  · rw [Cir.mean, if_pos h]; exact ⟨min_le_left _ _, le_max_left _ _⟩
  · obtain ⟨h0, h1⟩ := exp_neg_mem p.kappa t hk (not_le.1 h).le
    rw [cir_mean_eq p (not_le.1 h).le]
    set d := Real.exp (-p.kappa * t)
    have a1 := min_le_left p.sigma0 p.theta
    have a2 := min_le_right p.sigma0 p.theta
    have b1 := le_max_left p.sigma0 p.theta
    have b2 := le_max_right p.sigma0 p.theta
    constructor <;> nlinarith

/-- **C48**: the mean moves monotonically towards the long-run mean: upwards from below and
downwards from above. -/
theorem C48_mean_monotone (p : Cir) (hk : 0 < p.kappa) :
    (p.sigma0 ≤ p.theta → Monotone p.mean) ∧ (p.theta ≤ p.sigma0 → Antitone p.mean) := by
  have key : ∀ s t : ℝ, s ≤ t → ∃ d e : ℝ, 0 < e ∧ e ≤ d ∧ d ≤ 1 ∧
      p.mean s = p.sigma0 * d + p.theta * (1 - d) ∧
      p.mean t = p.sigma0 * e + p.theta * (1 - e) := by
    intro s t hst
    refine ⟨Real.exp (-p.kappa * max s 0), Real.exp (-p.kappa * max t 0), Real.exp_pos _, ?_,
      (exp_neg_mem _ _ hk (le_max_right _ _)).2, ?_, ?_⟩
    · apply Real.exp_le_exp.2
      have := mul_le_mul_of_nonneg_left (max_le_max_right 0 hst) hk.le
      linarith
    · by_cases h : s ≤ 0
      · rw [max_eq_right h, C48_mean_start p s h]; simp
      · rw [max_eq_left (not_le.1 h).le, cir_mean_eq p (not_le.1 h).le]
    · by_cases h : t ≤ 0
      · rw [max_eq_right h, C48_mean_start p t h]; simp
      · rw [max_eq_left (not_le.1 h).le, cir_mean_eq p (not_le.1 h).le]
  refine ⟨fun h s t hst => ?_, fun h s t hst => ?_⟩ <;>
  · obtain ⟨d, e, _, hed, _, e1, e2⟩ := key s t hst
    rw [e1, e2]; nlinarith

theorem tendsto_decay (k : ℝ) (hk : 0 < k) :
    Tendsto (fun t : ℝ => Real.exp (-k * t)) atTop (𝓝 0) := by
  apply Real.tendsto_exp_atBot.comp
  exact tendsto_id.const_mul_atTop_of_neg (by linarith)

/-- **C48**: the mean converges to the long-run mean. -/
theorem C48_mean_tendsto (p : Cir) (hk : 0 < p.kappa) :
    Tendsto p.mean atTop (𝓝 p.theta) := by
  have h : Tendsto (fun t : ℝ => p.sigma0 * Real.exp (-p.kappa * t) +
      p.theta * (1 - Real.exp (-p.kappa * t))) atTop (𝓝 (p.sigma0 * 0 + p.theta * (1 - 0))) :=
    ((tendsto_decay _ hk).const_mul _).add (((tendsto_decay _ hk).const_sub 1).const_mul _)
  simp only [mul_zero, sub_zero, mul_one, zero_add] at h
  refine h.congr' ?_
  filter_upwards [eventually_ge_atTop 0] with t ht
  exact (cir_mean_eq p ht).symm

theorem hasDerivAt_decay (k t : ℝ) :
    HasDerivAt (fun t : ℝ => Real.exp (-k * t)) (-k * Real.exp (-k * t)) t := by
  have h := ((hasDerivAt_id t).const_mul (-k)).exp
  refine h.congr_deriv ?_
  simp; ring

/-- **C48**: the mean solves the moment equation `m' = κ(θ − m)` of the CIR process. -/
theorem C48_mean_ode (p : Cir) (t : ℝ) (ht : 0 < t) :
    HasDerivAt p.mean (p.kappa * (p.theta - p.mean t)) t := by
  have h := ((hasDerivAt_decay p.kappa t).const_mul p.sigma0).add
    (((hasDerivAt_decay p.kappa t).const_sub 1).const_mul p.theta)
  refine (h.congr_of_eventuallyEq ?_).congr_deriv ?_
  · filter_upwards [eventually_gt_nhds ht] with s hs
    exact cir_mean_eq p hs.le
  · rw [cir_mean_eq p ht.le]; ring

/-- **C48**: the variance vanishes at the start and solves the second moment equation
`v' = γ² m − 2κ v`. -/
theorem C48_variance_ode (p : Cir) (hk : p.kappa ≠ 0) :
    p.variance 0 = 0 ∧ ∀ t, 0 < t →
      HasDerivAt p.variance (p.gamma ^ 2 * p.mean t - 2 * p.kappa * p.variance t) t := by
  refine ⟨by rw [Cir.variance, if_pos le_rfl], fun t ht => ?_⟩
  have hd := hasDerivAt_decay p.kappa t
  have h1 := hd.const_sub 1
  have h := ((hd.const_mul (p.sigma0 * (p.gamma * p.gamma / p.kappa))).mul h1).add
    ((h1.const_mul (p.theta * (p.gamma * p.gamma / p.kappa * (1 / 2)))).mul h1)
  refine (h.congr_of_eventuallyEq ?_).congr_deriv ?_
  · filter_upwards [eventually_gt_nhds ht] with s hs
    exact cir_variance_eq p hs.le
  · rw [cir_mean_eq p ht.le, cir_variance_eq p ht.le]
    field_simp
    ring

/-- **C48**: the variance is non-negative. -/
theorem C48_variance_nonneg (p : Cir) (hk : 0 < p.kappa) (hs : 0 ≤ p.sigma0) (hθ : 0 ≤ p.theta)
    (t : ℝ) : 0 ≤ p.variance t := by
  by_cases h : t ≤ 0
  · rw [Cir.variance, if_pos h]
  · obtain ⟨h0, h1⟩ := exp_neg_mem p.kappa t hk (not_le.1 h).le
    rw [cir_variance_eq p (not_le.1 h).le]
    have hg : 0 ≤ p.gamma * p.gamma / p.kappa := div_nonneg (mul_self_nonneg _) hk.le
    have h2 : 0 ≤ 1 - Real.exp (-p.kappa * t) := by linarith
    have h3 := h0.le
    positivity

/-- **C48**: the variance is positive after the start when the process is not degenerate. -/
theorem C48_variance_pos (p : Cir) (hk : 0 < p.kappa) (hs : 0 ≤ p.sigma0) (hθ : 0 < p.theta)
    (hg : p.gamma ≠ 0) (t : ℝ) (ht : 0 < t) : 0 < p.variance t := by
  rw [cir_variance_eq p ht.le]
  have hg : 0 < p.gamma * p.gamma / p.kappa := div_pos (mul_self_pos.2 hg) hk
  have h2 : 0 < 1 - Real.exp (-p.kappa * t) := by
    have : Real.exp (-p.kappa * t) < 1 := (Real.exp_lt_exp.2 (show -p.kappa * t < 0 by have := mul_pos hk ht; linarith)).trans_eq Real.exp_zero
    linarith
  positivity

/-- **C48**: the variance converges to its stationary value `θ γ² / (2κ)`. -/
theorem C48_variance_tendsto (p : Cir) (hk : 0 < p.kappa) :
    Tendsto p.variance atTop (𝓝 (p.theta * p.gamma ^ 2 / (2 * p.kappa))) := by
  have hd := tendsto_decay p.kappa hk
  have h1 := hd.const_sub 1
  have h := ((hd.const_mul (p.sigma0 * (p.gamma * p.gamma / p.kappa))).mul h1).add
    ((h1.const_mul (p.theta * (p.gamma * p.gamma / p.kappa * (1 / 2)))).mul h1)
  have e : p.sigma0 * (p.gamma * p.gamma / p.kappa) * 0 * (1 - 0) +
      p.theta * (p.gamma * p.gamma / p.kappa * (1 / 2)) * (1 - 0) * (1 - 0) =
      p.theta * p.gamma ^ 2 / (2 * p.kappa) := by field_simp; ring
  rw [e] at h
  refine h.congr' ?_
  filter_upwards [eventually_ge_atTop 0] with t ht
  exact (cir_variance_eq p ht).symm

/-- **C48**: a single step never leaves the half line, whatever the state, step and draw. -/
theorem C48_step_nonneg (p : Cir) (s dt z : ℝ) : 0 ≤ p.step s dt z := le_max_right _ _

/-- **C48**: no simulated path becomes negative, for all steps and draws. -/
theorem C48_path_nonneg (p : Cir) (s : ℝ) (hs : 0 ≤ s) (draws : List (ℝ × ℝ)) :
    (cirPath p s draws).length = draws.length + 1 ∧ ∀ x ∈ cirPath p s draws, 0 ≤ x := by
  induction draws generalizing s with
  | nil => exact ⟨rfl, fun x hx => by rw [cirPath, List.mem_singleton] at hx; exact hx ▸ hs⟩
  | cons q rest ih =>
    obtain ⟨dt, z⟩ := q
    obtain ⟨h1, h2⟩ := ih (p.step s dt z) (C48_step_nonneg p s dt z)
    refine ⟨by rw [cirPath]; simp [h1], fun x hx => ?_⟩
    rw [cirPath, List.mem_cons] at hx
    rcases hx with rfl | hx
    · exact hs
    · exact h2 x hx

/-- **C48**: where truncation does not bite the step is the Euler step of the process: drift
`κ(θ − σ)dt` and diffusion `γ√σ√dt z`. -/
theorem C48_step_euler (p : Cir) (s dt z : ℝ) (hs : 0 ≤ s)
    (h : 0 ≤ s + p.kappa * (p.theta - s) * dt + p.gamma * √s * √dt * z) :
    p.step s dt z = s + p.kappa * (p.theta - s) * dt + p.gamma * √s * √dt * z := by
  rw [Cir.step, max_eq_left hs, max_eq_left h]

/-- Example parameters: a typical variance process satisfying the Feller condition. -/
noncomputable def sampleCir : Cir := ⟨1, 1, 1, 2⟩

example : 0 < sampleCir.kappa ∧ 0 < sampleCir.theta ∧ sampleCir.gamma ≠ 0 ∧
    0 ≤ sampleCir.sigma0 ∧ sampleCir.feller := by
  refine ⟨by norm_num [sampleCir], by norm_num [sampleCir], by norm_num [sampleCir],
    by norm_num [sampleCir], ?_⟩
  show (1 : ℝ) * 1 ≤ 2 * 1 * 1
  norm_num

example : cirPath sampleCir 0 [(1, 1), (1, -10)] = [0, 1, 0] := by
  have h1 : sampleCir.step 0 1 1 = 1 := by norm_num [Cir.step, sampleCir]
  have h2 : sampleCir.step 1 1 (-10) = 0 := by norm_num [Cir.step, sampleCir]
  rw [cirPath, cirPath, cirPath, h1, h2]

example : (0 : ℝ) ≤ 1 + sampleCir.kappa * (sampleCir.theta - 1) * 1 +
    sampleCir.gamma * √1 * √1 * 1 := by norm_num [sampleCir]

/-! ### The mean of the square root -/

/-- `Γ(a + 1/2)/Γ(a) ≤ √a`. -/
theorem gamma_half_ratio (a : ℝ) (ha : 0 < a) :
    Real.Gamma (a + 1 / 2) / Real.Gamma a ≤ √a := by
  have h := Real.Gamma_mul_add_mul_le_rpow_Gamma_mul_rpow_Gamma (s := a) (t := a + 1)
    (a := 1 / 2) (b := 1 / 2) ha (by linarith) (by norm_num) (by norm_num) (by norm_num)
  have e : 1 / 2 * a + 1 / 2 * (a + 1) = a + 1 / 2 := by ring
  rw [e, Real.Gamma_add_one ha.ne', ← Real.sqrt_eq_rpow, ← Real.sqrt_eq_rpow,
    Real.sqrt_mul ha.le, ← mul_assoc, mul_comm (√(Real.Gamma a)), mul_assoc,
    Real.mul_self_sqrt (Real.Gamma_pos_of_pos ha).le] at h
  exact (div_le_iff₀ (Real.Gamma_pos_of_pos ha)).2 h

theorem exp_log_gamma (a b : ℝ) (ha : 0 < a) (hb : 0 < b) :
    Real.exp (Real.log (Real.Gamma b) - Real.log (Real.Gamma a)) =
      Real.Gamma b / Real.Gamma a := by
  rw [Real.exp_sub, Real.exp_log (Real.Gamma_pos_of_pos hb),
    Real.exp_log (Real.Gamma_pos_of_pos ha)]

theorem sqrtTerm_succ (x a b : ℝ) (ha : 0 < a) (hb : 0 < b) (k : ℕ) :
    sqrtTerm x a b k * (x * (b + k) / ((k + 1 : ℕ) * (a + k))) = sqrtTerm x a b (k + 1) := by
  have hak : (0 : ℝ) < a + k := by positivity
  have hbk : (0 : ℝ) < b + k := by positivity
  have hg := (Real.Gamma_pos_of_pos hak).ne'
  have hf : ((k.factorial : ℕ) : ℝ) ≠ 0 := by exact_mod_cast k.factorial_ne_zero
  have hk : ((k : ℝ) + 1) ≠ 0 := by positivity
  rw [sqrtTerm, sqrtTerm, Nat.factorial_succ]
  push_cast
  rw [← add_assoc, ← add_assoc, Real.Gamma_add_one hak.ne', Real.Gamma_add_one hbk.ne']
  field_simp
  ring

/-- The loop returns a partial sum of the series. -/
theorem sqrtMeanLoop_eq (tol x a b : ℝ) (ha : 0 < a) (hb : 0 < b) (fuel k : ℕ) :
    ∃ n, k + 1 ≤ n ∧ n ≤ k + 1 + fuel ∧
      sqrtMeanLoop tol x a b fuel k (sqrtTerm x a b k)
        (∑ i ∈ Finset.range (k + 1), sqrtTerm x a b i) =
      ∑ i ∈ Finset.range n, sqrtTerm x a b i := by
  induction fuel generalizing k with
  | zero => exact ⟨k + 1, le_rfl, le_rfl, rfl⟩
  | succ fuel ih =>
    rw [sqrtMeanLoop]
    simp only [sqrtTerm_succ x a b ha hb k, ← Finset.sum_range_succ]
    by_cases h : |sqrtTerm x a b (k + 1)| ≤
        tol * |∑ i ∈ Finset.range (k + 1 + 1), sqrtTerm x a b i| ∨ 2000 < k + 1
    · rw [if_pos h]
      exact ⟨k + 1 + 1, by omega, by omega, rfl⟩
    · rw [if_neg h]
      obtain ⟨n, h1, h2, h3⟩ := ih (k + 1)
      exact ⟨n, by omega, by omega, h3⟩

/-- The branch of `sqrt_mean_tol` that sums the series is taken. -/
def Cir.SeriesBranch (p : Cir) (t : ℝ) : Prop :=
  4 * p.kappa * p.sigma0 * Real.exp (-p.kappa * t) /
    (p.gamma * p.gamma * (1 - Real.exp (-p.kappa * t))) ≤ 500

theorem sqrtMeanTol_series (p : Cir) (t tol : ℝ) (ht : 0 < t) (hk : 0 < p.kappa)
    (hg : 1 / 10 ^ 14 ≤ |p.gamma|) (hb : p.SeriesBranch t) :
    p.sqrtMeanTol t tol = .ok
      (√(2 * (p.gamma * p.gamma * (1 - Real.exp (-p.kappa * t)) / (4 * p.kappa))) *
        Real.exp (-(1 / 2) * (4 * p.kappa * p.sigma0 * Real.exp (-p.kappa * t) /
          (p.gamma * p.gamma * (1 - Real.exp (-p.kappa * t))))) *
        sqrtMeanLoop tol (1 / 2 * (4 * p.kappa * p.sigma0 * Real.exp (-p.kappa * t) /
            (p.gamma * p.gamma * (1 - Real.exp (-p.kappa * t)))))
          (1 / 2 * (4 * p.kappa * p.theta / (p.gamma * p.gamma)))
          (1 / 2 * (4 * p.kappa * p.theta / (p.gamma * p.gamma) + 1)) 2001 0
          (Real.exp (Real.log (Real.Gamma (1 / 2 * (4 * p.kappa * p.theta / (p.gamma * p.gamma) + 1))) -
            Real.log (Real.Gamma (1 / 2 * (4 * p.kappa * p.theta / (p.gamma * p.gamma))))))
          (Real.exp (Real.log (Real.Gamma (1 / 2 * (4 * p.kappa * p.theta / (p.gamma * p.gamma) + 1))) -
            Real.log (Real.Gamma (1 / 2 * (4 * p.kappa * p.theta / (p.gamma * p.gamma))))))) := by
  rw [Cir.sqrtMeanTol, if_neg (not_le.2 ht), if_neg (not_le.2 hk), if_neg (not_lt.2 hg)]
  simp only []
  rw [if_neg (not_lt.2 hb)]

/-- **C48**: in the series branch `sqrt_mean_tol` returns the scaled partial sum
`√(2c) e^{−ε/2} Σ_{k<n} (ε/2)^k/k! · Γ((ℓ+1)/2+k)/Γ(ℓ/2+k)` with at least two and at most 2002
terms, for every tolerance. -/
theorem C48_sqrt_mean_series (p : Cir) (t tol : ℝ) (ht : 0 < t) (hk : 0 < p.kappa)
    (hθ : 0 < p.theta) (hg : 1 / 10 ^ 14 ≤ |p.gamma|) (hb : p.SeriesBranch t) :
    ∃ n, 1 ≤ n ∧ n ≤ 2002 ∧ p.sqrtMeanTol t tol = .ok
      (√(p.gamma ^ 2 * (1 - Real.exp (-p.kappa * t)) / (2 * p.kappa)) *
        Real.exp (-(2 * p.kappa * p.sigma0 * Real.exp (-p.kappa * t) /
          (p.gamma ^ 2 * (1 - Real.exp (-p.kappa * t))))) *
        ∑ i ∈ Finset.range n, sqrtTerm (2 * p.kappa * p.sigma0 * Real.exp (-p.kappa * t) /
          (p.gamma ^ 2 * (1 - Real.exp (-p.kappa * t))))
          (2 * p.kappa * p.theta / p.gamma ^ 2) (2 * p.kappa * p.theta / p.gamma ^ 2 + 1 / 2) i) := by
  have hg0 : p.gamma ≠ 0 := by
    intro h; rw [h, abs_zero] at hg; norm_num at hg
  have hg2 : 0 < p.gamma ^ 2 := by positivity
  have ea : 1 / 2 * (4 * p.kappa * p.theta / (p.gamma * p.gamma)) =
      2 * p.kappa * p.theta / p.gamma ^ 2 := by ring
  have eb : 1 / 2 * (4 * p.kappa * p.theta / (p.gamma * p.gamma) + 1) =
      2 * p.kappa * p.theta / p.gamma ^ 2 + 1 / 2 := by ring
  have ex : 1 / 2 * (4 * p.kappa * p.sigma0 * Real.exp (-p.kappa * t) /
      (p.gamma * p.gamma * (1 - Real.exp (-p.kappa * t)))) =
      2 * p.kappa * p.sigma0 * Real.exp (-p.kappa * t) /
          (p.gamma ^ 2 * (1 - Real.exp (-p.kappa * t))) := by rw [sq]; ring
  have ec : 2 * (p.gamma * p.gamma * (1 - Real.exp (-p.kappa * t)) / (4 * p.kappa)) =
      p.gamma ^ 2 * (1 - Real.exp (-p.kappa * t)) / (2 * p.kappa) := by
    rw [sq]; field_simp; ring
  have ha : 0 < 2 * p.kappa * p.theta / p.gamma ^ 2 := by positivity
  rw [sqrtMeanTol_series p t tol ht hk hg hb, ea, eb, neg_mul (1 / 2 : ℝ), ex, ec,
    exp_log_gamma _ _ ha (by linarith)]
  set x := 2 * p.kappa * p.sigma0 * Real.exp (-p.kappa * t) /
          (p.gamma ^ 2 * (1 - Real.exp (-p.kappa * t)))
  set a := 2 * p.kappa * p.theta / p.gamma ^ 2
  obtain ⟨n, h1, h2, h3⟩ := sqrtMeanLoop_eq tol x a (a + 1 / 2) ha (by linarith) 2001 0
  have e0 : sqrtTerm x a (a + 1 / 2) 0 = Real.Gamma (a + 1 / 2) / Real.Gamma a := by
    simp [sqrtTerm]
  rw [zero_add, Finset.sum_range_one, e0] at h3
  exact ⟨n, h1, by omega, by rw [h3]⟩

/-- Jensen's inequality for a truncated Poisson weighting. -/
theorem poisson_sqrt_le (x a : ℝ) (hx : 0 ≤ x) (ha : 0 < a) (n : ℕ) :
    ∑ i ∈ Finset.range n, x ^ i / i.factorial * √(a + i) ≤ Real.exp x * √(a + x) := by
  have h0 : ∀ m, ∑ i ∈ Finset.range m, x ^ i / i.factorial ≤ Real.exp x := fun m =>
    Real.sum_le_exp_of_nonneg hx m
  have h1 : ∑ i ∈ Finset.range n, x ^ i / i.factorial * (a + i) ≤ Real.exp x * (a + x) := by
    have e : ∀ m, ∑ i ∈ Finset.range (m + 1), x ^ i / (i.factorial : ℝ) * (i : ℝ) =
        x * ∑ i ∈ Finset.range m, x ^ i / (i.factorial : ℝ) := by
      intro m
      rw [Finset.sum_range_succ', Finset.mul_sum]
      simp only [Nat.cast_zero, mul_zero, add_zero]
      refine Finset.sum_congr rfl fun i _ => ?_
      rw [Nat.factorial_succ]
      have hf : ((i.factorial : ℕ) : ℝ) ≠ 0 := by exact_mod_cast i.factorial_ne_zero
      have hk : ((i : ℝ) + 1) ≠ 0 := by positivity
      push_cast
      field_simp
      ring
    have h2 : ∑ i ∈ Finset.range n, x ^ i / (i.factorial : ℝ) * (i : ℝ) ≤ Real.exp x * x := by
      rcases n with _ | m
      · simp only [Finset.range_zero, Finset.sum_empty]; have := Real.exp_pos x; positivity
      · rw [e m, mul_comm]; exact mul_le_mul_of_nonneg_right (h0 m) hx
    calc ∑ i ∈ Finset.range n, x ^ i / (i.factorial : ℝ) * (a + i)
        = a * ∑ i ∈ Finset.range n, x ^ i / (i.factorial : ℝ) +
          ∑ i ∈ Finset.range n, x ^ i / (i.factorial : ℝ) * (i : ℝ) := by
            rw [Finset.mul_sum, ← Finset.sum_add_distrib]
            exact Finset.sum_congr rfl fun i _ => by ring
      _ ≤ a * Real.exp x + Real.exp x * x :=
          add_le_add (mul_le_mul_of_nonneg_left (h0 n) ha.le) h2
      _ = _ := by ring
  have hw : ∀ i ∈ Finset.range n, 0 ≤ x ^ i / (i.factorial : ℝ) := fun i _ => by positivity
  have cs := Finset.sum_mul_sq_le_sq_mul_sq (Finset.range n)
    (fun i => √(x ^ i / (i.factorial : ℝ))) (fun i => √(x ^ i / (i.factorial : ℝ)) * √(a + i))
  have l1 : ∀ i ∈ Finset.range n, √(x ^ i / (i.factorial : ℝ)) *
      (√(x ^ i / (i.factorial : ℝ)) * √(a + i)) = x ^ i / (i.factorial : ℝ) * √(a + i) := by
    intro i hi
    rw [← mul_assoc, Real.mul_self_sqrt (hw i hi)]
  have l2 : ∀ i ∈ Finset.range n, √(x ^ i / (i.factorial : ℝ)) ^ 2 = x ^ i / (i.factorial : ℝ) :=
    fun i hi => Real.sq_sqrt (hw i hi)
  have l3 : ∀ i ∈ Finset.range n, (√(x ^ i / (i.factorial : ℝ)) * √(a + i)) ^ 2 =
      x ^ i / (i.factorial : ℝ) * (a + i) := by
    intro i hi
    rw [mul_pow, Real.sq_sqrt (hw i hi), Real.sq_sqrt (by positivity)]
  rw [Finset.sum_congr rfl l1, Finset.sum_congr rfl l2, Finset.sum_congr rfl l3] at cs
  refine (sq_le_sq₀ (Finset.sum_nonneg fun i hi => mul_nonneg (hw i hi) (Real.sqrt_nonneg _))
    (by positivity)).1 ?_
  calc _ ≤ _ := cs
    _ ≤ Real.exp x * (Real.exp x * (a + x)) :=
        mul_le_mul (h0 n) h1 (Finset.sum_nonneg fun i hi => mul_nonneg (hw i hi) (by positivity))
          (Real.exp_pos x).le
    _ = (Real.exp x * √(a + x)) ^ 2 := by
        rw [mul_pow, Real.sq_sqrt (by positivity)]; ring

/-- **C48**: the computed mean of the square root lies between zero and the square root of the
mean (Jensen's bound), for every tolerance, in the series branch. -/
theorem C48_sqrt_mean_le (p : Cir) (t tol : ℝ) (ht : 0 < t) (hk : 0 < p.kappa)
    (hθ : 0 < p.theta) (hs : 0 ≤ p.sigma0) (hg : 1 / 10 ^ 14 ≤ |p.gamma|)
    (hb : p.SeriesBranch t) :
    ∃ v, p.sqrtMeanTol t tol = .ok v ∧ 0 < v ∧ v ≤ √(p.mean t) := by
  obtain ⟨n, hn, _, h⟩ := C48_sqrt_mean_series p t tol ht hk hθ hg hb
  refine ⟨_, h, ?_, ?_⟩ <;> clear h
  all_goals
    have hg0 : p.gamma ≠ 0 := by
      intro h; rw [h, abs_zero] at hg; norm_num at hg
    have hg2 : 0 < p.gamma ^ 2 := by positivity
    have h1 : 0 < 1 - Real.exp (-p.kappa * t) := by
      have : Real.exp (-p.kappa * t) < 1 := (Real.exp_lt_exp.2 (show -p.kappa * t < 0 by have := mul_pos hk ht; linarith)).trans_eq Real.exp_zero
      linarith
    have hd := Real.exp_pos (-p.kappa * t)
    have ha : 0 < 2 * p.kappa * p.theta / p.gamma ^ 2 := by positivity
    have hx : 0 ≤ 2 * p.kappa * p.sigma0 * Real.exp (-p.kappa * t) /
      (p.gamma ^ 2 * (1 - Real.exp (-p.kappa * t))) := by positivity
    have hm : p.mean t = p.gamma ^ 2 * (1 - Real.exp (-p.kappa * t)) / (2 * p.kappa) *
        (2 * p.kappa * p.theta / p.gamma ^ 2 + 2 * p.kappa * p.sigma0 * Real.exp (-p.kappa * t) /
          (p.gamma ^ 2 * (1 - Real.exp (-p.kappa * t)))) := by
      rw [cir_mean_eq p ht.le]
      have h1' := h1.ne'
      generalize Real.exp (-p.kappa * t) = d at *
      field_simp
      ring
    set x := 2 * p.kappa * p.sigma0 * Real.exp (-p.kappa * t) /
      (p.gamma ^ 2 * (1 - Real.exp (-p.kappa * t)))
    set a := 2 * p.kappa * p.theta / p.gamma ^ 2
    set c := p.gamma ^ 2 * (1 - Real.exp (-p.kappa * t)) / (2 * p.kappa)
    have hc : 0 < c := by positivity
    have hpos : ∀ i : ℕ, 0 ≤ sqrtTerm x a (a + 1 / 2) i := by
      intro i
      have h2 : 0 < Real.Gamma (a + i) := Real.Gamma_pos_of_pos (by positivity)
      have h3 : 0 < Real.Gamma (a + 1 / 2 + i) := Real.Gamma_pos_of_pos (by positivity)
      rw [sqrtTerm]; positivity
  · have h0 : 0 < sqrtTerm x a (a + 1 / 2) 0 := by
      have h2 : 0 < Real.Gamma a := Real.Gamma_pos_of_pos ha
      have h3 : 0 < Real.Gamma (a + 1 / 2) := Real.Gamma_pos_of_pos (by positivity)
      simp only [sqrtTerm, pow_zero, Nat.factorial_zero, Nat.cast_one, Nat.cast_zero, add_zero]
      positivity
    have hsum : 0 < ∑ i ∈ Finset.range n, sqrtTerm x a (a + 1 / 2) i :=
      lt_of_lt_of_le h0 (Finset.single_le_sum (f := fun i => sqrtTerm x a (a + 1 / 2) i)
        (fun i _ => hpos i) (Finset.mem_range.2 hn))
    exact mul_pos (mul_pos (Real.sqrt_pos.2 hc) (Real.exp_pos _)) hsum
  · have hle : ∑ i ∈ Finset.range n, sqrtTerm x a (a + 1 / 2) i ≤
        ∑ i ∈ Finset.range n, x ^ i / i.factorial * √(a + i) := by
      refine Finset.sum_le_sum fun i _ => ?_
      rw [sqrtTerm]
      refine mul_le_mul_of_nonneg_left ?_ (by positivity)
      have e : a + 1 / 2 + (i : ℝ) = a + i + 1 / 2 := by ring
      rw [e]
      exact gamma_half_ratio _ (by positivity)
    rw [hm, Real.sqrt_mul hc.le, mul_assoc]
    refine mul_le_mul_of_nonneg_left ?_ (Real.sqrt_nonneg _)
    calc _ ≤ Real.exp (-x) * (Real.exp x * √(a + x)) :=
          mul_le_mul_of_nonneg_left (hle.trans (poisson_sqrt_le x a hx ha n)) (Real.exp_pos _).le
      _ = √(a + x) := by rw [← mul_assoc, ← Real.exp_add]; simp

/-- The example parameters take the series branch at `t = log 2`, where `ε = 8`. -/
example : (1 : ℝ) / 10 ^ 14 ≤ |sampleCir.gamma| ∧ sampleCir.SeriesBranch (Real.log 2) ∧
    0 < Real.log 2 := by
  have hl : Real.exp (-Real.log 2) = 1 / 2 := by
    rw [Real.exp_neg, Real.exp_log (by norm_num)]; norm_num
  refine ⟨by norm_num [sampleCir], ?_, Real.log_pos (by norm_num)⟩
  rw [Cir.SeriesBranch]; norm_num [sampleCir, hl]

/-- The small-time branch of `sqrt_mean_tol` is taken. -/
theorem sqrtMeanTol_small (p : Cir) (t tol : ℝ) (ht : 0 < t) (hk : 0 < p.kappa)
    (hg : 1 / 10 ^ 14 ≤ |p.gamma|) (hb : ¬ p.SeriesBranch t) :
    p.sqrtMeanTol t tol = .ok (√(max (max (p.mean t) (1 / 10 ^ 300) *
      (1 - p.variance t / (8 * max (p.mean t) (1 / 10 ^ 300) * max (p.mean t) (1 / 10 ^ 300)))) 0)) := by
  rw [Cir.sqrtMeanTol, if_neg (not_le.2 ht), if_neg (not_le.2 hk), if_neg (not_lt.2 hg)]
  simp only []
  rw [if_pos (not_le.1 hb)]

/-- **C48** (the small-time branch does not compute what its comment states): whenever that
branch is taken with a mean of at least `1e-300`, positive variance and a correction below one,
the result exceeds the documented expansion `√μ (1 − Var/(8μ²))`: the correction is applied
under the root, which halves it. -/
theorem C48_sqrt_mean_small_time_false (p : Cir) (t tol : ℝ) (ht : 0 < t) (hk : 0 < p.kappa)
    (hg : 1 / 10 ^ 14 ≤ |p.gamma|) (hb : ¬ p.SeriesBranch t) (hm : 1 / 10 ^ 300 ≤ p.mean t)
    (hv : 0 < p.variance t) (hq : p.variance t < 8 * p.mean t ^ 2) :
    ∃ v, p.sqrtMeanTol t tol = .ok v ∧ sqrtTaylor (p.mean t) (p.variance t) < v ∧
      v = √(p.mean t) * √(1 - p.variance t / (8 * p.mean t ^ 2)) := by
  rw [sqrtMeanTol_small p t tol ht hk hg hb, max_eq_left hm]
  have hm0 : 0 < p.mean t := lt_of_lt_of_le (by positivity) hm
  generalize p.mean t = m at *
  generalize p.variance t = v at *
  have e8 : 8 * m * m = 8 * m ^ 2 := by ring
  have hq1 : v / (8 * m ^ 2) < 1 := (div_lt_one (by positivity)).2 hq
  have hq0 : 0 < v / (8 * m ^ 2) := by positivity
  have hval : √(max (m * (1 - v / (8 * m * m))) 0) = √m * √(1 - v / (8 * m ^ 2)) := by
    rw [e8, max_eq_left (mul_nonneg hm0.le (by linarith)), Real.sqrt_mul hm0.le]
  refine ⟨_, rfl, ?_, hval⟩
  rw [hval, sqrtTaylor]
  refine mul_lt_mul_of_pos_left ?_ (Real.sqrt_pos.2 hm0)
  generalize v / (8 * m ^ 2) = q at *
  apply Real.lt_sqrt_of_sq_lt
  nlinarith

/-- Such parameters exist: `κ = θ = γ = 1`, `σ₀ = 1000` at `t = log 2`, where `ε = 4000`. -/
example : ∃ p : Cir, ∃ t : ℝ, 0 < t ∧ 0 < p.kappa ∧ 1 / 10 ^ 14 ≤ |p.gamma| ∧
    ¬ p.SeriesBranch t ∧ 1 / 10 ^ 300 ≤ p.mean t ∧ 0 < p.variance t ∧
    p.variance t < 8 * p.mean t ^ 2 := by
  have hl : Real.exp (-Real.log 2) = 1 / 2 := by rw [Real.exp_neg, Real.exp_log (by norm_num)]; norm_num
  have h2 : (0 : ℝ) < Real.log 2 := Real.log_pos (by norm_num)
  have em : (⟨1, 1, 1, 1000⟩ : Cir).mean (Real.log 2) = 1001 / 2 := by
    rw [cir_mean_eq _ h2.le]; norm_num [hl]
  have ev : (⟨1, 1, 1, 1000⟩ : Cir).variance (Real.log 2) = 250 + 1 / 8 := by
    rw [cir_variance_eq _ h2.le]; norm_num [hl]
  refine ⟨⟨1, 1, 1, 1000⟩, Real.log 2, h2, by norm_num, by norm_num, ?_, ?_, ?_, ?_⟩
  · rw [Cir.SeriesBranch]; norm_num [hl]
  · rw [em]
    refine le_trans (b := 1) ?_ (by norm_num)
    rw [div_le_one (by positivity)]
    exact one_le_pow₀ (by norm_num)
  · rw [ev]; norm_num
  · rw [ev, em]; norm_num

/-- **C48**: degenerate cases: at or before time zero the answer is `√max(σ₀,0)`, and with a
negligible volatility of variance it is the root of the mean. -/
theorem C48_sqrt_mean_degenerate (p : Cir) (t tol : ℝ) :
    (t ≤ 0 → p.sqrtMeanTol t tol = .ok (√(max p.sigma0 0))) ∧
    (0 < t → 0 < p.kappa → |p.gamma| < 1 / 10 ^ 14 →
      p.sqrtMeanTol t tol = .ok (√(max (p.mean t) 0))) := by
  refine ⟨fun h => by rw [Cir.sqrtMeanTol, if_pos h], fun h1 h2 h3 => ?_⟩
  rw [Cir.sqrtMeanTol, if_neg (not_le.2 h1), if_neg (not_le.2 h2), if_pos h3]

/-- **C48**: the long-run limit of the square root's mean is positive and at most `√θ`. -/
theorem C48_sqrt_mean_infinity (p : Cir) (hk : 0 < p.kappa) (hθ : 0 < p.theta)
    (hg : 0 < p.gamma) :
    ∃ v, p.sqrtMeanInfinity = .ok v ∧ 0 < v ∧ v ≤ √p.theta := by
  rw [Cir.sqrtMeanInfinity, if_neg (not_le.2 hk), if_neg (not_le.2 hg)]
  have ea : 1 / 2 * (4 * p.kappa * p.theta / (p.gamma * p.gamma)) =
      2 * p.kappa * p.theta / p.gamma ^ 2 := by ring
  have eb : 1 / 2 * (4 * p.kappa * p.theta / (p.gamma * p.gamma) + 1) =
      2 * p.kappa * p.theta / p.gamma ^ 2 + 1 / 2 := by ring
  have ha : 0 < 2 * p.kappa * p.theta / p.gamma ^ 2 := by positivity
  refine ⟨_, rfl, by positivity, ?_⟩
  rw [ea, eb, exp_log_gamma _ _ ha (by linarith)]
  have h := mul_le_mul_of_nonneg_left (gamma_half_ratio _ ha)
    (show 0 ≤ p.gamma / √(2 * p.kappa) by positivity)
  refine h.trans (le_of_eq ?_)
  have h2 := Real.sqrt_pos.2 (show 0 < 2 * p.kappa by positivity)
  rw [Real.sqrt_div (by positivity), Real.sqrt_mul (x := 2 * p.kappa) (by positivity),
    Real.sqrt_sq hg.le]
  generalize √(2 * p.kappa) = s at *
  field_simp

/-- **C48**: the exponential proxy starts at `√σ₀`, tends to the long-run value and stays
between the two. -/
theorem C48_proxy (p : Cir) (hk : 0 < p.kappa) (hg : 0 < p.gamma) (hs : 0 ≤ p.sigma0) :
    ∃ q b, p.sqrtMeanProxy = .ok q ∧ p.sqrtMeanInfinity = .ok b ∧ q.eval 0 = √p.sigma0 ∧
      Tendsto q.eval atTop (𝓝 b) ∧
      ∀ t, 0 ≤ t → min (√p.sigma0) b ≤ q.eval t ∧ q.eval t ≤ max (√p.sigma0) b := by
  obtain ⟨b, hb⟩ : ∃ b, p.sqrtMeanInfinity = .ok b := by
    rw [Cir.sqrtMeanInfinity, if_neg (not_le.2 hk), if_neg (not_le.2 hg)]; exact ⟨_, rfl⟩
  refine ⟨⟨b, √p.sigma0 - b, p.kappa⟩, b, ?_, hb, ?_, ?_, ?_⟩
  · rw [Cir.sqrtMeanProxy, hb, max_eq_left hs]; rfl
  · simp [SqrtMeanProxy.eval]
  · have h := ((tendsto_decay p.kappa hk).const_mul (√p.sigma0 - b)).const_add b
    rw [mul_zero, add_zero] at h
    exact h
  · intro t ht
    obtain ⟨h0, h1⟩ := exp_neg_mem p.kappa t hk ht
    rw [SqrtMeanProxy.eval]
    set d := Real.exp (-p.kappa * t)
    have a1 := min_le_left (√p.sigma0) b
    have a2 := min_le_right (√p.sigma0) b
    have b1 := le_max_left (√p.sigma0) b
    have b2 := le_max_right (√p.sigma0) b
    constructor <;> nlinarith

end Verif
