import Verif.Spec.ShortRate
import Mathlib.MeasureTheory.Integral.IntervalIntegral.FundThmCalculus
import Mathlib.Analysis.SpecialFunctions.Exp
import Mathlib.Analysis.SpecialFunctions.ExpDeriv
import Mathlib.Tactic.Positivity
import Mathlib.Tactic.FieldSimp
import Mathlib.Tactic.Linarith

/-!
# C49: Hull-White building blocks

The code switches to the `λ → 0` formulas when `|λ| < 1e-12`.  The exact identities below hold
for `λ = 0` and for `|λ| ≥ 1e-12` (`h.Exact`); for the remaining values `C49_kernel_false` shows the identity fails.
-/

namespace Verif

open Classical MeasureTheory intervalIntegral

/-- The mean reversion is zero or above the switch-over threshold. -/
def HullWhite.Exact (h : HullWhite) : Prop := h.lambda = 0 ∨ 1 / 10 ^ 12 ≤ |h.lambda|

theorem HullWhite.b_zero (h : HullWhite) (h0 : h.lambda = 0) (t T : ℝ) : h.b t T = -(T - t) := by
  rw [HullWhite.b, if_pos (by rw [h0, abs_zero]; positivity)]

theorem HullWhite.b_ne (h : HullWhite) (h0 : 1 / 10 ^ 12 ≤ |h.lambda|) (t T : ℝ) :
    h.b t T = (Real.exp (-h.lambda * (T - t)) - 1) / h.lambda := by
  rw [HullWhite.b, if_neg (not_lt.2 h0)]

theorem ne_of_threshold {l : ℝ} (h : 1 / 10 ^ 12 ≤ |l|) : l ≠ 0 := by
  intro h0; rw [h0, abs_zero] at h; norm_num at h

theorem integral_exp_affine (c t T s : ℝ) (hc : c ≠ 0) :
    ∫ u in t..T, Real.exp (c * (u - s)) =
      (Real.exp (c * (T - s)) - Real.exp (c * (t - s))) / c := by
  have hd : ∀ x ∈ Set.uIcc t T, HasDerivAt (fun u => Real.exp (c * (u - s)) / c)
      (Real.exp (c * (x - s))) x := by
    intro x _
    have h := ((((hasDerivAt_id x).sub_const s).const_mul c).exp).div_const c
    refine h.congr_deriv ?_
    simp; field_simp
  rw [integral_eq_sub_of_hasDerivAt hd]
  · ring
  · exact (by fun_prop : Continuous fun u => Real.exp (c * (u - s))).intervalIntegrable _ _

/-- **C49**: `b(T,T) = 0`. -/
theorem C49_b_self (h : HullWhite) (T : ℝ) : h.b T T = 0 := by
  rw [HullWhite.b]; simp

/-- **C49**: `b(t,T)` is minus the integral of the mean-reversion kernel `e^{−λ(u−t)}`. -/
theorem C49_b_integral (h : HullWhite) (hx : h.Exact) (t T : ℝ) :
    h.b t T = hwLoading h.lambda t T := by
  rcases hx with h0 | h0
  · rw [h.b_zero h0, hwLoading, h0]
    simp [hwDecay]
  · have hl := ne_of_threshold h0
    rw [h.b_ne h0, hwLoading]
    unfold hwDecay
    rw [integral_exp_affine _ _ _ _ (neg_ne_zero.2 hl)]
    simp only [sub_self, mul_zero, Real.exp_zero]
    field_simp

/-- **C49**: the loadings compose like a mean-reverting kernel: what accrues to `s`, plus what
accrues from `s` on discounted by the decay to `s`. -/
theorem C49_b_compose (h : HullWhite) (hx : h.Exact) (t s T : ℝ) :
    h.b t T = h.b t s + hwDecay h.lambda t s * h.b s T := by
  rcases hx with h0 | h0
  · rw [h.b_zero h0, h.b_zero h0, h.b_zero h0, hwDecay, h0]; simp
  · have hl := ne_of_threshold h0
    rw [h.b_ne h0, h.b_ne h0, h.b_ne h0, hwDecay]
    have e : Real.exp (-h.lambda * (T - t)) =
        Real.exp (-h.lambda * (s - t)) * Real.exp (-h.lambda * (T - s)) := by
      rw [← Real.exp_add]; congr 1; ring
    rw [e]; field_simp; ring

/-- Between zero and the threshold the code's loading is `−(T−t)` although the kernel integral is
not, so the exact identity fails there. -/
theorem C49_kernel_false : ∃ h : HullWhite, ∃ t T : ℝ, h.b t T ≠ hwLoading h.lambda t T := by
  refine ⟨⟨1 / 10 ^ 13, 1⟩, 0, 10 ^ 13, ?_⟩
  rw [HullWhite.b, if_pos (by norm_num), hwLoading]
  unfold hwDecay
  rw [integral_exp_affine _ _ _ _ (by norm_num)]
  have hp := Real.exp_pos (-1)
  norm_num
  intro he
  nlinarith

/-- **C49**: `b` never is positive when the bond matures later, for every mean reversion. -/
theorem C49_b_sign (h : HullWhite) (t T : ℝ) (hT : t ≤ T) : h.b t T ≤ 0 := by
  rw [HullWhite.b]
  by_cases h0 : |h.lambda| < 1 / 10 ^ 12
  · rw [if_pos h0]; linarith
  · rw [if_neg h0]
    have hl := ne_of_threshold (not_lt.1 h0)
    rcases lt_or_gt_of_ne hl with hn | hp
    · refine div_nonpos_of_nonneg_of_nonpos ?_ hn.le
      have := Real.one_le_exp (x := -h.lambda * (T - t)) (by nlinarith)
      linarith
    · refine div_nonpos_of_nonpos_of_nonneg ?_ hp.le
      have := Real.exp_le_one_iff.2 (show -h.lambda * (T - t) ≤ 0 by nlinarith)
      linarith

/-- **C49**: the short-rate variance is the integral of the squared volatility kernel. -/
theorem C49_short_rate_variance (h : HullWhite) (hx : h.Exact) (t1 t2 : ℝ) (ht : t1 ≤ t2) :
    h.shortRateVariance t1 t2 = ∫ u in t1..t2, (h.sigma * hwDecay h.lambda u t2) ^ 2 := by
  rw [HullWhite.shortRateVariance]
  by_cases h1 : t2 - t1 ≤ 0
  · have : t1 = t2 := by linarith
    subst this
    rw [if_pos h1]; simp
  · rw [if_neg h1]
    rcases hx with h0 | h0
    · rw [if_pos (by rw [h0, abs_zero]; positivity)]
      simp only [hwDecay, h0, neg_zero, zero_mul, Real.exp_zero, mul_one]
      rw [intervalIntegral.integral_const, smul_eq_mul]; ring
    · have hl := ne_of_threshold h0
      rw [if_neg (not_lt.2 h0)]
      have e : ∀ u : ℝ, (h.sigma * hwDecay h.lambda u t2) ^ 2 =
          h.sigma ^ 2 * Real.exp (2 * h.lambda * (u - t2)) := by
        intro u
        rw [hwDecay, mul_pow, ← Real.exp_nat_mul]
        congr 2; push_cast; ring
      simp only [e]
      rw [intervalIntegral.integral_const_mul, integral_exp_affine _ _ _ _ (by simpa using hl)]
      have e2 : 2 * h.lambda * (t1 - t2) = -(2 * h.lambda) * (t2 - t1) := by ring
      rw [e2, sub_self, mul_zero, Real.exp_zero]
      field_simp

/-- **C49**: the short-rate variance is never negative, for every mean reversion and all times. -/
theorem C49_short_rate_variance_nonneg (h : HullWhite) (t1 t2 : ℝ) :
    0 ≤ h.shortRateVariance t1 t2 := by
  by_cases hx : h.Exact
  · by_cases ht : t1 ≤ t2
    · rw [C49_short_rate_variance h hx t1 t2 ht]
      exact intervalIntegral.integral_nonneg ht fun u _ => sq_nonneg _
    · rw [HullWhite.shortRateVariance, if_pos (by linarith)]
  · rw [HullWhite.Exact, not_or, not_le] at hx
    rw [HullWhite.shortRateVariance]
    by_cases h1 : t2 - t1 ≤ 0
    · rw [if_pos h1]
    · rw [if_neg h1, if_pos hx.2]
      exact mul_nonneg (mul_self_nonneg _) (not_le.1 h1).le

/-- **C49**: independent increments: the variance to `t3` is the decayed variance to `t2` plus
the variance from `t2` to `t3`. -/
theorem C49_short_rate_variance_compose (h : HullWhite) (hx : h.Exact) (t1 t2 t3 : ℝ)
    (h12 : t1 ≤ t2) (h23 : t2 ≤ t3) :
    h.shortRateVariance t1 t3 =
      hwDecay h.lambda t2 t3 ^ 2 * h.shortRateVariance t1 t2 + h.shortRateVariance t2 t3 := by
  have hint : ∀ a b c : ℝ, IntervalIntegrable
      (fun u => (h.sigma * hwDecay h.lambda u c) ^ 2) volume a b := by
    intro a b c
    unfold hwDecay
    exact (by fun_prop : Continuous fun u =>
      (h.sigma * Real.exp (-h.lambda * (c - u))) ^ 2).intervalIntegrable _ _
  rw [C49_short_rate_variance h hx _ _ (h12.trans h23), C49_short_rate_variance h hx _ _ h12,
    C49_short_rate_variance h hx _ _ h23,
    ← intervalIntegral.integral_add_adjacent_intervals (hint t1 t2 t3) (hint t2 t3 t3),
    ← intervalIntegral.integral_const_mul]
  congr 1
  refine intervalIntegral.integral_congr fun u _ => ?_
  simp only [hwDecay]
  have e : Real.exp (-h.lambda * (t3 - u)) =
      Real.exp (-h.lambda * (t3 - t2)) * Real.exp (-h.lambda * (t2 - u)) := by
    rw [← Real.exp_add]; congr 1; ring
  rw [e]; ring

/-- The integrand whose antiderivative `tau_fn` really is. -/
noncomputable def HullWhite.tauIntegrand (h : HullWhite) (T s : ℝ) : ℝ :=
  if |h.lambda| < 1 / 10 ^ 12 then h.b s T ^ 2
  else h.b s T ^ 2 + 2 * hwDecay h.lambda s T * (2 - hwDecay h.lambda s T) / h.lambda ^ 2

theorem HullWhite.tauFn_deriv (h : HullWhite) (T s : ℝ) :
    HasDerivAt (h.tauFn T) (h.tauIntegrand T s) s := by
  by_cases h0 : |h.lambda| < 1 / 10 ^ 12
  · have e : h.tauFn T = fun s => -((T - s) ^ 3) / 3 := by
      funext s; rw [HullWhite.tauFn, if_pos h0]
    rw [e, HullWhite.tauIntegrand, if_pos h0, HullWhite.b, if_pos h0]
    have hd := ((((hasDerivAt_id s).const_sub T).pow 3).neg).div_const 3
    refine hd.congr_deriv ?_
    simp; ring
  · have hl := ne_of_threshold (not_lt.1 h0)
    have e : h.tauFn T = fun s => 1 / (h.lambda * h.lambda) *
        (-(1 / 2) / h.lambda * Real.exp (-2 * h.lambda * (T - s)) +
          2 / h.lambda * Real.exp (-h.lambda * (T - s)) + s) := by
      funext s; rw [HullWhite.tauFn, if_neg h0]
    rw [e, HullWhite.tauIntegrand, if_neg h0, HullWhite.b, if_neg h0, hwDecay]
    have hi := (hasDerivAt_id s).const_sub T
    have hd := ((((hi.const_mul (-2 * h.lambda)).exp.const_mul (-(1 / 2) / h.lambda)).add
      ((hi.const_mul (-h.lambda)).exp.const_mul (2 / h.lambda))).add (hasDerivAt_id s)).const_mul
        (1 / (h.lambda * h.lambda))
    refine hd.congr_deriv ?_
    have e2 : Real.exp (-2 * h.lambda * (T - s)) = Real.exp (-h.lambda * (T - s)) ^ 2 := by
      rw [← Real.exp_nat_mul]; congr 1; push_cast; ring
    simp only [id, e2]
    generalize Real.exp (-h.lambda * (T - s)) = x
    field_simp
    ring

theorem HullWhite.b_continuous (h : HullWhite) (T : ℝ) : Continuous fun s => h.b s T := by
  unfold HullWhite.b
  by_cases h0 : |h.lambda| < 1 / 10 ^ 12
  · simp only [if_pos h0]; fun_prop
  · simp only [if_neg h0]; fun_prop

theorem hwDecay_continuous (l T : ℝ) : Continuous fun s => hwDecay l s T := by
  unfold hwDecay; fun_prop

theorem HullWhite.tauIntegrand_continuous (h : HullWhite) (T : ℝ) :
    Continuous fun s => h.tauIntegrand T s := by
  unfold HullWhite.tauIntegrand
  by_cases h0 : |h.lambda| < 1 / 10 ^ 12
  · simp only [if_pos h0]; exact (h.b_continuous T).pow 2
  · simp only [if_neg h0]
    exact ((h.b_continuous T).pow 2).add (((continuous_const.mul (hwDecay_continuous _ T)).mul
      (continuous_const.sub (hwDecay_continuous _ T))).div_const _)

theorem HullWhite.bondLogVariance_eq (h : HullWhite) (s1 s2 T : ℝ) (hs : s1 ≤ s2) :
    h.bondLogVariance s1 s2 T = .ok (h.sigma ^ 2 * ∫ s in s1..s2, h.tauIntegrand T s) := by
  rw [HullWhite.bondLogVariance, if_neg (not_lt.2 hs)]
  by_cases h1 : s2 = s1
  · rw [if_pos h1, h1]; simp
  · rw [if_neg h1, sq]
    congr 2
    rw [integral_eq_sub_of_hasDerivAt (fun x _ => h.tauFn_deriv T x)]
    exact (h.tauIntegrand_continuous T).intervalIntegrable _ _

/-- **C49** (partial: without mean reversion only): in the Ho-Lee branch the integrated variance
of the log bond price equals its defining integral `∫ η² b(s,T)² ds`.  For mean-reverting models
it does not; see the next theorem. -/
theorem C49_bond_log_variance_partial (h : HullWhite) (hl : |h.lambda| < 1 / 10 ^ 12)
    (s1 s2 T : ℝ) (hs : s1 ≤ s2) :
    h.bondLogVariance s1 s2 T = .ok (∫ s in s1..s2, (h.sigma * h.b s T) ^ 2) := by
  rw [h.bondLogVariance_eq s1 s2 T hs]
  have e : ∀ s : ℝ, (h.sigma * h.b s T) ^ 2 = h.sigma ^ 2 * h.tauIntegrand T s := by
    intro s; rw [HullWhite.tauIntegrand, if_pos hl]; ring
  simp only [e]
  rw [intervalIntegral.integral_const_mul]

/-- **C49** (refuted): for every mean-reverting model with non-zero volatility and every
non-empty interval up to the maturity, the result is strictly larger than the defining integral.
Two terms of the antiderivative carry the wrong sign: `d/ds` of it is
`(1 + 2e − e²)/λ²` and not `(1 − 2e + e²)/λ²`, with `e = e^{−λ(T−s)}`. -/
theorem C49_bond_log_variance_false (h : HullWhite) (hl : 1 / 10 ^ 12 ≤ h.lambda)
    (hσ : h.sigma ≠ 0) (s1 s2 T : ℝ) (hs : s1 < s2) (hT : s2 ≤ T) :
    ∃ v, h.bondLogVariance s1 s2 T = .ok v ∧
      (∫ s in s1..s2, (h.sigma * h.b s T) ^ 2) < v := by
  refine ⟨_, h.bondLogVariance_eq s1 s2 T hs.le, ?_⟩
  have hl0 : 0 < h.lambda := lt_of_lt_of_le (by positivity) hl
  have e : ∀ s : ℝ, (h.sigma * h.b s T) ^ 2 = h.sigma ^ 2 * h.b s T ^ 2 := fun s => by ring
  simp only [e]
  rw [intervalIntegral.integral_const_mul]
  refine mul_lt_mul_of_pos_left ?_ (by positivity)
  refine intervalIntegral.integral_lt_integral_of_continuousOn_of_le_of_exists_lt hs
    ((h.b_continuous T).pow 2).continuousOn (h.tauIntegrand_continuous T).continuousOn ?_
    ⟨s1, Set.left_mem_Icc.2 hs.le, ?_⟩
  all_goals
    have key : ∀ s, s ≤ T → h.b s T ^ 2 < h.tauIntegrand T s := by
      intro s hsT
      rw [HullWhite.tauIntegrand, if_neg (not_lt.2 (by rw [abs_of_pos hl0]; exact hl)), hwDecay]
      have h0 := Real.exp_pos (-h.lambda * (T - s))
      have h1 := Real.exp_le_one_iff.2 (show -h.lambda * (T - s) ≤ 0 by nlinarith)
      have : 0 < 2 - Real.exp (-h.lambda * (T - s)) := by linarith
      have : 0 < 2 * Real.exp (-h.lambda * (T - s)) * (2 - Real.exp (-h.lambda * (T - s))) /
        h.lambda ^ 2 := by positivity
      linarith
  · exact fun s hs' => (key s (hs'.2.trans hT)).le
  · exact key s1 (hs.le.trans hT)

/-- **C49**: it panics exactly on a reversed interval. -/
theorem C49_bond_log_variance_panics (h : HullWhite) (s1 s2 T : ℝ) :
    h.bondLogVariance s1 s2 T = .panic ↔ s2 < s1 := by
  refine ⟨fun hp => ?_, fun hp => by rw [HullWhite.bondLogVariance, if_pos hp]⟩
  by_contra hn
  rw [h.bondLogVariance_eq s1 s2 T (not_lt.1 hn)] at hp
  simp at hp

/-- **C49** (partial: non-negative mean reversion and intervals up to the maturity): the
integrated variance is never negative. -/
theorem C49_bond_log_variance_nonneg_partial (h : HullWhite) (hl : 0 ≤ h.lambda) (s1 s2 T v : ℝ)
    (hT : s2 ≤ T) (hv : h.bondLogVariance s1 s2 T = .ok v) : 0 ≤ v := by
  by_cases hs : s1 ≤ s2
  · rw [h.bondLogVariance_eq s1 s2 T hs] at hv
    injection hv with hv
    rw [← hv]
    refine mul_nonneg (sq_nonneg _) (intervalIntegral.integral_nonneg hs fun s hs' => ?_)
    rw [HullWhite.tauIntegrand]
    by_cases h0 : |h.lambda| < 1 / 10 ^ 12
    · rw [if_pos h0]; exact sq_nonneg _
    · rw [if_neg h0, hwDecay]
      have h0 := Real.exp_pos (-h.lambda * (T - s))
      have h1 := Real.exp_le_one_iff.2 (show -h.lambda * (T - s) ≤ 0 by
        have := hs'.2.trans hT; nlinarith)
      have : 0 < 2 - Real.exp (-h.lambda * (T - s)) := by linarith
      positivity
  · rw [HullWhite.bondLogVariance, if_pos (not_le.1 hs)] at hv; cases hv

/-- **C49** (refuted for negative mean reversion): the returned "variance" can be negative. -/
theorem C49_bond_log_variance_nonneg_false :
    ∃ h : HullWhite, ∃ s1 s2 T v : ℝ, s1 < s2 ∧ s2 ≤ T ∧
      h.bondLogVariance s1 s2 T = .ok v ∧ v < 0 := by
  refine ⟨⟨-1, 1⟩, 0, 1, 3, _, by norm_num, by norm_num,
    HullWhite.bondLogVariance_eq _ _ _ _ (by norm_num), ?_⟩
  have hneg : ∀ s ∈ Set.Icc (0 : ℝ) 1, (⟨-1, 1⟩ : HullWhite).tauIntegrand 3 s ≤ -2 := by
    intro s hs
    rw [HullWhite.tauIntegrand, if_neg (by norm_num), HullWhite.b, if_neg (by norm_num), hwDecay]
    have h1 : 3 ≤ Real.exp (-(-1 : ℝ) * (3 - s)) := by
      have := Real.add_one_le_exp (-(-1 : ℝ) * (3 - s))
      have := hs.2
      linarith
    generalize Real.exp (-(-1 : ℝ) * (3 - s)) = x at *
    norm_num
    nlinarith
  have hle := intervalIntegral.integral_mono_on (μ := volume) (a := 0) (b := 1) (by norm_num)
    ((HullWhite.tauIntegrand_continuous ⟨-1, 1⟩ 3).intervalIntegrable 0 1)
    (continuous_const.intervalIntegrable (u := fun _ : ℝ => (-2 : ℝ)) 0 1) hneg
  rw [intervalIntegral.integral_const] at hle
  norm_num at hle ⊢
  linarith

/-- **C49**: it is additive over adjacent intervals. -/
theorem C49_bond_log_variance_additive (h : HullWhite) (s1 s2 s3 T v w : ℝ)
    (hv : h.bondLogVariance s1 s2 T = .ok v) (hw : h.bondLogVariance s2 s3 T = .ok w) :
    h.bondLogVariance s1 s3 T = .ok (v + w) := by
  have h12 : s1 ≤ s2 := by
    by_contra hn
    rw [(C49_bond_log_variance_panics h s1 s2 T).2 (not_le.1 hn)] at hv; cases hv
  have h23 : s2 ≤ s3 := by
    by_contra hn
    rw [(C49_bond_log_variance_panics h s2 s3 T).2 (not_le.1 hn)] at hw; cases hw
  rw [h.bondLogVariance_eq _ _ T h12] at hv
  rw [h.bondLogVariance_eq _ _ T h23] at hw
  injection hv with hv
  injection hw with hw
  rw [h.bondLogVariance_eq _ _ T (h12.trans h23), ← hv, ← hw, ← mul_add]
  congr 2
  have hc := h.tauIntegrand_continuous T
  exact (intervalIntegral.integral_add_adjacent_intervals (hc.intervalIntegrable _ _)
    (hc.intervalIntegrable _ _)).symm

/-- **C49**: at time zero with the initial short rate equal to the initial forward, the affine
discount factor is the initial curve. -/
theorem C49_discount_initial (h : HullWhite) (T r p0T : ℝ) :
    h.discountAffine 0 T r 1 p0T r = p0T := by
  rw [HullWhite.discountAffine]
  by_cases h0 : |h.lambda| < 1 / 10 ^ 12
  · simp only [if_pos h0]; simp
  · simp only [if_neg h0]; simp

/-- **C49**: a bond at its own maturity is worth one, whatever the rate. -/
theorem C49_discount_maturity (h : HullWhite) (t r p0t f0t : ℝ) (hp : p0t ≠ 0) :
    h.discountAffine t t r p0t p0t f0t = 1 := by
  rw [HullWhite.discountAffine, C49_b_self]
  by_cases h0 : |h.lambda| < 1 / 10 ^ 12
  · simp only [if_pos h0]; simp [hp]
  · simp only [if_neg h0]; simp [hp]

/-- **C49**: the affine discount factor is positive and decreasing in the short rate. -/
theorem C49_discount_rate (h : HullWhite) (t T p0t p0T f0t : ℝ) (hT : t ≤ T) (h1 : 0 < p0t)
    (h2 : 0 < p0T) :
    (∀ r, 0 < h.discountAffine t T r p0t p0T f0t) ∧
    Antitone fun r => h.discountAffine t T r p0t p0T f0t := by
  refine ⟨fun r => mul_pos (div_pos h2 h1) (Real.exp_pos _), fun r s hrs => ?_⟩
  refine mul_le_mul_of_nonneg_left (Real.exp_le_exp.2 ?_) (div_pos h2 h1).le
  have := C49_b_sign h t T hT
  have := mul_le_mul_of_nonpos_left hrs this
  linarith

/-- Convexity coefficient of the affine discount factor. -/
noncomputable def HullWhite.conv (h : HullWhite) (t : ℝ) : ℝ :=
  if |h.lambda| < 1 / 10 ^ 12 then h.sigma * h.sigma * t * (1 / 2)
  else h.sigma * h.sigma / (4 * h.lambda) * (1 - Real.exp (-2 * h.lambda * t))

theorem HullWhite.discountAffine_eq (h : HullWhite) (t T r p0t p0T f0t : ℝ) :
    h.discountAffine t T r p0t p0T f0t =
      p0T / p0t * Real.exp (h.b t T * (r - f0t) - h.conv t * h.b t T ^ 2) := by
  rw [HullWhite.discountAffine, HullWhite.conv]
  by_cases h0 : |h.lambda| < 1 / 10 ^ 12
  · simp only [if_pos h0]; congr 2; ring
  · simp only [if_neg h0]; congr 2; ring

/-- **C49**: the quadratic term is half the short-rate variance accumulated since time zero
times the squared loading, as the affine term structure requires. -/
theorem C49_discount_convexity (h : HullWhite) (t T r p0t p0T f0t : ℝ) (ht : 0 ≤ t) :
    h.discountAffine t T r p0t p0T f0t =
      p0T / p0t * Real.exp (h.b t T * (r - f0t) - h.shortRateVariance 0 t / 2 * h.b t T ^ 2) := by
  rw [h.discountAffine_eq]
  congr 4
  rw [HullWhite.conv, HullWhite.shortRateVariance]
  by_cases h1 : t - 0 ≤ 0
  · have : t = 0 := by linarith
    subst this
    rw [if_pos h1]
    by_cases h0 : |h.lambda| < 1 / 10 ^ 12
    · rw [if_pos h0]; simp
    · rw [if_neg h0]; simp
  · rw [if_neg h1]
    by_cases h0 : |h.lambda| < 1 / 10 ^ 12
    · rw [if_pos h0, if_pos h0]; ring
    · have hl := ne_of_threshold (not_lt.1 h0)
      rw [if_neg h0, if_neg h0]
      simp only [sub_zero]
      have e : -2 * h.lambda * t = -(2 * h.lambda) * t := by ring
      rw [e]; field_simp; norm_num

theorem HullWhite.b_deriv_maturity (h : HullWhite) (t : ℝ) :
    HasDerivAt (fun T => h.b t T) (-1) t := by
  by_cases h0 : |h.lambda| < 1 / 10 ^ 12
  · have e : (fun T => h.b t T) = fun T => -(T - t) := by
      funext T; rw [HullWhite.b, if_pos h0]
    rw [e]
    exact ((hasDerivAt_id t).sub_const t).neg
  · have hl := ne_of_threshold (not_lt.1 h0)
    have e : (fun T => h.b t T) = fun T => (Real.exp (-h.lambda * (T - t)) - 1) / h.lambda := by
      funext T; rw [HullWhite.b, if_neg h0]
    rw [e]
    have hd := ((((hasDerivAt_id t).sub_const t).const_mul (-h.lambda)).exp.sub_const 1).div_const
      h.lambda
    refine hd.congr_deriv ?_
    simp; field_simp

/-- **C49**: the short end of the reconstructed curve is the short rate: the instantaneous
forward `−∂_T log P(t,T)` at `T = t` is `r(t)`, when `f0t` is the instantaneous forward of the
initial curve. -/
theorem C49_discount_short_end (h : HullWhite) (t r f0t : ℝ) (p0 : ℝ → ℝ)
    (hp : ∀ T, 0 < p0 T) (hf : HasDerivAt (fun T => Real.log (p0 T)) (-f0t) t) :
    HasDerivAt (fun T => Real.log (h.discountAffine t T r (p0 t) (p0 T) f0t)) (-r) t := by
  have e : (fun T => Real.log (h.discountAffine t T r (p0 t) (p0 T) f0t)) =
      fun T => Real.log (p0 T) - Real.log (p0 t) +
        (h.b t T * (r - f0t) - h.conv t * h.b t T ^ 2) := by
    funext T
    rw [h.discountAffine_eq, Real.log_mul (div_pos (hp T) (hp t)).ne' (Real.exp_ne_zero _),
      Real.log_div (hp T).ne' (hp t).ne', Real.log_exp]
  rw [e]
  have hb := h.b_deriv_maturity t
  have hd := (hf.sub_const (Real.log (p0 t))).add
    ((hb.mul_const (r - f0t)).sub ((hb.pow 2).const_mul (h.conv t)))
  refine hd.congr_deriv ?_
  simp only [C49_b_self]; norm_num; ring

/-- **C49**: without noise the simulator moves the rate towards `theta` by the fraction `λ dt`. -/
theorem C49_step_drift (h : HullWhite) (theta : ℝ → ℝ) (r t dt : ℝ) :
    h.step theta r t dt 0 - theta t = (1 - h.lambda * dt) * (r - theta t) := by
  rw [HullWhite.step]; ring

/-- Example: mean reversion one, volatility two, and the degenerate Ho-Lee model. -/
example : (⟨1, 2⟩ : HullWhite).Exact ∧ (⟨0, 2⟩ : HullWhite).Exact :=
  ⟨Or.inr (by norm_num), Or.inl rfl⟩

example : (⟨0, 2⟩ : HullWhite).bondLogVariance 0 3 3 = .ok 36 ∧
    (⟨0, 2⟩ : HullWhite).bondLogVariance 0 1 3 = .ok (76 / 3) := by
  constructor <;>
  · rw [HullWhite.bondLogVariance, if_neg (by norm_num), if_neg (by norm_num)]
    norm_num [HullWhite.tauFn]

/-- A curve with constant forward five percent meets the hypotheses of the short-end theorem. -/
example : (∀ T : ℝ, 0 < Real.exp (-(0.05 * T))) ∧
    HasDerivAt (fun T : ℝ => Real.log (Real.exp (-(0.05 * T)))) (-0.05) 1 := by
  refine ⟨fun T => Real.exp_pos _, ?_⟩
  simp only [Real.log_exp]
  exact (((hasDerivAt_id (1 : ℝ)).const_mul (0.05 : ℝ)).neg).congr_deriv (by simp)

end Verif
