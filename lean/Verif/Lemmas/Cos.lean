import Verif.Model.Cos
import Verif.Lemmas.CosSeries
import Mathlib.Analysis.PSeries

/-! # Lemmas about the COS pricer -/

namespace Verif

open MeasureTheory intervalIntegral

/-! ## Folding -/

theorem foldInto_mem {a b : ℝ} (h : a < b) (y : ℝ) : a ≤ foldInto a b y ∧ foldInto a b y ≤ b := by
  have hpi := Real.pi_pos
  have h0 := Real.arccos_nonneg (Real.cos (Real.pi * (y - a) / (b - a)))
  have h1 := Real.arccos_le_pi (Real.cos (Real.pi * (y - a) / (b - a)))
  unfold foldInto
  have hw : 0 < (b - a) / Real.pi := div_pos (by linarith) hpi
  constructor
  · nlinarith
  · have : (b - a) / Real.pi * Real.arccos (Real.cos (Real.pi * (y - a) / (b - a)))
        ≤ (b - a) / Real.pi * Real.pi := mul_le_mul_of_nonneg_left h1 hw.le
    rw [div_mul_cancel₀ _ hpi.ne'] at this
    linarith

theorem foldInto_of_mem {a b y : ℝ} (h : a < b) (h0 : a ≤ y) (h1 : y ≤ b) :
    foldInto a b y = y := by
  have hpi := Real.pi_pos
  have hw : 0 < b - a := by linarith
  unfold foldInto
  rw [Real.arccos_cos]
  · field_simp; ring
  · exact div_nonneg (mul_nonneg hpi.le (by linarith)) hw.le
  · rw [div_le_iff₀ hw]
    exact mul_le_mul_of_nonneg_left (by linarith) hpi.le

theorem continuous_foldInto (a b : ℝ) : Continuous (foldInto a b) := by
  unfold foldInto
  have := Real.continuous_arccos
  fun_prop

theorem cos_foldInto {a b : ℝ} (h : a < b) (k : ℕ) (y : ℝ) :
    Real.cos (k * Real.pi / (b - a) * (foldInto a b y - a))
      = Real.cos (k * Real.pi / (b - a) * (y - a)) := by
  have hpi := Real.pi_pos
  have hw : b - a ≠ 0 := by linarith
  set θ := Real.pi * (y - a) / (b - a) with hθ
  have e1 : k * Real.pi / (b - a) * (foldInto a b y - a) = (k : ℤ) * Real.arccos (Real.cos θ) := by
    unfold foldInto; rw [← hθ]; push_cast; field_simp; ring
  have e2 : k * Real.pi / (b - a) * (y - a) = (k : ℤ) * θ := by
    rw [hθ]; push_cast; field_simp
  rw [e1, e2, ← Polynomial.Chebyshev.T_real_cos, ← Polynomial.Chebyshev.T_real_cos,
    Real.cos_arccos (Real.neg_one_le_cos _) (Real.cos_le_one _)]

/-! ## The two integrals -/

theorem chiK_eq_integral (k : ℕ) (a b c d : ℝ) :
    chiK k a b c d = ∫ y in c..d, Real.exp y * Real.cos (k * Real.pi / (b - a) * (y - a)) := by
  set u := k * Real.pi / (b - a) with hu
  have hden : (1 + u * u) ≠ 0 := by nlinarith [mul_self_nonneg u]
  have hd : ∀ y ∈ Set.uIcc c d, HasDerivAt
      (fun y => (Real.cos (u * (y - a)) * Real.exp y + u * (Real.sin (u * (y - a)) * Real.exp y))
        / (1 + u * u))
      (Real.exp y * Real.cos (u * (y - a))) y := by
    intro y _
    have h1 : HasDerivAt (fun y : ℝ => u * (y - a)) u y := by
      simpa using ((hasDerivAt_id y).sub_const a).const_mul u
    have h2 := (h1.cos.mul (Real.hasDerivAt_exp y))
    have h3 := (h1.sin.mul (Real.hasDerivAt_exp y)).const_mul u
    refine ((h2.add h3).div_const (1 + u * u)).congr_deriv ?_
    rw [div_eq_iff hden]
    ring
  rw [integral_eq_sub_of_hasDerivAt hd (by apply Continuous.intervalIntegrable; fun_prop)]
  simp only [chiK, ← hu]
  ring

theorem psiK_eq_integral {k : ℕ} {a b : ℝ} (h : a < b) (c d : ℝ) :
    psiK k a b c d = ∫ y in c..d, Real.cos (k * Real.pi / (b - a) * (y - a)) := by
  unfold psiK
  by_cases hk : k = 0
  · rw [if_pos hk]; subst hk; simp
  · rw [if_neg hk]
    set u := k * Real.pi / (b - a) with hu
    have hu0 : u ≠ 0 := by
      rw [hu]
      exact div_ne_zero (mul_ne_zero (by exact_mod_cast hk) Real.pi_ne_zero) (by linarith)
    have hd : ∀ y ∈ Set.uIcc c d, HasDerivAt (fun y => Real.sin (u * (y - a)) / u)
        (Real.cos (u * (y - a))) y := by
      intro y _
      have h1 : HasDerivAt (fun y : ℝ => u * (y - a)) u y := by
        simpa using ((hasDerivAt_id y).sub_const a).const_mul u
      refine (h1.sin.div_const u).congr_deriv ?_
      rw [div_eq_iff hu0]
    rw [integral_eq_sub_of_hasDerivAt hd (by apply Continuous.intervalIntegrable; fun_prop)]
    ring

/-! ## The payoff coefficients -/

/-- The bracket of the payoff coefficient as an integral. -/
theorem coef_eq_integral {k : ℕ} {a b : ℝ} (h : a < b) (K c d : ℝ) :
    chiK k a b c d - K * psiK k a b c d
      = ∫ y in c..d, (Real.exp y - K) * Real.cos (k * Real.pi / (b - a) * (y - a)) := by
  rw [chiK_eq_integral, psiK_eq_integral h, ← intervalIntegral.integral_const_mul,
    ← intervalIntegral.integral_sub (by apply Continuous.intervalIntegrable; fun_prop)
      (by apply Continuous.intervalIntegrable; fun_prop)]
  congr 1; funext y; ring

theorem continuous_callPayoff (K : ℝ) : Continuous (callPayoff K) := by
  unfold callPayoff; fun_prop

theorem continuous_putPayoff (K : ℝ) : Continuous (putPayoff K) := by
  unfold putPayoff; fun_prop

theorem callPayoff_of_le {K y : ℝ} (hK : 0 < K) (h : y ≤ Real.log K) : callPayoff K y = 0 := by
  have : Real.exp y ≤ K := by rw [← Real.exp_log hK]; exact Real.exp_le_exp.2 h
  exact max_eq_right (by linarith)

theorem callPayoff_of_ge {K y : ℝ} (hK : 0 < K) (h : Real.log K ≤ y) :
    callPayoff K y = Real.exp y - K := by
  have : K ≤ Real.exp y := by rw [← Real.exp_log hK]; exact Real.exp_le_exp.2 h
  exact max_eq_left (by linarith)

theorem putPayoff_of_le {K y : ℝ} (hK : 0 < K) (h : y ≤ Real.log K) :
    putPayoff K y = K - Real.exp y := by
  have : Real.exp y ≤ K := by rw [← Real.exp_log hK]; exact Real.exp_le_exp.2 h
  exact max_eq_left (by linarith)

theorem putPayoff_of_ge {K y : ℝ} (hK : 0 < K) (h : Real.log K ≤ y) : putPayoff K y = 0 := by
  have : K ≤ Real.exp y := by rw [← Real.exp_log hK]; exact Real.exp_le_exp.2 h
  exact max_eq_right (by linarith)

/-- The cosine coefficient of a function on `[a, b]`. -/
noncomputable def cosCoef (g : ℝ → ℝ) (a b : ℝ) (k : ℕ) : ℝ :=
  ∫ y in a..b, g y * Real.cos (k * Real.pi / (b - a) * (y - a))

theorem call_coef {k : ℕ} {a b K : ℝ} (h : a < b) (hK : 0 < K) (h0 : a ≤ Real.log K)
    (h1 : Real.log K ≤ b) :
    chiK k a b (Real.log K) b - K * psiK k a b (Real.log K) b = cosCoef (callPayoff K) a b k := by
  have hc := continuous_callPayoff K
  rw [coef_eq_integral h, cosCoef, ← integral_add_adjacent_intervals (a := a) (b := Real.log K)
    (c := b) (f := fun y => callPayoff K y * Real.cos (k * Real.pi / (b - a) * (y - a)))
    (by apply Continuous.intervalIntegrable; fun_prop)
    (by apply Continuous.intervalIntegrable; fun_prop)]
  have z : (∫ y in a..Real.log K, callPayoff K y * Real.cos (k * Real.pi / (b - a) * (y - a)))
      = ∫ y in a..Real.log K, (0 : ℝ) := by
    apply integral_congr
    intro y hy
    rw [Set.uIcc_of_le h0] at hy
    simp only [callPayoff_of_le hK hy.2, zero_mul]
  rw [z, intervalIntegral.integral_zero, zero_add]
  apply integral_congr
  intro y hy
  rw [Set.uIcc_of_le h1] at hy
  simp only [callPayoff_of_ge hK hy.1]

theorem put_coef {k : ℕ} {a b K : ℝ} (h : a < b) (hK : 0 < K) (h0 : a ≤ Real.log K)
    (h1 : Real.log K ≤ b) :
    -chiK k a b a (Real.log K) + K * psiK k a b a (Real.log K)
      = cosCoef (putPayoff K) a b k := by
  have hc := continuous_putPayoff K
  have e : -chiK k a b a (Real.log K) + K * psiK k a b a (Real.log K)
      = -(chiK k a b a (Real.log K) - K * psiK k a b a (Real.log K)) := by ring
  rw [e, coef_eq_integral h, cosCoef, ← integral_add_adjacent_intervals (a := a) (b := Real.log K)
    (c := b) (f := fun y => putPayoff K y * Real.cos (k * Real.pi / (b - a) * (y - a)))
    (by apply Continuous.intervalIntegrable; fun_prop)
    (by apply Continuous.intervalIntegrable; fun_prop)]
  have z : (∫ y in Real.log K..b, putPayoff K y * Real.cos (k * Real.pi / (b - a) * (y - a)))
      = ∫ y in Real.log K..b, (0 : ℝ) := by
    apply integral_congr
    intro y hy
    rw [Set.uIcc_of_le h1] at hy
    simp only [putPayoff_of_ge hK hy.1, zero_mul]
  rw [z, intervalIntegral.integral_zero, add_zero, ← intervalIntegral.integral_neg]
  apply integral_congr
  intro y hy
  rw [Set.uIcc_of_le h0] at hy
  simp only [putPayoff_of_le hK hy.2]
  ring

/-! ## Size of the coefficients -/

theorem sin_nat_mul_width {a b : ℝ} (h : a < b) (k : ℕ) :
    Real.sin (k * Real.pi / (b - a) * (b - a)) = 0 := by
  rw [div_mul_cancel₀ _ (by linarith : b - a ≠ 0)]
  exact Real.sin_nat_mul_pi k

/-- Bound of a coefficient whose interval starts or ends at the strike. -/
theorem coef_bound_aux {u s c e x K : ℝ} (hu : 0 < u) (hK : 0 < K) (hs : |s| ≤ 1) (hc : |c| ≤ 1)
    (hx : |x| ≤ 1) (he : 0 ≤ e) :
    |(x * e - c * K) / (1 + u * u) + K * s / (u * (1 + u * u))| ≤ (e + 2 * K) / u ^ 2 := by
  have h1 : |(x * e - c * K) / (1 + u * u)| ≤ (e + K) / u ^ 2 := by
    rw [abs_div, abs_of_pos (by nlinarith : 0 < 1 + u * u)]
    have hn : |x * e - c * K| ≤ e + K := by
      calc |x * e - c * K| ≤ |x * e| + |c * K| := abs_sub _ _
        _ = |x| * e + |c| * K := by rw [abs_mul, abs_mul, abs_of_nonneg he, abs_of_pos hK]
        _ ≤ e + K := by nlinarith
    exact div_le_div₀ (by linarith) hn (by positivity) (by nlinarith)
  have h2 : |K * s / (u * (1 + u * u))| ≤ K / u ^ 2 := by
    rw [abs_div, abs_mul, abs_of_pos hK, abs_of_pos (by positivity : 0 < u * (1 + u * u))]
    apply div_le_div₀ hK.le (by nlinarith) (by positivity)
    nlinarith [mul_nonneg hu.le (sq_nonneg (u - 1)), sq_nonneg u]
  calc _ ≤ _ := abs_add_le _ _
    _ ≤ (e + K) / u ^ 2 + K / u ^ 2 := add_le_add h1 h2
    _ = _ := by ring

theorem call_coef_bound {k : ℕ} (hk : k ≠ 0) {a b K : ℝ} (h : a < b) (hK : 0 < K) :
    |chiK k a b (Real.log K) b - K * psiK k a b (Real.log K) b|
      ≤ (Real.exp b + 2 * K) / (k * Real.pi / (b - a)) ^ 2 := by
  have hpi := Real.pi_pos
  have hk' : (0 : ℝ) < k := by exact_mod_cast Nat.pos_of_ne_zero hk
  have hw : 0 < b - a := by linarith
  have hu : 0 < k * Real.pi / (b - a) := by positivity
  have hsin := sin_nat_mul_width h k
  simp only [chiK, psiK, if_neg hk]
  set u := k * Real.pi / (b - a)
  rw [hsin, Real.exp_log hK]
  have := coef_bound_aux hu hK (Real.abs_sin_le_one (u * (Real.log K - a)))
    (Real.abs_cos_le_one (u * (Real.log K - a))) (Real.abs_cos_le_one (u * (b - a)))
    (Real.exp_pos b).le
  refine le_trans (le_of_eq ?_) this
  congr 1
  field_simp
  ring

theorem put_coef_bound {k : ℕ} (hk : k ≠ 0) {a b K : ℝ} (h : a < b) (hK : 0 < K) :
    |-chiK k a b a (Real.log K) + K * psiK k a b a (Real.log K)|
      ≤ (Real.exp b + 2 * K) / (k * Real.pi / (b - a)) ^ 2 := by
  have hpi := Real.pi_pos
  have hk' : (0 : ℝ) < k := by exact_mod_cast Nat.pos_of_ne_zero hk
  have hw : 0 < b - a := by linarith
  have hu : 0 < k * Real.pi / (b - a) := by positivity
  simp only [chiK, psiK, if_neg hk]
  set u := k * Real.pi / (b - a)
  rw [sub_self, mul_zero, Real.sin_zero, Real.cos_zero, Real.exp_log hK]
  have := coef_bound_aux hu hK (Real.abs_sin_le_one (u * (Real.log K - a)))
    (Real.abs_cos_le_one (u * (Real.log K - a))) (by norm_num : |(1 : ℝ)| ≤ 1)
    (Real.exp_pos a).le
  refine le_trans (le_of_eq ?_) (this.trans ?_)
  · congr 1
    field_simp
    ring
  · have := Real.exp_le_exp.2 h.le
    gcongr

/-! ## Summation of the series -/

/-- `∑ 1/k²` from `n` on is at most `1/(n-1)`. -/
theorem tail_bound {c : ℕ → ℝ} {C : ℝ} (hc : ∀ k, k ≠ 0 → |c k| ≤ C / k ^ 2) {n : ℕ} (hn : 2 ≤ n)
    {S : ℝ} (hS : HasSum c S) : |S - ∑ k ∈ Finset.range n, c k| ≤ C / (n - 1) := by
  have hC : 0 ≤ C := by simpa using (abs_nonneg _).trans (hc 1 one_ne_zero)
  have hpart : ∀ m, n ≤ m → |∑ k ∈ Finset.range m, c k - ∑ k ∈ Finset.range n, c k|
      ≤ C / (n - 1) - C / (m - 1) := by
    intro m hm
    induction m, hm using Nat.le_induction with
    | base => simp
    | succ m hm ih =>
      have hm2 : (2 : ℝ) ≤ m := by exact_mod_cast hn.trans hm
      rw [Finset.sum_range_succ]
      have h1 := hc m (by omega)
      have h2 : C / (m : ℝ) ^ 2 ≤ C / (m - 1) - C / m := by
        have : C / ((m : ℝ) - 1) - C / m = C / ((m - 1) * m) := by
          field_simp
          have : (m : ℝ) - 1 ≠ 0 := by linarith
          field_simp
          ring
        rw [this]
        apply div_le_div_of_nonneg_left hC
        · nlinarith
        · nlinarith
      have h3 := abs_add_le (∑ k ∈ Finset.range m, c k - ∑ k ∈ Finset.range n, c k) (c m)
      have e : ∑ k ∈ Finset.range m, c k + c m - ∑ k ∈ Finset.range n, c k
          = ∑ k ∈ Finset.range m, c k - ∑ k ∈ Finset.range n, c k + c m := by ring
      rw [e]
      push_cast
      rw [add_sub_cancel_right]
      linarith
  have ht := (hS.tendsto_sum_nat.sub_const (∑ k ∈ Finset.range n, c k)).abs
  refine le_of_tendsto ht ?_
  filter_upwards [Filter.eventually_ge_atTop n] with m hm
  have hm2 : (2 : ℝ) ≤ m := by exact_mod_cast hn.trans hm
  have : 0 ≤ C / ((m : ℝ) - 1) := div_nonneg hC (by linarith)
  linarith [hpart m hm]

theorem summable_of_sq_bound {c : ℕ → ℝ} {C : ℝ} (hc : ∀ k, k ≠ 0 → |c k| ≤ C / k ^ 2) :
    Summable fun k => |c k| := by
  rw [← summable_nat_add_iff 1]
  have h := ((summable_nat_add_iff 1).2 (Real.summable_one_div_nat_pow.2 (by norm_num : 1 < 2))).mul_left C
  refine Summable.of_nonneg_of_le (fun k => abs_nonneg _) (fun k => ?_) h
  have := hc (k + 1) (by omega)
  refine this.trans (le_of_eq ?_)
  ring

/-- The cosine series of a continuous function, folded over the line. -/
theorem hasSum_cosCoef {a b : ℝ} (h : a < b) {g : ℝ → ℝ} (hg : Continuous g)
    (hs : Summable (cosCoef g a b)) (y : ℝ) :
    HasSum (fun k : ℕ => (if k = 0 then (1 / 2 : ℝ) else 1) * (2 / (b - a) * cosCoef g a b k)
        * Real.cos (k * Real.pi / (b - a) * (y - a)))
      (g (foldInto a b y)) := by
  have hw : 0 < b - a := by linarith
  have hshift : ∀ k : ℕ, (∫ x in (0 : ℝ)..(b - a), g (x + a) * Real.cos (k * Real.pi / (b - a) * x))
      = cosCoef g a b k := by
    intro k
    have := integral_comp_add_right (a := 0) (b := b - a)
      (fun y => g y * Real.cos (k * Real.pi / (b - a) * (y - a))) a
    simp only [zero_add, sub_add_cancel, add_sub_cancel_right] at this
    rw [this]; rfl
  have hm := foldInto_mem h y
  have key := hasSum_cosine hw (g := fun x => g (x + a)) (by fun_prop)
    (by simpa only [hshift] using hs)
    (x := foldInto a b y - a) (by linarith [hm.1]) (by linarith [hm.2])
  simp only [hshift, sub_add_cancel, cos_foldInto h] at key
  have h0 : (∫ x in (0 : ℝ)..(b - a), g (x + a)) = cosCoef g a b 0 := by
    rw [← hshift 0]; simp
  rw [h0] at key
  have k2 := key.update 0 (1 / 2 * (2 / (b - a) * cosCoef g a b 0))
  have ev : g (foldInto a b y) = 1 / 2 * (2 / (b - a) * cosCoef g a b 0) -
        2 / (b - a) * cosCoef g a b 0 * Real.cos ((0 : ℕ) * Real.pi / (b - a) * (y - a)) +
      (g (foldInto a b y) + 1 / (b - a) * cosCoef g a b 0) := by
    simp only [Nat.cast_zero, zero_mul, zero_div, Real.cos_zero]
    ring
  rw [← ev] at k2
  refine k2.congr_fun ?_
  intro k
  by_cases hk : k = 0
  · subst hk; simp
  · rw [Function.update_of_ne hk, if_neg hk]; ring

/-! ## The price as a sum -/

theorem foldl_add_eq_sum (f : ℕ → ℝ) (n : ℕ) :
    (List.range n).foldl (fun t k => t + f k) 0 = ∑ k ∈ Finset.range n, f k := by
  induction n with
  | zero => simp
  | succ n ih => rw [List.range_succ, List.foldl_append, ih, Finset.sum_range_succ]; rfl

/-- With the characteristic function of a probability law the complex factor is the expected
cosine. -/
theorem re_charFun {μ : Measure ℝ} [IsProbabilityMeasure μ] (u a : ℝ) :
    (charFun μ u * Complex.exp ⟨0, -u * a⟩).re = ∫ y, Real.cos (u * (y - a)) ∂μ := by
  have hi : Integrable (fun y : ℝ => Complex.exp ((u * (y - a) : ℝ) * Complex.I)) μ := by
    refine Integrable.mono' (integrable_const (1 : ℝ)) ?_ ?_
    · exact Continuous.aestronglyMeasurable (by fun_prop)
    · refine Filter.Eventually.of_forall fun y => ?_
      rw [Complex.norm_exp_ofReal_mul_I]
  rw [charFun_apply_real, ← MeasureTheory.integral_mul_const]
  have e : ∀ y : ℝ, Complex.exp (u * y * Complex.I) * Complex.exp ⟨0, -u * a⟩
      = Complex.exp ((u * (y - a) : ℝ) * Complex.I) := by
    intro y
    rw [← Complex.exp_add]
    congr 1
    apply Complex.ext <;> simp <;> ring
  simp only [e]
  have := integral_re hi
  simp only [RCLike.re_to_complex] at this
  rw [← this]
  congr 1; funext y
  rw [Complex.exp_ofReal_mul_I_re]

/-- Expected value of the folded payoff as a series. -/
theorem hasSum_expected {μ : Measure ℝ} [IsProbabilityMeasure μ] {a b : ℝ} (h : a < b)
    {g : ℝ → ℝ} (hg : Continuous g) {D : ℝ}
    (hD : ∀ k : ℕ, k ≠ 0 → |cosCoef g a b k| ≤ D / (k * Real.pi / (b - a)) ^ 2) :
    HasSum (fun k : ℕ => (if k = 0 then (1 / 2 : ℝ) else 1)
        * (∫ y, Real.cos (k * Real.pi / (b - a) * (y - a)) ∂μ) * (2 / (b - a) * cosCoef g a b k))
      (∫ y, g (foldInto a b y) ∂μ) := by
  have hpi := Real.pi_pos
  have hw : 0 < b - a := by linarith
  have hsq : ∀ k : ℕ, k ≠ 0 → |cosCoef g a b k| ≤ (D * (b - a) ^ 2 / Real.pi ^ 2) / k ^ 2 := by
    intro k hk
    refine (hD k hk).trans (le_of_eq ?_)
    have : (k : ℝ) ≠ 0 := by exact_mod_cast hk
    field_simp
  have hs := summable_of_sq_bound hsq
  set F : ℕ → ℝ → ℝ := fun k y => (if k = 0 then (1 / 2 : ℝ) else 1) *
    (2 / (b - a) * cosCoef g a b k) * Real.cos (k * Real.pi / (b - a) * (y - a)) with hF
  have hFi : ∀ k, Integrable (F k) μ := by
    intro k
    refine Integrable.mono' (integrable_const
      |(if k = 0 then (1 / 2 : ℝ) else 1) * (2 / (b - a) * cosCoef g a b k)|) ?_ ?_
    · exact Continuous.aestronglyMeasurable (by fun_prop)
    · refine Filter.Eventually.of_forall fun y => ?_
      rw [hF, Real.norm_eq_abs, abs_mul]
      exact mul_le_of_le_one_right (abs_nonneg _) (Real.abs_cos_le_one _)
  have hnorm : ∀ k, (∫ y, ‖F k y‖ ∂μ) ≤ 2 / (b - a) * |cosCoef g a b k| := by
    intro k
    have h2 : 0 < 2 / (b - a) := by positivity
    have h1 : ∀ y, ‖F k y‖ ≤ 2 / (b - a) * |cosCoef g a b k| := by
      intro y
      rw [hF, Real.norm_eq_abs, abs_mul, abs_mul, abs_mul, abs_of_pos h2]
      have hc := Real.abs_cos_le_one (k * Real.pi / (b - a) * (y - a))
      have hq : |if k = 0 then (1 / 2 : ℝ) else 1| ≤ 1 := by split_ifs <;> norm_num
      have hp : 0 ≤ 2 / (b - a) * |cosCoef g a b k| := by positivity
      calc _ ≤ 1 * (2 / (b - a) * |cosCoef g a b k|) * 1 := by gcongr
        _ = _ := by ring
    calc (∫ y, ‖F k y‖ ∂μ) ≤ ∫ _, 2 / (b - a) * |cosCoef g a b k| ∂μ :=
          integral_mono (hFi k).norm (integrable_const _) h1
      _ = _ := by simp
  have hsum : Summable fun k => ∫ y, ‖F k y‖ ∂μ :=
    Summable.of_nonneg_of_le (fun k => integral_nonneg fun y => norm_nonneg _) hnorm
      (hs.mul_left _)
  have key := hasSum_integral_of_summable_integral_norm hFi hsum
  have ht : ∀ y, (∑' k, F k y) = g (foldInto a b y) := fun y =>
    (hasSum_cosCoef h hg hs.of_abs y).tsum_eq
  simp only [ht] at key
  refine key.congr_fun ?_
  intro k
  simp only [hF]
  rw [MeasureTheory.integral_const_mul]
  ring

/-- Error after `n` terms. -/
theorem partial_sum_error {μ : Measure ℝ} [IsProbabilityMeasure μ] {a b : ℝ} (h : a < b)
    {g : ℝ → ℝ} (hg : Continuous g) {D : ℝ}
    (hD : ∀ k : ℕ, k ≠ 0 → |cosCoef g a b k| ≤ D / (k * Real.pi / (b - a)) ^ 2) {n : ℕ}
    (hn : 2 ≤ n) :
    |(∫ y, g (foldInto a b y) ∂μ) - ∑ k ∈ Finset.range n, (if k = 0 then (1 / 2 : ℝ) else 1)
        * (∫ y, Real.cos (k * Real.pi / (b - a) * (y - a)) ∂μ) * (2 / (b - a) * cosCoef g a b k)|
      ≤ 2 * (b - a) * D / Real.pi ^ 2 / (n - 1) := by
  have hpi := Real.pi_pos
  have hw : 0 < b - a := by linarith
  refine tail_bound (C := 2 * (b - a) * D / Real.pi ^ 2) ?_ hn (hasSum_expected h hg hD)
  intro k hk
  have hk' : (k : ℝ) ≠ 0 := by exact_mod_cast hk
  rw [if_neg hk, one_mul, abs_mul, abs_mul, abs_of_pos (by positivity : 0 < 2 / (b - a))]
  have hc : |∫ y, Real.cos (k * Real.pi / (b - a) * (y - a)) ∂μ| ≤ 1 := by
    have := norm_integral_le_of_norm_le_const (μ := μ) (C := 1)
      (f := fun y => Real.cos (k * Real.pi / (b - a) * (y - a)))
      (Filter.Eventually.of_forall fun y => Real.abs_cos_le_one _)
    simpa using this
  calc _ ≤ 1 * (2 / (b - a) * (D / (k * Real.pi / (b - a)) ^ 2)) := by
        have := hD k hk
        gcongr
    _ = _ := by field_simp

end Verif
