import Verif.Lemmas.HlmmChf

/-!
# C63: the FX-HLMM1 characteristic function
-/

namespace Verif

open Outcome Classical MeasureTheory

/-! ## Parameters of the examples -/

/-- A tenor of two years. -/
noncomputable def exTenor : LiborTenor := ⟨[0, 1, 2], [1 / 20, 1 / 20]⟩

/-- The Libor model of the examples. -/
noncomputable def exLmm : DdSvLmm :=
  ⟨[1 / 5, 1 / 5], [9 / 10, 9 / 10], 3 / 10, 1 / 2, 1, [[1, 9 / 10], [9 / 10, 1]]⟩

/-- The FX model of the examples. -/
noncomputable def exHlmm : HlmmParams :=
  ⟨27 / 20, ⟨1 / 2, 1 / 10, 3 / 10, 1 / 10⟩, exTenor, exLmm, exLmm,
    ⟨-2 / 5, [-3 / 20, -3 / 20], [-3 / 20, -3 / 20], [[1 / 4, 1 / 4], [1 / 4, 1 / 4]]⟩⟩

theorem exTenor_ordered : exTenor.Ordered := by
  refine ⟨rfl, by simp [LiborTenor.T, exTenor], fun i hi => ?_⟩
  have hi : i < 2 := hi
  interval_cases i <;> simp [LiborTenor.T, exTenor]

theorem exLmm_valid : exLmm.Valid exTenor := by
  refine ⟨rfl, rfl, rfl, by simp [exLmm, exTenor, LiborTenor.n], ?_, by norm_num [exLmm],
    by norm_num [exLmm], by norm_num [exLmm]⟩
  intro i r hr
  have hi : i = 0 ∨ i = 1 ∨ 2 ≤ i := by omega
  rcases hi with rfl | rfl | hi
  · simp only [exLmm, List.getElem?_cons_zero, Option.some.injEq] at hr
    subst hr
    refine ⟨by simp, fun j r' hr' x y hx hy => ?_⟩
    have hj : j = 0 ∨ j = 1 ∨ 2 ≤ j := by omega
    rcases hj with rfl | rfl | hj
    · simp [exLmm] at hr' hx hy; subst hr'; simp at hy; subst hx hy; norm_num
    · simp [exLmm] at hr' hx hy; subst hr'; simp at hy; subst hx hy
      norm_num [abs_of_pos]
    · rw [List.getElem?_eq_none (by simpa using hj)] at hx; cases hx
  · simp only [exLmm, List.getElem?_cons_succ, List.getElem?_cons_zero, Option.some.injEq] at hr
    subst hr
    refine ⟨by simp, fun j r' hr' x y hx hy => ?_⟩
    have hj : j = 0 ∨ j = 1 ∨ 2 ≤ j := by omega
    rcases hj with rfl | rfl | hj
    · simp [exLmm] at hr' hx hy; subst hr'; simp at hy; subst hx hy
      norm_num [abs_of_pos]
    · simp [exLmm] at hr' hx hy; subst hr'; simp at hy; subst hx hy; norm_num
    · rw [List.getElem?_eq_none (by simpa using hj)] at hx; cases hx
  · rw [List.getElem?_eq_none (by simpa [exLmm] using hi)] at hr; cases hr

theorem exHlmm_valid : exHlmm.Valid := by
  refine ⟨exLmm_valid, exLmm_valid, ?_⟩
  simp only [HlmmCorr.Valid, exHlmm, exTenor, LiborTenor.n]
  norm_num [abs_of_pos, abs_of_neg]

theorem exLmm_symm : UnitSymm exLmm.liborCorr 2 := by
  refine ⟨fun i h1 h2 => ?_, fun i j h1 h2 h3 h4 => ?_⟩
  · interval_cases i <;> simp [matAt, exLmm]
  · interval_cases i <;> interval_cases j <;> simp [matAt, exLmm]

theorem exLmm_psd (w : ℕ → ℝ) : 0 ≤ quadOn exLmm.liborCorr w (Finset.Icc 1 2) := by
  have : Finset.Icc 1 2 = {1, 2} := by decide
  rw [quadOn, this]
  simp [matAt, exLmm]
  nlinarith [sq_nonneg (w 1 + w 2), sq_nonneg (w 1 - w 2), sq_nonneg (w 1), sq_nonneg (w 2)]

theorem exTenor_rates : ∀ k, 1 ≤ k → k ≤ exTenor.n →
    0 < 1 + (exTenor.T k - exTenor.T (k - 1)) * exTenor.L k := by
  intro k h1 h2
  have h2 : k ≤ 2 := h2
  interval_cases k <;> norm_num [exTenor, LiborTenor.T, LiborTenor.L]

/-! ## The tenor -/

/-- **C63.** A tenor is accepted exactly when it has one more date than Libors and the dates are
non-negative and strictly increasing. -/
theorem C63_new (dates libors : List ℝ) :
    (∃ t, LiborTenor.new dates libors = .ok t) ↔
      dates.length = libors.length + 1 ∧ 0 ≤ dates.getD 0 0
        ∧ ∀ i < libors.length, dates.getD i 0 < dates.getD (i + 1) 0 := by
  constructor
  · rintro ⟨t, ht⟩
    obtain ⟨rfl, h⟩ := LiborTenor.new_ok ht
    exact h
  · rintro ⟨h1, h2, h3⟩
    refine ⟨⟨dates, libors⟩, ?_⟩
    rw [LiborTenor.new, if_pos]
    refine ⟨h1, ⟨_, getElem?_getD dates 0 (by omega) 0, h2⟩, ?_⟩
    exact (increasingDates_iff dates).2 fun i hi => h3 i (by omega)

example : ∃ t, LiborTenor.new [0, 1, 2] [1 / 20, 1 / 20] = .ok t := by
  rw [C63_new]
  refine ⟨rfl, by simp, fun i hi => ?_⟩
  have hi : i < 2 := hi
  interval_cases i <;> simp

example : ¬ ∃ t, LiborTenor.new [0, 2, 1] [1 / 20, 1 / 20] = .ok t := by
  rw [C63_new]
  rintro ⟨-, -, h⟩
  have := h 1 (by simp)
  norm_num at this

/-- **C63.** An accepted tenor keeps the given dates and rates and is ordered. -/
theorem C63_new_ordered {dates libors : List ℝ} {t : LiborTenor}
    (h : LiborTenor.new dates libors = .ok t) :
    t.dates = dates ∧ t.libors = libors ∧ t.Ordered := by
  obtain ⟨h1, h2⟩ := LiborTenor.new_ok h
  rw [h1]
  exact ⟨rfl, rfl, h1 ▸ h2⟩

example {t : LiborTenor} (h : LiborTenor.new [0, 1, 2] [1 / 20, 1 / 20] = .ok t) : t.Ordered :=
  (C63_new_ordered h).2.2

/-- **C63.** The active set consists of the Libors whose accrual period has not begun. -/
theorem C63_active {q : LiborTenor} (h : q.Ordered) (t : ℝ) :
    (q.active t).toFinset = openLibors q t := by
  obtain ⟨m1, -, -⟩ := LiborTenor.m_spec h t
  rw [openLibors_eq h]
  ext j
  simp only [LiborTenor.active, List.mem_toFinset, List.mem_range'_1, Finset.mem_Icc]
  omega

example : (exTenor.active (1 / 2)).toFinset = {2} := by
  rw [C63_active exTenor_ordered, openLibors]
  have : exTenor.n = 2 := rfl
  ext j
  rw [this, Finset.mem_filter, Finset.mem_Icc, Finset.mem_singleton]
  constructor
  · rintro ⟨⟨h1, h2⟩, h3⟩
    interval_cases j
    · norm_num [exTenor, LiborTenor.T] at h3
    · rfl
  · rintro rfl
    norm_num [exTenor, LiborTenor.T]

/-! ## The coefficients -/

/-- **C63.** `psi` are the loadings of the zero-coupon bonds. -/
theorem C63_loading {q : LiborTenor} {l : DdSvLmm} (h : q.Ordered) (hs : l.sigmas.length = q.n)
    (hL : ∀ k, 1 ≤ k → k ≤ q.n → 0 < 1 + (q.T k - q.T (k - 1)) * q.L k) :
    l.psi q = .ok ((List.range' 1 q.n).map (loading l q)) := by
  rw [psi_ok h hs]
  congr 1
  rw [List.range'_eq_map_range, List.map_map]
  apply List.map_congr_left
  intro j hj
  rw [List.mem_range] at hj
  simp only [Function.comp_apply]
  rw [add_comm 1 j, psiVal_eq_loading]
  exact (hL (j + 1) (by omega) (by omega)).ne'

example : exLmm.psi exTenor = .ok [loading exLmm exTenor 1, loading exLmm exTenor 2] :=
  C63_loading exTenor_ordered rfl exTenor_rates

/-- **C63.** `A_d` at time `t` is the quadratic form of the correlation matrix at the loadings of
the open Libors, and likewise `A_f`. -/
theorem C63_a_side {q : LiborTenor} {l : DdSvLmm} (h : q.Ordered) (hv : l.Valid q)
    (hc : UnitSymm l.liborCorr q.n)
    (hL : ∀ k, 1 ≤ k → k ≤ q.n → 0 < 1 + (q.T k - q.T (k - 1)) * q.L k) (t : ℝ) :
    computeASide l q (q.m t + 1)
      = .ok (quadOn l.liborCorr (loading l q) (openLibors q t)) := by
  rw [computeASide_eq h hv.1 hv.2.2.1 hv.2.2.2.1 (by omega), triForm_eq _ _ _ hc _ _ (by omega) rfl,
    openLibors_eq h]
  congr 1
  unfold quadOn
  refine Finset.sum_congr rfl fun i hi => Finset.sum_congr rfl fun j hj => ?_
  rw [Finset.mem_Icc] at hi hj
  rw [psiVal_eq_loading _ _ _ (hL i (by omega) (by omega)).ne',
    psiVal_eq_loading _ _ _ (hL j (by omega) (by omega)).ne']

example (t : ℝ) : computeASide exLmm exTenor (exTenor.m t + 1)
    = .ok (quadOn exLmm.liborCorr (loading exLmm exTenor) (openLibors exTenor t)) :=
  C63_a_side exTenor_ordered exLmm_valid exLmm_symm exTenor_rates t

/-- **C63.** The three coefficients add up to the variance of the log-forward at the expected
square roots of the variances; a currency's variance starts at its long-run level `v0`, reverts at
speed `λ` and has volatility `η`. -/
theorem C63_variance {p : HlmmParams} (h : p.tenor.Ordered) (hv : p.Valid)
    (hcd : UnitSymm p.domestic.liborCorr p.tenor.n) (hcf : UnitSymm p.foreign.liborCorr p.tenor.n)
    (hL : ∀ k, 1 ≤ k → k ≤ p.tenor.n → 0 < 1 + (p.tenor.T k - p.tenor.T (k - 1)) * p.tenor.L k)
    (hk : 0 < p.heston.kappa) (t : ℝ) :
    ∃ x y z ad af f, p.heston.sqrtMean t = .ok x
      ∧ (Cir.mk p.domestic.lambda p.domestic.v0 p.domestic.eta p.domestic.v0).sqrtMean t = .ok y
      ∧ (Cir.mk p.foreign.lambda p.foreign.v0 p.foreign.eta p.foreign.v0).sqrtMean t = .ok z
      ∧ computeAD p (p.tenor.m t + 1) = .ok ad
      ∧ computeAF p (p.tenor.m t + 1) = .ok af ∧ computeF p t (p.tenor.m t + 1) = .ok f
      ∧ x ^ 2 + ad * y ^ 2 + af * z ^ 2 + f
        = forwardVariance p (openLibors p.tenor t) x (fun j => y * loading p.domestic p.tenor j)
          (fun j => -(z * loading p.foreign p.tenor j)) := by
  refine ⟨_, _, _, _, _, _, sqrtMean_phiOf _ hk t,
    sqrtMean_phiOf p.domestic.cir hv.1.2.2.2.2.2.1 t,
    sqrtMean_phiOf p.foreign.cir hv.2.1.2.2.2.2.2.1 t, computeASide_eq h hv.1.1 hv.1.2.2.1 hv.1.2.2.2.1 (by omega),
    computeASide_eq h hv.2.1.1 hv.2.1.2.2.1 hv.2.1.2.2.2.1 (by omega),
    computeF_eq h hv hk t (by omega), ?_⟩
  have he := forwardVariance_eq hcd hcf (phiOf p.heston t) (phiOf p.domestic.cir t)
    (phiOf p.foreign.cir t) (a := p.tenor.m t + 1) (by omega)
  rw [sq, sq, sq, ← he, openLibors_eq h]
  have hload : ∀ l : DdSvLmm, ∀ j ∈ Finset.Icc (p.tenor.m t + 1) p.tenor.n,
      psiVal l p.tenor j = loading l p.tenor j := by
    intro l j hj
    rw [Finset.mem_Icc] at hj
    exact psiVal_eq_loading _ _ _ (hL j (by omega) (by omega)).ne'
  unfold forwardVariance quadOn
  congr 1
  · congr 1
    · congr 1
      · congr 1
        · congr 1
          exact Finset.sum_congr rfl fun i hi => Finset.sum_congr rfl fun j hj => by
            beta_reduce; rw [hload _ i hi, hload _ j hj]
        · exact Finset.sum_congr rfl fun i hi => Finset.sum_congr rfl fun j hj => by
            beta_reduce; rw [hload _ i hi, hload _ j hj]
      · congr 2
        exact Finset.sum_congr rfl fun i hi => by beta_reduce; rw [hload _ i hi]
    · congr 2
      exact Finset.sum_congr rfl fun i hi => by beta_reduce; rw [hload _ i hi]
  · congr 1
    exact Finset.sum_congr rfl fun i hi => Finset.sum_congr rfl fun j hj => by
      beta_reduce; rw [hload _ i hi, hload _ j hj]

example (t : ℝ) : ∃ f, computeF exHlmm t (exHlmm.tenor.m t + 1) = .ok f := by
  obtain ⟨_, _, _, _, _, f, -, -, -, -, -, hf, -⟩ := C63_variance (p := exHlmm) exTenor_ordered
    exHlmm_valid exLmm_symm exLmm_symm exTenor_rates (by norm_num [exHlmm]) t
  exact ⟨f, hf⟩

/-! ## The segments -/

/-- **C63.** The evaluator is not built with an odd number of intervals or fewer than two, with
a non-positive expiry, with invalid parameters or without a Libor. -/
theorem C63_panics (p : HlmmParams) (T : ℝ) (n : ℕ)
    (h : n < 2 ∨ n % 2 = 1 ∨ T ≤ 0 ∨ ¬ p.Valid ∨ p.tenor.n = 0) :
    HlmmChf.withSimpsonSteps p T n = .panic := by
  rw [HlmmChf.withSimpsonSteps]
  by_cases hc : (2 ≤ n ∧ n % 2 = 0) ∧ 0 < T ∧ p.Valid
  · rw [if_pos hc, tauBoundaries, if_pos, panic_bind]
    obtain ⟨⟨h1, h2⟩, h3, h4⟩ := hc
    rcases h with h | h | h | h | h
    · omega
    · omega
    · linarith
    · exact absurd h4 h
    · exact h
  · rw [if_neg hc]

example : HlmmChf.withSimpsonSteps exHlmm (-1) 32 = .panic :=
  C63_panics _ _ _ (.inr (.inr (.inl (by norm_num))))

/-- **C63.** The segments tile the life of the option; on each of them the open Libors do not
change, and the segment carries their coefficients. -/
theorem C63_segments {p : HlmmParams} (h : p.tenor.Ordered) (hv : p.Valid)
    (hcd : UnitSymm p.domestic.liborCorr p.tenor.n) (hcf : UnitSymm p.foreign.liborCorr p.tenor.n)
    (hL : ∀ k, 1 ≤ k → k ≤ p.tenor.n → 0 < 1 + (p.tenor.T k - p.tenor.T (k - 1)) * p.tenor.L k)
    (hn : 0 < p.tenor.n) (h0 : p.tenor.T 0 = 0 ∨ 1 / 10 ^ 12 < p.tenor.T 0) {T : ℝ} (hT : 0 < T)
    {m : ℕ} (hm : 0 < m) :
    ∃ q, HlmmChf.withSimpsonSteps p T (2 * m) = .ok q ∧ q.params = p ∧ q.expiry = T
      ∧ q.nSimpson = 2 * m ∧ Tiles T 0 q.segments
      ∧ ∀ s ∈ q.segments, ∀ t, s.tau - s.length < t → t < s.tau →
        openLibors p.tenor (T - t) = Finset.Icc s.startIdx p.tenor.n
        ∧ s.ad = quadOn p.domestic.liborCorr (loading p.domestic p.tenor)
            (openLibors p.tenor (T - t))
        ∧ s.af = quadOn p.foreign.liborCorr (loading p.foreign p.tenor)
            (openLibors p.tenor (T - t)) := by
  obtain ⟨segs, h1, h2, h3⟩ := withSimpsonSteps_segments h hv hn h0 hT hm
  refine ⟨_, h1, rfl, rfl, rfl, h2, fun s hs t ht1 ht2 => ?_⟩
  obtain ⟨s1, s2, s3, s4, s5, s6, s7⟩ := h3 s hs
  have hm' := s5 t ht1 ht2
  have ha := C63_a_side h hv.1 hcd hL (T - t)
  have hb := C63_a_side h hv.2.1 hcf hL (T - t)
  rw [computeASide_eq h hv.1.1 hv.1.2.2.1 hv.1.2.2.2.1 (by omega), hm', ← s6] at ha
  rw [computeASide_eq h hv.2.1.1 hv.2.1.2.2.1 hv.2.1.2.2.2.1 (by omega), hm', ← s7] at hb
  refine ⟨by rw [openLibors_eq h, hm'], ?_, ?_⟩
  · injection ha
  · injection hb

example : ∃ q, HlmmChf.withSimpsonSteps exHlmm 2 (2 * 16) = .ok q ∧ Tiles 2 0 q.segments := by
  obtain ⟨q, h1, -, -, -, h2, -⟩ := C63_segments (p := exHlmm) exTenor_ordered exHlmm_valid exLmm_symm
    exLmm_symm exTenor_rates (by decide) (.inl (by simp [exHlmm, exTenor, LiborTenor.T]))
    (T := 2) (by norm_num) (m := 16) (by norm_num)
  exact ⟨q, h1, h2⟩

/-- **C63.** The default is 32 intervals per segment. -/
theorem C63_default (p : HlmmParams) (T : ℝ) :
    HlmmChf.new p T = HlmmChf.withSimpsonSteps p T 32 := rfl

/-! ## The closed forms -/

/-- **C63.** The closed form with the principal logarithm is the integral of `C`: no branch is
crossed. -/
theorem C63_heston_a {kappa theta gamma rho : ℝ} (hk : 0 < kappa) (hg : gamma ≠ 0) (hr : |rho| ≤ 1)
    (u : ℝ) {a b : ℝ} (ha : 0 ≤ a) (hab : a ≤ b) :
    hestonAIncrement u kappa theta gamma rho a b
      = ((kappa * theta : ℝ) : ℂ) * ∫ t in a..b, hestonCFn u kappa gamma rho t :=
  hestonAIncrement_eq hk hg hr u ha hab

example : hestonAIncrement (3 : ℝ) (1 / 2) (1 / 10) (3 / 10) (-2 / 5) 0 10
    = ((1 / 2 * (1 / 10) : ℝ) : ℂ) * ∫ t in (0 : ℝ)..10, hestonCFn (3 : ℝ) (1 / 2) (3 / 10) (-2 / 5) t :=
  C63_heston_a (by norm_num) (by norm_num) (by norm_num [abs_of_neg]) 3 le_rfl (by norm_num)

/-- **C63.** `C` starts at zero and solves the Riccati equation of the FX variance. -/
theorem C63_heston_c {kappa gamma rho : ℝ} (hk : 0 < kappa) (hr : |rho| ≤ 1) (u : ℝ) :
    hestonCFn u kappa gamma rho 0 = 0 ∧ ∀ t, 0 < t →
      HasDerivAt (hestonCFn u kappa gamma rho)
        (((Complex.I * u) ^ 2 - Complex.I * u) / 2
          + (gamma * rho * (Complex.I * u) - kappa) * hestonCFn u kappa gamma rho t
          + ((gamma ^ 2 : ℝ) : ℂ) / 2 * hestonCFn u kappa gamma rho t ^ 2) t := by
  refine ⟨by rw [hestonCFn, if_pos le_rfl], fun t ht => ?_⟩
  obtain ⟨h1, h2, h3⟩ := h_regular (gamma := gamma) hk hr u
  have hd := hasDerivAt_hestonC (hD_sq kappa gamma rho u)
    (hestonDen_ne_zero h1 h2 ((sq_nonneg _).trans h3) ht.le)
  rw [hestonCFn_eq _ _ _ _ ht.le]
  refine (hd.congr_of_eventuallyEq ?_).congr_deriv ?_
  · filter_upwards [lt_mem_nhds ht] with y hy
    exact hestonCFn_eq _ _ _ _ hy.le
  · unfold hX chfQ; push_cast; ring

example : hestonCFn (3 : ℝ) (1 / 2) (3 / 10) (-2 / 5) 0 = 0 :=
  (C63_heston_c (by norm_num) (by norm_num [abs_of_neg]) 3).1

/-- **C63.** Over a segment the Libor variance exponent solves its Riccati equation from any
starting value with non-positive real part, keeps a non-positive real part, and the second result
is `λ v₀ ∫ D`. -/
theorem C63_advance {lambda eta aj : ℝ} (v0 : ℝ) (hl : 0 < lambda) (he : 0 < eta) (ha : 0 ≤ aj)
    (u : ℝ) {dp : ℂ} (hdp : dp.re ≤ 0) :
    ∃ D : ℝ → ℂ, D 0 = dp ∧ (∀ s, 0 ≤ s → (D s).re ≤ 0
      ∧ HasDerivAt D (aj * ((Complex.I * u) ^ 2 - Complex.I * u) / 2 - lambda * D s
          + ((eta ^ 2 : ℝ) : ℂ) / 2 * D s ^ 2) s
      ∧ advanceD u lambda eta aj v0 dp s
        = (D s, ((lambda * v0 : ℝ) : ℂ) * ∫ t in (0 : ℝ)..s, D t)) := by
  refine ⟨advPath lambda eta aj u dp, advPath_zero _ _ _ _ _, fun s hs => ⟨?_, ?_, ?_⟩⟩
  · exact advPath_re_nonpos hl ha u hdp hs
  · refine (hasDerivAt_advPath hl ha u hdp hs).congr_deriv ?_
    unfold chfQ; push_cast; ring
  · exact advanceD_real hl he.ne' ha u hdp hs

example : ∃ D : ℝ → ℂ, D 0 = -1 ∧ ∀ s, 0 ≤ s → (D s).re ≤ 0 := by
  obtain ⟨D, h1, h2⟩ := C63_advance (lambda := 3 / 10) (eta := 1 / 2) (aj := 1 / 100) 1 (by norm_num)
    (by norm_num) (by norm_num) 3 (dp := -1) (by norm_num)
  exact ⟨D, h1, fun s hs => (h2 s hs).1⟩

/-! ## The components -/

/-- **C63.** The components are the solutions of the Riccati equations with the segments'
coefficients; `A` is the integral of `κθ C + λ_d v_d D_d + λ_f v_f D_f` plus the Simpson sums of
`f` times `((iu)² - iu)/2`.  That the Simpson sums converge to the
integral is C83. -/
theorem C63_components_partial {p : HlmmParams} (h : p.tenor.Ordered) (hv : p.Valid)
    (hcd : UnitSymm p.domestic.liborCorr p.tenor.n) (hcf : UnitSymm p.foreign.liborCorr p.tenor.n)
    (hpd : ∀ w, 0 ≤ quadOn p.domestic.liborCorr w (Finset.Icc 1 p.tenor.n))
    (hpf : ∀ w, 0 ≤ quadOn p.foreign.liborCorr w (Finset.Icc 1 p.tenor.n))
    (hn : 0 < p.tenor.n) (h0 : p.tenor.T 0 = 0 ∨ 1 / 10 ^ 12 < p.tenor.T 0)
    (hk : 0 < p.heston.kappa) (hg : p.heston.gamma ≠ 0) (hr : |p.correlations.xiSigma| ≤ 1)
    {T : ℝ} (hT : 0 < T) {m : ℕ} (hm : 0 < m) :
    ∃ q, HlmmChf.withSimpsonSteps p T (2 * m) = .ok q ∧ ∀ u : ℝ, ∃ Dd Df : ℝ → ℂ, ∃ F : Segment → ℝ → ℝ,
      SolvesD q.segments Segment.ad p.domestic.lambda p.domestic.eta T
        ((Complex.I * u) ^ 2 - Complex.I * u) Dd
      ∧ SolvesD q.segments Segment.af p.foreign.lambda p.foreign.eta T
        ((Complex.I * u) ^ 2 - Complex.I * u) Df
      ∧ (∀ t ∈ Set.Icc 0 T, (Dd t).re ≤ 0 ∧ (Df t).re ≤ 0)
      ∧ (∀ s ∈ q.segments, ∀ t, computeF p (T - t) s.startIdx = .ok (F s t))
      ∧ q.components u = .ok
        ⟨((p.heston.kappa * p.heston.theta : ℝ) : ℂ) * (∫ t in (0 : ℝ)..T,
              hestonCFn u p.heston.kappa p.heston.gamma p.correlations.xiSigma t)
            + ((p.domestic.lambda * p.domestic.v0 : ℝ) : ℂ) * (∫ t in (0 : ℝ)..T, Dd t)
            + ((p.foreign.lambda * p.foreign.v0 : ℝ) : ℂ) * (∫ t in (0 : ℝ)..T, Df t)
            + ((Complex.I * u) ^ 2 - Complex.I * u) / 2
              * (((q.segments.map fun s => simpsonOn m (s.tau - s.length) s.tau (F s)).sum : ℝ) : ℂ),
          Complex.I * u,
          hestonCFn u p.heston.kappa p.heston.gamma p.correlations.xiSigma T, Dd T, Df T⟩ := by
  obtain ⟨segs, h1, h2, h3⟩ := withSimpsonSteps_segments h hv hn h0 hT hm
  refine ⟨_, h1, fun u => ?_⟩
  have hqe : (Complex.I * (u : ℂ)) ^ 2 - Complex.I * u = chfQ u := by unfold chfQ; ring
  have had : ∀ s ∈ segs, 0 ≤ s.ad := by
    intro s hs
    obtain ⟨s1, -, -, -, -, s6, -⟩ := h3 s hs
    rw [s6, triForm_eq _ _ _ hcd _ _ s1 rfl]
    exact quadOn_nonneg hpd _ s1
  have haf : ∀ s ∈ segs, 0 ≤ s.af := by
    intro s hs
    obtain ⟨s1, -, -, -, -, -, s7⟩ := h3 s hs
    rw [s7, triForm_eq _ _ _ hcf _ _ s1 rfl]
    exact quadOn_nonneg hpf _ s1
  obtain ⟨Dd, d1, d2, d3, d4, d5⟩ := path_exists (v0 := p.domestic.v0) hv.1.2.2.2.2.2.1
    hv.1.2.2.2.2.2.2.1.ne' Segment.ad u segs 0 0 h2 le_rfl had
  obtain ⟨Df, f1, f2, f3, f4, f5⟩ := path_exists (v0 := p.foreign.v0) hv.2.1.2.2.2.2.2.1
    hv.2.1.2.2.2.2.2.2.1.ne' Segment.af u segs 0 0 h2 le_rfl haf
  refine ⟨Dd, Df, fun s t => crossForm p (phiOf p.heston (T - t)) (phiOf p.domestic.cir (T - t))
      (phiOf p.foreign.cir (T - t)) s.startIdx, ⟨d1, d2, ?_⟩, ⟨f1, f2, ?_⟩,
      fun t ht => ⟨d3 t ht, f3 t ht⟩, ?_, ?_⟩
  · rw [hqe]; exact d4
  · rw [hqe]; exact f4
  · intro s hs t
    exact computeF_eq h hv hk _ (h3 s hs).1
  · rw [HlmmChf.components]
    dsimp only
    rw [pass_fold h hv hk T segs hm u segs ⟨0, 0, 0, 0⟩ h2 fun s hs => (h3 s hs).1, ok_bind]
    dsimp only
    rw [d5, f5, hestonAIncrement_eq hk hg hr u le_rfl hT.le, zero_add, hqe]
    rfl

example : ∃ q, HlmmChf.withSimpsonSteps exHlmm 2 (2 * 16) = .ok q ∧
    ∀ u : ℝ, ∃ c, q.components u = .ok c := by
  obtain ⟨q, h1, h2⟩ := C63_components_partial (p := exHlmm) exTenor_ordered exHlmm_valid exLmm_symm
    exLmm_symm exLmm_psd exLmm_psd (by decide)
    (.inl (by simp [exHlmm, exTenor, LiborTenor.T])) (by norm_num [exHlmm]) (by norm_num [exHlmm])
    (by norm_num [exHlmm, abs_of_neg]) (T := 2) (by norm_num) (m := 16) (by norm_num)
  refine ⟨q, h1, fun u => ?_⟩
  obtain ⟨_, _, _, -, -, -, -, h⟩ := h2 u
  exact ⟨_, h⟩

theorem hlmmGenerator_affine (p : HlmmParams) (k : VarCoeffs) (a b c d e : ℂ) (x v y z : ℝ) :
    hlmmGenerator p k (fun x v y z => Complex.exp (a + b * x + c * v + d * y + e * z)) x v y z
      = Complex.exp (a + b * x + c * v + d * y + e * z) * (
        (((v + k.ad * y + k.af * z + k.f) / 2 : ℝ) : ℂ) * (b ^ 2 - b)
        + ((p.heston.kappa * (p.heston.theta - v) : ℝ) : ℂ) * c
        + ((p.heston.gamma ^ 2 * v / 2 : ℝ) : ℂ) * c ^ 2
        + ((p.heston.gamma * p.correlations.xiSigma * v : ℝ) : ℂ) * b * c
        + ((p.domestic.lambda * (p.domestic.v0 - y) : ℝ) : ℂ) * d
        + ((p.domestic.eta ^ 2 * y / 2 : ℝ) : ℂ) * d ^ 2
        + ((p.foreign.lambda * (p.foreign.v0 - z) : ℝ) : ℂ) * e
        + ((p.foreign.eta ^ 2 * z / 2 : ℝ) : ℂ) * e ^ 2) := by
  have hx : ∀ v y z : ℝ, ∀ x, deriv (fun x : ℝ => Complex.exp (a + b * x + c * v + d * y + e * z)) x
      = b * Complex.exp (a + b * x + c * v + d * y + e * z) := by
    intro v y z x
    have := deriv_exp_affine (a + c * v + d * y + e * z) b x
    rw [show (fun x : ℝ => Complex.exp (a + b * x + c * v + d * y + e * z))
      = fun x : ℝ => Complex.exp (a + c * v + d * y + e * z + b * x) from
        funext fun x => by congr 1; ring, this]
    congr 2; ring
  have hv : ∀ x y z : ℝ, ∀ v, deriv (fun v : ℝ => Complex.exp (a + b * x + c * v + d * y + e * z)) v
      = c * Complex.exp (a + b * x + c * v + d * y + e * z) := by
    intro x y z v
    have := deriv_exp_affine (a + b * x + d * y + e * z) c v
    rw [show (fun v : ℝ => Complex.exp (a + b * x + c * v + d * y + e * z))
      = fun v : ℝ => Complex.exp (a + b * x + d * y + e * z + c * v) from
        funext fun x => by congr 1; ring, this]
    congr 2; ring
  have hy : ∀ x v z : ℝ, ∀ y, deriv (fun y : ℝ => Complex.exp (a + b * x + c * v + d * y + e * z)) y
      = d * Complex.exp (a + b * x + c * v + d * y + e * z) := by
    intro x v z y
    have := deriv_exp_affine (a + b * x + c * v + e * z) d y
    rw [show (fun y : ℝ => Complex.exp (a + b * x + c * v + d * y + e * z))
      = fun y : ℝ => Complex.exp (a + b * x + c * v + e * z + d * y) from
        funext fun x => by congr 1; ring, this]
    congr 2; ring
  have hz : ∀ x v y : ℝ, ∀ z, deriv (fun z : ℝ => Complex.exp (a + b * x + c * v + d * y + e * z)) z
      = e * Complex.exp (a + b * x + c * v + d * y + e * z) := by
    intro x v y z
    exact deriv_exp_affine (a + b * x + c * v + d * y) e z
  simp only [hlmmGenerator, hx, hv, hy, hz, deriv_const_mul_field]
  push_cast
  ring

/-- **C63.** For an exponential of the assembled form the pricing equation of the linearised model
is the system of ordinary equations solved by the components. -/
theorem C63_affine (p : HlmmParams) (k : VarCoeffs) (u : ℂ) (A C Dd Df : ℝ → ℂ) {tau : ℝ}
    {A' C' Dd' Df' : ℂ} (hA : HasDerivAt A A' tau) (hC : HasDerivAt C C' tau)
    (hDd : HasDerivAt Dd Dd' tau) (hDf : HasDerivAt Df Df' tau) :
    (∀ x v y z : ℝ, HasDerivAt
        (fun t => HlmmComponents.assemble ⟨A t, Complex.I * u, C t, Dd t, Df t⟩ x v y z)
        (hlmmGenerator p k
          (HlmmComponents.assemble ⟨A tau, Complex.I * u, C tau, Dd tau, Df tau⟩) x v y z) tau)
    ↔ C' = ((Complex.I * u) ^ 2 - Complex.I * u) / 2
          + (p.heston.gamma * p.correlations.xiSigma * (Complex.I * u) - p.heston.kappa) * C tau
          + ((p.heston.gamma ^ 2 : ℝ) : ℂ) / 2 * C tau ^ 2
      ∧ Dd' = k.ad * ((Complex.I * u) ^ 2 - Complex.I * u) / 2 - p.domestic.lambda * Dd tau
          + ((p.domestic.eta ^ 2 : ℝ) : ℂ) / 2 * Dd tau ^ 2
      ∧ Df' = k.af * ((Complex.I * u) ^ 2 - Complex.I * u) / 2 - p.foreign.lambda * Df tau
          + ((p.foreign.eta ^ 2 : ℝ) : ℂ) / 2 * Df tau ^ 2
      ∧ A' = ((p.heston.kappa * p.heston.theta : ℝ) : ℂ) * C tau
          + ((p.domestic.lambda * p.domestic.v0 : ℝ) : ℂ) * Dd tau
          + ((p.foreign.lambda * p.foreign.v0 : ℝ) : ℂ) * Df tau
          + ((Complex.I * u) ^ 2 - Complex.I * u) / 2 * (k.f : ℂ) := by
  have hd : ∀ x v y z : ℝ, HasDerivAt
      (fun t => HlmmComponents.assemble ⟨A t, Complex.I * u, C t, Dd t, Df t⟩ x v y z)
      (HlmmComponents.assemble ⟨A tau, Complex.I * u, C tau, Dd tau, Df tau⟩ x v y z
        * (A' + C' * v + Dd' * y + Df' * z)) tau := by
    intro x v y z
    exact ((((hA.add_const (Complex.I * u * x)).add (hC.mul_const (v : ℂ))).add
      (hDd.mul_const (y : ℂ))).add (hDf.mul_const (z : ℂ))).cexp
  have hiff : ∀ x v y z : ℝ, (HasDerivAt
        (fun t => HlmmComponents.assemble ⟨A t, Complex.I * u, C t, Dd t, Df t⟩ x v y z)
        (hlmmGenerator p k
          (HlmmComponents.assemble ⟨A tau, Complex.I * u, C tau, Dd tau, Df tau⟩) x v y z) tau)
      ↔ A' + C' * v + Dd' * y + Df' * z
        = (((p.heston.kappa * p.heston.theta : ℝ) : ℂ) * C tau
          + ((p.domestic.lambda * p.domestic.v0 : ℝ) : ℂ) * Dd tau
          + ((p.foreign.lambda * p.foreign.v0 : ℝ) : ℂ) * Df tau
          + ((Complex.I * u) ^ 2 - Complex.I * u) / 2 * (k.f : ℂ))
        + (((Complex.I * u) ^ 2 - Complex.I * u) / 2
          + (p.heston.gamma * p.correlations.xiSigma * (Complex.I * u) - p.heston.kappa) * C tau
          + ((p.heston.gamma ^ 2 : ℝ) : ℂ) / 2 * C tau ^ 2) * v
        + (k.ad * ((Complex.I * u) ^ 2 - Complex.I * u) / 2 - p.domestic.lambda * Dd tau
          + ((p.domestic.eta ^ 2 : ℝ) : ℂ) / 2 * Dd tau ^ 2) * y
        + (k.af * ((Complex.I * u) ^ 2 - Complex.I * u) / 2 - p.foreign.lambda * Df tau
          + ((p.foreign.eta ^ 2 : ℝ) : ℂ) / 2 * Df tau ^ 2) * z := by
    intro x v y z
    have hgen := hlmmGenerator_affine p k (A tau) (Complex.I * u) (C tau) (Dd tau) (Df tau) x v y z
    have hfun : HlmmComponents.assemble ⟨A tau, Complex.I * u, C tau, Dd tau, Df tau⟩
        = fun x v y z : ℝ => Complex.exp (A tau + Complex.I * u * x + C tau * v + Dd tau * y
          + Df tau * z) := rfl
    have hne : Complex.exp (A tau + Complex.I * u * x + C tau * v + Dd tau * y + Df tau * z) ≠ 0 :=
      Complex.exp_ne_zero _
    have hdx := hd x v y z
    rw [hfun] at hdx ⊢
    rw [hgen]
    constructor
    · intro h
      have := mul_left_cancel₀ hne (hdx.unique h)
      rw [this]
      push_cast
      ring
    · intro h
      refine hdx.congr_deriv ?_
      rw [h]
      push_cast
      ring
  constructor
  · intro h
    have h0 := (hiff 0 0 0 0).1 (h 0 0 0 0)
    have h1 := (hiff 0 1 0 0).1 (h 0 1 0 0)
    have h2 := (hiff 0 0 1 0).1 (h 0 0 1 0)
    have h3 := (hiff 0 0 0 1).1 (h 0 0 0 1)
    simp only [Complex.ofReal_zero, Complex.ofReal_one, mul_zero, mul_one, add_zero] at h0 h1 h2 h3
    exact ⟨by linear_combination h1 - h0, by linear_combination h2 - h0,
      by linear_combination h3 - h0, h0⟩
  · rintro ⟨h1, h2, h3, h4⟩ x v y z
    exact (hiff x v y z).2 (by rw [h1, h2, h3, h4])

/-- To first order at the expiry, at frequency 3. -/
example (k : VarCoeffs) (x v y z : ℝ) :
    let q : ℂ := ((Complex.I * 3) ^ 2 - Complex.I * 3) / 2
    HasDerivAt (fun t : ℝ => HlmmComponents.assemble
        ⟨q * k.f * t, Complex.I * 3, q * t, k.ad * q * t, k.af * q * t⟩ x v y z)
      (hlmmGenerator exHlmm k
        (HlmmComponents.assemble ⟨0, Complex.I * 3, 0, 0, 0⟩) x v y z) 0 := by
  intro q
  have hl : ∀ c : ℂ, HasDerivAt (fun t : ℝ => c * t) c 0 := fun c => by
    simpa using (Complex.ofRealCLM.hasDerivAt (x := (0 : ℝ))).const_mul c
  have := (C63_affine exHlmm k 3 _ _ _ _ (hl (q * k.f)) (hl q) (hl (k.ad * q))
    (hl (k.af * q))).2 ⟨by simp [q], by simp [q]; ring, by simp [q]; ring, by simp [q]⟩ x v y z
  simpa using this

/-! ## Values at particular frequencies -/

theorem sqrt_sq_of_pos {x : ℂ} (hx : 0 < x.re) : (x * x) ^ (1 / 2 : ℂ) = x := by
  have := Complex.sq_cpow_two_inv hx
  rw [← sq, one_div]
  exact this

theorem advanceD_zero_q {lambda eta aj v0 : ℝ} (hl : 0 < lambda) {u : ℂ}
    (hu : u * u + Complex.I * u = 0) (s : ℝ) : advanceD u lambda eta aj v0 0 s = (0, 0) := by
  rw [advanceD]
  split_ifs
  · rfl
  · dsimp only
    have hd : (((lambda * lambda : ℝ) : ℂ) + ((eta * eta * aj : ℝ) : ℂ) * (u * u + Complex.I * u))
        ^ (1 / 2 : ℂ) = lambda := by
      rw [hu, mul_zero, add_zero, Complex.ofReal_mul]
      exact sqrt_sq_of_pos (by simpa using hl)
    rw [hd]
    simp

theorem dFold_zero_q {lambda eta v0 : ℝ} (hl : 0 < lambda) (a : Segment → ℝ) {u : ℂ}
    (hu : u * u + Complex.I * u = 0) (segs : List Segment) :
    dFold u lambda eta v0 a (0, 0) segs = (0, 0) := by
  induction segs with
  | nil => rfl
  | cons s rest ih =>
    have : dFold u lambda eta v0 a (0, 0) (s :: rest)
      = dFold u lambda eta v0 a ((advanceD u lambda eta (a s) v0 0 s.length).1,
        0 + (advanceD u lambda eta (a s) v0 0 s.length).2) rest := rfl
    rw [this, advanceD_zero_q hl hu]
    dsimp only
    rw [add_zero, ih]

theorem hestonAClosed_zero_q {kappa theta gamma rho : ℝ} {u : ℂ} (hu : chfQ u = 0)
    (hx : 0 < (hX kappa gamma rho u).re) {t : ℝ} (ht : 0 ≤ t) :
    hestonAClosed u kappa theta gamma rho t = 0 := by
  have hd : hD kappa gamma rho u = hX kappa gamma rho u := by
    have : gamma * gamma * (Complex.I * u) * (Complex.I * u - 1) = gamma * gamma * chfQ u := by
      unfold chfQ; ring
    rw [hD, this, hu, mul_zero, sub_zero]
    exact sqrt_sq_of_pos hx
  have hne : hX kappa gamma rho u ≠ 0 := fun h => by rw [h] at hx; simp at hx
  rw [hestonAClosed_eq ht (by rw [hd]; exact hne) (by rw [hd, ← two_mul]; exact mul_ne_zero two_ne_zero hne),
    hd, hestonLog, hestonRatio, hestonDen]
  have h2 : (2 : ℂ) * hX kappa gamma rho u ≠ 0 := mul_ne_zero two_ne_zero hne
  rw [sub_self, zero_mul, zero_mul, sub_zero, zero_sub, ← two_mul, div_self h2, Complex.log_one]
  simp

/-- At a frequency with `u² + iu = 0` all components but `B` vanish. -/
theorem components_zero_q {p : HlmmParams} (h : p.tenor.Ordered) (hv : p.Valid)
    (hn : 0 < p.tenor.n) (h0 : p.tenor.T 0 = 0 ∨ 1 / 10 ^ 12 < p.tenor.T 0)
    (hk : 0 < p.heston.kappa) {T : ℝ} (hT : 0 < T) {m : ℕ} (hm : 0 < m) {u : ℂ} (hu : chfQ u = 0)
    (hx : 0 < (hX p.heston.kappa p.heston.gamma p.correlations.xiSigma u).re) :
    ∃ segs, HlmmChf.withSimpsonSteps p T (2 * m) = .ok ⟨p, T, segs, 2 * m⟩ ∧
      (⟨p, T, segs, 2 * m⟩ : HlmmChf).components u = .ok ⟨0, Complex.I * u, 0, 0, 0⟩ := by
  obtain ⟨segs, h1, h2, h3⟩ := withSimpsonSteps_segments h hv hn h0 hT hm
  refine ⟨segs, h1, ?_⟩
  have hu' : u * u + Complex.I * u = 0 := by
    have := chfQ_eq u; rw [hu] at this; exact neg_eq_zero.1 this.symm
  rw [HlmmChf.components]
  dsimp only
  rw [pass_fold h hv hk T segs hm u segs ⟨0, 0, 0, 0⟩ h2 fun s hs => (h3 s hs).1, ok_bind]
  dsimp only
  rw [dFold_zero_q hv.1.2.2.2.2.2.1 _ hu', dFold_zero_q hv.2.1.2.2.2.2.2.1 _ hu', hu,
    hestonAIncrement, hestonAClosed_zero_q hu hx hT.le, hestonAClosed_zero_q hu hx le_rfl,
    hestonCFn_eq _ _ _ _ hT.le, hu]
  simp [hestonC]

/-- **C63.** The characteristic function is one at zero. -/
theorem C63_zero {p : HlmmParams} (h : p.tenor.Ordered) (hv : p.Valid)
    (hL : ∀ k, 1 ≤ k → k ≤ p.tenor.n → 0 < 1 + (p.tenor.T k - p.tenor.T (k - 1)) * p.tenor.L k)
    (hn : 0 < p.tenor.n) (h0 : p.tenor.T 0 = 0 ∨ 1 / 10 ^ 12 < p.tenor.T 0)
    (hk : 0 < p.heston.kappa) {T : ℝ} (hT : 0 < T) {m : ℕ} (hm : 0 < m) :
    ∃ q, HlmmChf.withSimpsonSteps p T (2 * m) = .ok q ∧ q.evaluate 0 = .ok 1 := by
  obtain ⟨segs, h1, h2⟩ := components_zero_q h hv hn h0 hk hT hm (u := 0) (by simp [chfQ])
    (by simpa [hX] using hk)
  obtain ⟨P, hP, -⟩ := liborDiscounts_ok h hn hL T
  refine ⟨_, h1, ?_⟩
  rw [HlmmChf.evaluate]
  dsimp only
  rw [h2, ok_bind, hP, ok_bind]
  simp [HlmmComponents.assemble]

/-- **C63.** The forward is a martingale: at `-i` the characteristic function is the spot, provided
`γ ρ < κ`.  (Both discount factors come from the one curve, so the forward is the spot.) -/
theorem C63_martingale {p : HlmmParams} (h : p.tenor.Ordered) (hv : p.Valid)
    (hL : ∀ k, 1 ≤ k → k ≤ p.tenor.n → 0 < 1 + (p.tenor.T k - p.tenor.T (k - 1)) * p.tenor.L k)
    (hn : 0 < p.tenor.n) (h0 : p.tenor.T 0 = 0 ∨ 1 / 10 ^ 12 < p.tenor.T 0)
    (hk : 0 < p.heston.kappa) (hkg : p.heston.gamma * p.correlations.xiSigma < p.heston.kappa)
    (hfx : 0 < p.fx0) {T : ℝ} (hT : 0 < T) {m : ℕ} (hm : 0 < m) :
    ∃ q, HlmmChf.withSimpsonSteps p T (2 * m) = .ok q
      ∧ q.evaluate (-Complex.I) = .ok (p.fx0 : ℂ) := by
  have hiu : Complex.I * -Complex.I = 1 := by
    rw [mul_neg, Complex.I_mul_I, neg_neg]
  obtain ⟨segs, h1, h2⟩ := components_zero_q h hv hn h0 hk hT hm (u := -Complex.I)
    (by rw [chfQ, hiu]; ring) (by rw [hX, hiu, mul_one]; simpa using hkg)
  obtain ⟨P, hP, hPpos⟩ := liborDiscounts_ok h hn hL T
  refine ⟨_, h1, ?_⟩
  rw [HlmmChf.evaluate]
  dsimp only
  rw [h2, ok_bind, hP, ok_bind]
  dsimp only
  rw [mul_div_assoc, div_self hPpos.ne', mul_one, HlmmComponents.assemble, hiu]
  simp only [zero_mul, add_zero, zero_add, one_mul]
  rw [← Complex.ofReal_exp, Real.exp_log hfx]

example : ∃ q, HlmmChf.withSimpsonSteps exHlmm 2 (2 * 16) = .ok q
    ∧ q.evaluate (-Complex.I) = .ok ((27 / 20 : ℝ) : ℂ) :=
  C63_martingale (p := exHlmm) exTenor_ordered exHlmm_valid exTenor_rates (by decide)
    (.inl (by simp [exHlmm, exTenor, LiborTenor.T])) (by norm_num [exHlmm]) (by norm_num [exHlmm])
    (by norm_num [exHlmm]) (by norm_num) (by norm_num)

example : ∃ q, HlmmChf.withSimpsonSteps exHlmm 2 (2 * 16) = .ok q ∧ q.evaluate 0 = .ok 1 :=
  C63_zero (p := exHlmm) exTenor_ordered exHlmm_valid exTenor_rates (by decide)
    (.inl (by simp [exHlmm, exTenor, LiborTenor.T])) (by norm_num [exHlmm]) (by norm_num)
    (by norm_num)

/-- **C63.** With `κ ≤ γ ρ` the divisor `x + d` of the logarithm's argument is zero at `-i`. -/
theorem C63_divisor {kappa gamma rho : ℝ} (h : kappa ≤ gamma * rho) :
    let iu : ℂ := Complex.I * -Complex.I
    let x : ℂ := kappa - gamma * rho * iu
    x + (x * x - gamma * gamma * iu * (iu - 1)) ^ (1 / 2 : ℂ) = 0 := by
  have hiu : Complex.I * -Complex.I = 1 := by
    rw [mul_neg, Complex.I_mul_I, neg_neg]
  dsimp only
  rw [hiu, sub_self, mul_zero, sub_zero, mul_one]
  rcases h.eq_or_lt with rfl | h
  · simp
  · have e : ((kappa : ℂ) - gamma * rho) * (kappa - gamma * rho)
        = ((gamma : ℂ) * rho - kappa) * (gamma * rho - kappa) := by ring
    rw [e, sqrt_sq_of_pos]
    · ring
    · have : (((gamma : ℂ) * rho - kappa)).re = gamma * rho - kappa := by simp
      rw [this]; linarith

example : let iu : ℂ := Complex.I * -Complex.I
    let x : ℂ := (1 / 4 : ℝ) - (1 : ℝ) * (1 / 2 : ℝ) * iu
    x + (x * x - (1 : ℝ) * (1 : ℝ) * iu * (iu - 1)) ^ (1 / 2 : ℂ) = 0 := C63_divisor (by norm_num)

/-- **C63.** For real frequencies the modulus is at most `exp(-u²/2 · Σ Simpson(f))`: the stochastic
variances only damp. -/
theorem C63_modulus {p : HlmmParams} (h : p.tenor.Ordered) (hv : p.Valid)
    (hcd : UnitSymm p.domestic.liborCorr p.tenor.n) (hcf : UnitSymm p.foreign.liborCorr p.tenor.n)
    (hpd : ∀ w, 0 ≤ quadOn p.domestic.liborCorr w (Finset.Icc 1 p.tenor.n))
    (hpf : ∀ w, 0 ≤ quadOn p.foreign.liborCorr w (Finset.Icc 1 p.tenor.n))
    (hL : ∀ k, 1 ≤ k → k ≤ p.tenor.n → 0 < 1 + (p.tenor.T k - p.tenor.T (k - 1)) * p.tenor.L k)
    (hn : 0 < p.tenor.n) (h0 : p.tenor.T 0 = 0 ∨ 1 / 10 ^ 12 < p.tenor.T 0)
    (hk : 0 < p.heston.kappa) (hg : p.heston.gamma ≠ 0) (hr : |p.correlations.xiSigma| ≤ 1)
    (hth : 0 ≤ p.heston.theta) (hs0 : 0 ≤ p.heston.sigma0)
    {T : ℝ} (hT : 0 < T) {m : ℕ} (hm : 0 < m) :
    ∃ q, HlmmChf.withSimpsonSteps p T (2 * m) = .ok q ∧ ∀ u : ℝ, ∃ z : ℂ, ∃ F : Segment → ℝ → ℝ,
      (∀ s ∈ q.segments, ∀ t, computeF p (T - t) s.startIdx = .ok (F s t))
      ∧ q.evaluate u = .ok z
      ∧ ‖z‖ ≤ Real.exp (-(u ^ 2) / 2
        * (q.segments.map fun s => simpsonOn m (s.tau - s.length) s.tau (F s)).sum) := by
  obtain ⟨q, h1, h2⟩ := C63_components_partial h hv hcd hcf hpd hpf hn h0 hk hg hr hT hm
  obtain ⟨q', h1', hqp, hqT, -⟩ := C63_segments h hv hcd hcf hL hn h0 hT hm
  have hqq : q' = q := by rw [h1] at h1'; injection h1' with e; exact e.symm
  subst hqq
  refine ⟨q', h1, fun u => ?_⟩
  obtain ⟨Dd, Df, F, ⟨-, d2, -⟩, ⟨-, f2, -⟩, hre, hF, hc⟩ := h2 u
  obtain ⟨P, hP, -⟩ := liborDiscounts_ok h hn hL T
  suffices hev : ∃ z, q'.evaluate u = .ok z ∧ ‖z‖ ≤ Real.exp (-(u ^ 2) / 2
        * (q'.segments.map fun s => simpsonOn m (s.tau - s.length) s.tau (F s)).sum) by
    obtain ⟨z, hz, hze⟩ := hev
    exact ⟨z, F, hF, hz, hze⟩
  rw [HlmmChf.evaluate]
  dsimp only
  rw [hc, ok_bind, hqp, hqT, hP, ok_bind]
  refine ⟨_, rfl, ?_⟩
  rw [HlmmComponents.assemble, Complex.norm_exp, Real.exp_le_exp]
  obtain ⟨r1, r2, r3⟩ := h_regular (gamma := p.heston.gamma) hk hr u
  have hCre : ∀ t, 0 ≤ t → (hestonCFn u p.heston.kappa p.heston.gamma p.correlations.xiSigma t).re
      ≤ 0 := by
    intro t ht
    rw [hestonCFn_eq _ _ _ _ ht]
    exact hestonC_re_nonpos (g := p.heston.gamma * p.heston.gamma)
      (mul_self_pos.2 hg) (hD_sq _ _ _ _) r1 r2 r3 ht
  have hCc : ContinuousOn (hestonCFn u p.heston.kappa p.heston.gamma p.correlations.xiSigma)
      (Set.Icc 0 T) := by
    refine ((continuousOn_hestonC r1 r2 ((sq_nonneg _).trans r3)).mono
      (fun t ht => ht.1)).congr fun t ht => hestonCFn_eq _ _ _ _ ht.1
  have hint : ∀ f : ℝ → ℂ, ContinuousOn f (Set.Icc 0 T) → (∀ t ∈ Set.Icc 0 T, (f t).re ≤ 0) →
      (∫ t in (0 : ℝ)..T, f t).re ≤ 0 := by
    intro f hf hr
    have hi : IntervalIntegrable f volume 0 T :=
      (hf.mono (by rw [Set.uIcc_of_le hT.le])).intervalIntegrable
    have := Complex.reCLM.intervalIntegral_comp_comm hi
    have e : (∫ t in (0 : ℝ)..T, f t).re = ∫ t in (0 : ℝ)..T, (f t).re := this.symm
    rw [e, ← neg_nonneg, ← intervalIntegral.integral_neg]
    refine intervalIntegral.integral_nonneg hT.le fun t ht => ?_
    linarith [hr t ht]
  have i1 := hint _ hCc fun t ht => hCre t ht.1
  have i2 := hint _ d2 fun t ht => (hre t ht).1
  have i3 := hint _ f2 fun t ht => (hre t ht).2
  have hTT : T ∈ Set.Icc 0 T := ⟨hT.le, le_rfl⟩
  have j1 := hCre T hT.le
  have j2 := (hre T hTT).1
  have j3 := (hre T hTT).2
  have hq : (((Complex.I * (u : ℂ)) ^ 2 - Complex.I * u) / 2).re = -(u ^ 2) / 2 := by
    have e2 : ((2 : ℂ)) = ((2 : ℝ) : ℂ) := by norm_num
    have : (Complex.I * (u : ℂ)) ^ 2 = ((-(u ^ 2) : ℝ) : ℂ) := by
      rw [mul_pow, Complex.I_sq]; push_cast; ring
    have hi : (Complex.I * (u : ℂ)).re = 0 := by simp
    rw [this, e2, Complex.div_ofReal_re, Complex.sub_re, Complex.ofReal_re, hi, sub_zero]
  set S := (q'.segments.map fun s => simpsonOn m (s.tau - s.length) s.tau (F s)).sum with hS
  simp only [Complex.add_re, Complex.re_ofReal_mul, Complex.re_mul_ofReal, hq]
  rw [Complex.I_re, zero_mul, zero_mul]
  have k1 : p.heston.kappa * p.heston.theta * (∫ t in (0 : ℝ)..T,
      hestonCFn u p.heston.kappa p.heston.gamma p.correlations.xiSigma t).re ≤ 0 :=
    mul_nonpos_of_nonneg_of_nonpos (mul_nonneg hk.le hth) i1
  have k2 : p.domestic.lambda * p.domestic.v0 * (∫ t in (0 : ℝ)..T, Dd t).re ≤ 0 :=
    mul_nonpos_of_nonneg_of_nonpos
      (mul_nonneg hv.1.2.2.2.2.2.1.le hv.1.2.2.2.2.2.2.2.le) i2
  have k3 : p.foreign.lambda * p.foreign.v0 * (∫ t in (0 : ℝ)..T, Df t).re ≤ 0 :=
    mul_nonpos_of_nonneg_of_nonpos
      (mul_nonneg hv.2.1.2.2.2.2.2.1.le hv.2.1.2.2.2.2.2.2.2.le) i3
  have k4 := mul_nonpos_of_nonpos_of_nonneg j1 hs0
  have k5 := mul_nonpos_of_nonpos_of_nonneg j2 hv.1.2.2.2.2.2.2.2.le
  have k6 := mul_nonpos_of_nonpos_of_nonneg j3 hv.2.1.2.2.2.2.2.2.2.le
  linarith

example : ∃ q, HlmmChf.withSimpsonSteps exHlmm 2 (2 * 16) = .ok q ∧
    ∀ u : ℝ, ∃ z, q.evaluate u = .ok z := by
  obtain ⟨q, h1, h2⟩ := C63_modulus (p := exHlmm) exTenor_ordered exHlmm_valid exLmm_symm
    exLmm_symm exLmm_psd exLmm_psd exTenor_rates (by decide)
    (.inl (by simp [exHlmm, exTenor, LiborTenor.T])) (by norm_num [exHlmm]) (by norm_num [exHlmm])
    (by norm_num [exHlmm, abs_of_neg]) (by norm_num [exHlmm]) (by norm_num [exHlmm]) (T := 2)
    (by norm_num) (m := 16) (by norm_num)
  refine ⟨q, h1, fun u => ?_⟩
  obtain ⟨z, _, -, h, -⟩ := h2 u
  exact ⟨z, h⟩

/-! ## Expiries before the end of the tenor -/

/-- **C63.** When the tenor ends by the expiry, the open Libors are those whose accrual period lies
between the date and the expiry.  Missing: expiries before the end of the tenor, where this
fails (`C63_expiry_false`). -/
theorem C63_expiry_partial {q : LiborTenor} (h : q.Ordered) {T : ℝ} (hT : q.T q.n ≤ T) (t : ℝ) :
    openLibors q t = openUntil q t T := by
  rw [openUntil, Finset.filter_true_of_mem]
  intro j hj
  rw [openLibors, Finset.mem_filter, Finset.mem_Icc] at hj
  exact (h.mono hj.1.2 le_rfl).trans hT

example : openLibors exTenor 0 = openUntil exTenor 0 2 :=
  C63_expiry_partial exTenor_ordered (by norm_num [exTenor, LiborTenor.T, LiborTenor.n]) 0

/-- **C63.** For an expiry inside the tenor the code keeps Libors that accrue after the expiry: with
dates 0, 1, 2 and expiry 1 no accrual period lies between time ½ and the expiry, so the bond
maturing at the expiry has no loading, but the only segment carries the positive variance of the
Libor accruing from 1 to 2. -/
theorem C63_expiry_false :
    ∃ (q : HlmmChf) (s : Segment), HlmmChf.withSimpsonSteps exHlmm 1 32 = .ok q ∧ q.segments = [s]
      ∧ s.length = 1 ∧ openUntil exHlmm.tenor (1 / 2) 1 = ∅ ∧ 0 < s.ad
      ∧ s.ad ≠ quadOn exHlmm.domestic.liborCorr (loading exHlmm.domestic exHlmm.tenor)
        (openUntil exHlmm.tenor (1 / 2) 1) := by
  obtain ⟨q, h1, h2, h3, h4, h5, h6⟩ := C63_segments (p := exHlmm) exTenor_ordered exHlmm_valid
    exLmm_symm exLmm_symm exTenor_rates (by decide)
    (.inl (by simp [exHlmm, exTenor, LiborTenor.T])) (T := 1) (by norm_num) (m := 16) (by norm_num)
  have hn : exHlmm.tenor.n = 2 := rfl
  have hopen : openLibors exHlmm.tenor (1 / 2) = {2} := by
    ext j
    rw [openLibors, hn, Finset.mem_filter, Finset.mem_Icc, Finset.mem_singleton]
    constructor
    · rintro ⟨⟨h1, h2⟩, h3⟩
      interval_cases j
      · norm_num [exHlmm, exTenor, LiborTenor.T] at h3
      · rfl
    · rintro rfl
      norm_num [exHlmm, exTenor, LiborTenor.T]
  have huntil : openUntil exHlmm.tenor (1 / 2) 1 = ∅ := by
    rw [openUntil, hopen, Finset.filter_singleton, if_neg]
    norm_num [exHlmm, exTenor, LiborTenor.T]
  -- the only boundary is the expiry
  have hT : tauBoundaries exHlmm.tenor 1 = .ok [1] := by
    rw [tauBoundaries, if_neg (by rw [hn]; norm_num), tauLoop_ok (q := exHlmm.tenor) exTenor_ordered 1 _
      (by intro k hk; rw [List.mem_reverse, List.mem_range] at hk; exact hk), ok_bind]
    have : ((((List.range exHlmm.tenor.n).reverse).map fun k => (1 : ℝ) - exHlmm.tenor.T k).filter
        fun b => decide (0 < b)) = [1] := by
      rw [hn]
      norm_num [List.range_succ, LiborTenor.T, exHlmm, exTenor, List.filter_cons]
    rw [this]
    norm_num
  have hsegs : ∃ s, q.segments = [s] ∧ s.tau = 1 ∧ s.length = 1 := by
    rw [HlmmChf.withSimpsonSteps, if_pos ⟨⟨by norm_num, by norm_num⟩, by norm_num, exHlmm_valid⟩, hT,
      ok_bind, segmentLoop, if_neg (by norm_num)] at h1
    dsimp only at h1
    have ha : ∀ t, computeAD exHlmm (exHlmm.tenor.m t + 1) = _ := fun t =>
      C63_a_side exTenor_ordered exLmm_valid exLmm_symm exTenor_rates t
    have hb : ∀ t, computeAF exHlmm (exHlmm.tenor.m t + 1) = _ := fun t =>
      C63_a_side exTenor_ordered exLmm_valid exLmm_symm exTenor_rates t
    rw [ha, ok_bind, hb, ok_bind, segmentLoop, ok_bind, ok_bind] at h1
    injection h1 with h1
    rw [← h1]
    exact ⟨_, rfl, rfl, by norm_num⟩
  obtain ⟨s, hs, hs1, hs2⟩ := hsegs
  have had := (h6 s (by rw [hs]; exact List.mem_singleton.2 rfl) (1 / 2)
    (by rw [hs1, hs2]; norm_num) (by rw [hs1]; norm_num)).2.1
  have hpos : 0 < s.ad := by
    rw [had, show (1 : ℝ) - 1 / 2 = 1 / 2 by norm_num, hopen, quadOn, Finset.sum_singleton,
      Finset.sum_singleton]
    have hl : loading exHlmm.domestic exHlmm.tenor 2 = 1 / 105 := by
      rw [← psiVal_eq_loading]
      · norm_num [psiVal, exHlmm, exTenor, exLmm, LiborTenor.T, LiborTenor.L]
      · norm_num [exHlmm, exTenor, LiborTenor.T, LiborTenor.L]
    rw [hl]
    norm_num [matAt, exHlmm, exLmm]
  refine ⟨q, s, h1, hs, hs2, huntil, hpos, ?_⟩
  rw [huntil]
  simpa [quadOn] using hpos.ne'

end Verif
