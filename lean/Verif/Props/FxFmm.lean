import Verif.Lemmas.FxFmmChf
import Verif.Props.Hlmm

/-!
# C65: the FX-FMM1 characteristic function
-/

namespace Verif

open Outcome Classical MeasureTheory

/-! ## Parameters of the examples -/

/-- A tenor of two years. -/
noncomputable def exFmmTenor : FmmTenor := ⟨[0, 1, 2], [1 / 20, 1 / 20]⟩

/-- The rates model of the examples. -/
noncomputable def exSide : FmmSide :=
  ⟨[1 / 100, 1 / 100], 3 / 10, 1 / 2, 1, [[1, 9 / 10], [9 / 10, 1]]⟩

/-- The FX model of the examples. -/
noncomputable def exFmm : FmmParams :=
  ⟨27 / 20, ⟨1 / 2, 1 / 10, 3 / 10, 1 / 10⟩, exFmmTenor, exSide, exSide,
    ⟨-2 / 5, [-3 / 20, -3 / 20], [-3 / 20, -3 / 20], [3 / 10, 3 / 10], [3 / 10, 3 / 10],
      [[1 / 4, 1 / 4], [1 / 4, 1 / 4]]⟩⟩

theorem exFmmTenor_ordered : exFmmTenor.Ordered := by
  refine ⟨by decide, rfl, by simp [FmmTenor.T, exFmmTenor], fun i hi => ?_⟩
  have hi : i < 2 := hi
  interval_cases i <;> simp [FmmTenor.T, exFmmTenor]

theorem exSide_valid : exSide.Valid exFmmTenor := by
  refine ⟨rfl, rfl, by simp [exSide, exFmmTenor, FmmTenor.m], ?_, by norm_num [exSide],
    by norm_num [exSide]⟩
  intro i r hr
  have hi : i = 0 ∨ i = 1 ∨ 2 ≤ i := by omega
  rcases hi with rfl | rfl | hi
  · simp only [exSide, List.getElem?_cons_zero, Option.some.injEq] at hr
    subst hr
    refine ⟨by simp, fun j r' hr' x y hx hy => ?_⟩
    have hj : j = 0 ∨ j = 1 ∨ 2 ≤ j := by omega
    rcases hj with rfl | rfl | hj
    · simp [exSide] at hr' hx hy; subst hr'; simp at hy; subst hx hy; norm_num
    · simp [exSide] at hr' hx hy; subst hr'; simp at hy; subst hx hy
      norm_num [abs_of_pos]
    · rw [List.getElem?_eq_none (by simpa using hj)] at hx; cases hx
  · simp only [exSide, List.getElem?_cons_succ, List.getElem?_cons_zero, Option.some.injEq] at hr
    subst hr
    refine ⟨by simp, fun j r' hr' x y hx hy => ?_⟩
    have hj : j = 0 ∨ j = 1 ∨ 2 ≤ j := by omega
    rcases hj with rfl | rfl | hj
    · simp [exSide] at hr' hx hy; subst hr'; simp at hy; subst hx hy
      norm_num [abs_of_pos]
    · simp [exSide] at hr' hx hy; subst hr'; simp at hy; subst hx hy; norm_num
    · rw [List.getElem?_eq_none (by simpa using hj)] at hx; cases hx
  · rw [List.getElem?_eq_none (by simpa [exSide] using hi)] at hr; cases hr

theorem exFmm_valid : exFmm.Valid := by
  refine ⟨exSide_valid, exSide_valid, ?_⟩
  simp only [FmmCorr.Valid, exFmm, exFmmTenor, FmmTenor.m]
  norm_num [abs_of_pos, abs_of_neg]

theorem exSide_symm : UnitSymm exSide.rateCorr 2 := exLmm_symm

theorem exSide_psd (w : ℕ → ℝ) : 0 ≤ quadOn exSide.rateCorr w (Finset.Icc 1 2) := exLmm_psd w

theorem exFmmTenor_rates : ∀ k, 1 ≤ k → k ≤ exFmmTenor.m →
    0 < 1 + (exFmmTenor.T k - exFmmTenor.T (k - 1)) * exFmmTenor.R k := exTenor_rates

theorem exFmm_start : exFmm.tenor.T 0 = 0 ∨ 1 / 10 ^ 12 < exFmm.tenor.T 0 :=
  .inl (by simp [exFmm, exFmmTenor, FmmTenor.T])

/-! ## The tenor -/

/-- **C65.** A tenor is accepted exactly when it has a rate, one more date than rates, and the dates
are non-negative and strictly increasing. -/
theorem C65_new (dates rates : List ℝ) :
    (∃ t, FmmTenor.new dates rates = .ok t) ↔
      1 ≤ rates.length ∧ dates.length = rates.length + 1 ∧ 0 ≤ dates.getD 0 0
        ∧ ∀ i < rates.length, dates.getD i 0 < dates.getD (i + 1) 0 := by
  constructor
  · rintro ⟨t, ht⟩
    obtain ⟨rfl, h⟩ := FmmTenor.new_ok ht
    exact h
  · rintro ⟨h0, h1, h2, h3⟩
    refine ⟨⟨dates, rates⟩, ?_⟩
    rw [FmmTenor.new, if_pos]
    refine ⟨by omega, h1, ⟨_, getElem?_getD dates 0 (by omega) 0, h2⟩, ?_⟩
    exact (increasingDates_iff dates).2 fun i hi => h3 i (by omega)

example : ∃ t, FmmTenor.new [0, 1, 2] [1 / 20, 1 / 20] = .ok t := by
  rw [C65_new]
  refine ⟨by simp, rfl, by simp, fun i hi => ?_⟩
  have hi : i < 2 := hi
  interval_cases i <;> simp

example : ¬ ∃ t, FmmTenor.new [0] [] = .ok t := by
  rw [C65_new]
  rintro ⟨h, -⟩
  simp at h

/-- **C65.** An accepted tenor keeps the given dates and rates and is ordered. -/
theorem C65_new_ordered {dates rates : List ℝ} {t : FmmTenor}
    (h : FmmTenor.new dates rates = .ok t) :
    t.dates = dates ∧ t.rates = rates ∧ t.Ordered := by
  obtain ⟨h1, h2⟩ := FmmTenor.new_ok h
  rw [h1]
  exact ⟨rfl, rfl, h1 ▸ h2⟩

example {t : FmmTenor} (h : FmmTenor.new [0, 1, 2] [1 / 20, 1 / 20] = .ok t) : t.Ordered :=
  (C65_new_ordered h).2.2

/-- **C65.** `eta` is the first live rate: the rates from it on are those whose application period
has not ended. -/
theorem C65_eta {q : FmmTenor} (h : q.Ordered) (t : ℝ) :
    ∃ e, q.eta t = .ok e ∧ 1 ≤ e ∧ e ≤ q.m + 1 ∧ Finset.Icc e q.m = liveRates q t := by
  obtain ⟨h1, h2, h3, -, -⟩ := FmmTenor.eta_spec h t
  exact ⟨_, h1, h2, h3, (liveRates_eq h t).symm⟩

example : ∃ e, exFmmTenor.eta (3 / 2) = .ok e := by
  obtain ⟨e, h, -⟩ := C65_eta exFmmTenor_ordered (3 / 2)
  exact ⟨e, h⟩

/-- **C65.** The decay is one before the application period, falls linearly over it and is zero
afterwards; the mass of `-γ'` on the period is one. -/
theorem C65_decay {q : FmmTenor} (h : q.Ordered) {j : ℕ} (h1 : 1 ≤ j) (h2 : j ≤ q.m) :
    ∃ g : ℝ → ℝ, (∀ t, q.gamma j t = .ok (g t)) ∧ (∀ t ≤ q.T (j - 1), g t = 1)
      ∧ (∀ t, q.T j ≤ t → g t = 0) ∧ Antitone g
      ∧ (∀ t, 0 ≤ g t ∧ g t ≤ 1)
      ∧ (∀ s t, |g s - g t| ≤ 1 / (q.T j - q.T (j - 1)) * |s - t|)
      ∧ (∀ t, q.T (j - 1) < t → t < q.T j → HasDerivAt g (-(1 / (q.T j - q.T (j - 1)))) t)
      ∧ (∀ s t, q.bigG j s t = .ok (g s - g t))
      ∧ q.bigG j (q.T (j - 1)) (q.T j) = .ok 1 := by
  have hp := FmmTenor.tau_pos h h1 h2
  have hG : ∀ s t, q.bigG j s t = .ok (ahead q j s - ahead q j t) := by
    intro s t
    rw [FmmTenor.bigG, gamma_ok h h1 h2, ok_bind, gamma_ok h h1 h2, ok_bind]
  refine ⟨ahead q j, gamma_ok h h1 h2, fun t ht => ahead_before hp ht, fun t ht => ahead_after hp ht,
    fun s t hst => ?_, fun t => ahead_mem q j t, ahead_lip hp, fun t ht1 ht2 => ?_, hG, ?_⟩
  · exact max_le_max_left _ (min_le_min_left _ (div_le_div_of_nonneg_right (by linarith) hp.le))
  · have hd : HasDerivAt (fun t => (q.T j - t) / (q.T j - q.T (j - 1)))
        (-(1 / (q.T j - q.T (j - 1)))) t := by
      refine (((hasDerivAt_id t).const_sub (q.T j)).div_const _).congr_deriv ?_
      ring
    refine hd.congr_of_eventuallyEq ?_
    filter_upwards [lt_mem_nhds ht1, gt_mem_nhds ht2] with s hs1 hs2
    exact ahead_inside hp hs1.le hs2.le
  · rw [hG, ahead_before hp le_rfl, ahead_after hp le_rfl, sub_zero]

example : exFmmTenor.bigG 2 (exFmmTenor.T 1) (exFmmTenor.T 2) = .ok 1 := by
  obtain ⟨_, -, -, -, -, -, -, -, -, h⟩ := C65_decay exFmmTenor_ordered (j := 2) (by norm_num) le_rfl
  exact h

/-! ## The coefficients -/

/-- **C65.** `psi_at` are the loadings of the zero-coupon bonds at the time. -/
theorem C65_loading {q : FmmTenor} {l : FmmSide} (h : q.Ordered) (hs : l.sigmas.length = q.m)
    (hR : ∀ k, 1 ≤ k → k ≤ q.m → 0 < 1 + (q.T k - q.T (k - 1)) * q.R k) (t : ℝ) :
    l.psiAt q t = .ok ((List.range' 1 q.m).map (fmmLoading l q t)) := by
  rw [psiAt_ok h hs]
  congr 1
  rw [List.range'_eq_map_range, List.map_map]
  apply List.map_congr_left
  intro j hj
  rw [List.mem_range] at hj
  simp only [Function.comp_apply]
  rw [add_comm 1 j, wVal_eq_loading]
  exact (hR (j + 1) (by omega) (by omega)).ne'

example : exSide.psiAt exFmmTenor (3 / 2)
    = .ok [fmmLoading exSide exFmmTenor (3 / 2) 1, fmmLoading exSide exFmmTenor (3 / 2) 2] :=
  C65_loading exFmmTenor_ordered rfl exFmmTenor_rates (3 / 2)

/-- **C65.** Restricted to the live rates, `A` at time `t` is the quadratic form of the correlation
matrix at their loadings; starting from any earlier rate gives the same. -/
theorem C65_a_side {q : FmmTenor} {l : FmmSide} (h : q.Ordered) (hv : l.Valid q)
    (hc : UnitSymm l.rateCorr q.m)
    (hR : ∀ k, 1 ≤ k → k ≤ q.m → 0 < 1 + (q.T k - q.T (k - 1)) * q.R k) (t : ℝ) :
    ∃ e, q.eta t = .ok e ∧ ∀ a, 1 ≤ a → a ≤ e → fmmASide l q t a = .ok (sideVariance l q t) := by
  obtain ⟨e1, e2, e3, e4, -⟩ := FmmTenor.eta_spec h t
  refine ⟨_, e1, fun a ha hae => ?_⟩
  rw [fmmASide_eq h hv.1 hv.2.1 hv.2.2.1 t ha, triForm_eq _ _ _ hc _ _ ha rfl, sideVariance_full h hR]
  congr 1
  exact quadOn_full ha fun j h1 h2 h3 => wVal_past h l h1 h3 (e4 j h1 (by omega)).le

example : fmmASide exSide exFmmTenor (3 / 2) 1 = .ok (sideVariance exSide exFmmTenor (3 / 2)) := by
  obtain ⟨e, h1, h2⟩ := C65_a_side exFmmTenor_ordered exSide_valid exSide_symm exFmmTenor_rates (3 / 2)
  obtain ⟨e', h1', h3, -⟩ := C65_eta exFmmTenor_ordered (3 / 2)
  rw [h1] at h1'
  injection h1' with h1'
  exact h2 1 le_rfl (by omega)

/-- **C65.** The three coefficients add up to the variance of the log-forward at the expected
square roots of the variances; a currency's variance starts at its long-run level `v0`, reverts at
speed `λ` and has volatility `η`. -/
theorem C65_variance {p : FmmParams} (h : p.tenor.Ordered) (hv : p.Valid)
    (hcd : UnitSymm p.domestic.rateCorr p.tenor.m) (hcf : UnitSymm p.foreign.rateCorr p.tenor.m)
    (hR : ∀ k, 1 ≤ k → k ≤ p.tenor.m → 0 < 1 + (p.tenor.T k - p.tenor.T (k - 1)) * p.tenor.R k)
    (hk : 0 < p.heston.kappa) (t : ℝ) :
    ∃ e x y z ad af f, p.tenor.eta t = .ok e ∧ p.heston.sqrtMean t = .ok x
      ∧ (Cir.mk p.domestic.lambda p.domestic.v0 p.domestic.eta p.domestic.v0).sqrtMean t = .ok y
      ∧ (Cir.mk p.foreign.lambda p.foreign.v0 p.foreign.eta p.foreign.v0).sqrtMean t = .ok z
      ∧ fmmAD p t e = .ok ad
      ∧ fmmAF p t e = .ok af ∧ fmmF p t e = .ok f
      ∧ x ^ 2 + ad * y ^ 2 + af * z ^ 2 + f
        = fmmVariance p (liveRates p.tenor t) x (fun j => y * fmmLoading p.domestic p.tenor t j)
          (fun j => -(z * fmmLoading p.foreign p.tenor t j)) := by
  obtain ⟨e1, e2, e3, e4, -⟩ := FmmTenor.eta_spec h t
  refine ⟨_, _, _, _, _, _, _, e1, sqrtMean_phiOf _ hk t,
    sqrtMean_phiOf p.domestic.cir hv.1.2.2.2.2.1.1 t,
    sqrtMean_phiOf p.foreign.cir hv.2.1.2.2.2.2.1.1 t, fmmASide_eq h hv.1.1 hv.1.2.1 hv.1.2.2.1 t e2,
    fmmASide_eq h hv.2.1.1 hv.2.1.2.1 hv.2.1.2.2.1 t e2, fmmF_eq h hv hk t e2, ?_⟩
  have he := fmmVariance_eq hcd hcf t (phiOf p.heston t) (phiOf p.domestic.cir t)
    (phiOf p.foreign.cir t) e2
  rw [sq, sq, sq, ← he, liveRates_eq h]
  have hload : ∀ l : FmmSide, ∀ j ∈ Finset.Icc (p.tenor.etaN t) p.tenor.m,
      wVal l p.tenor t j = fmmLoading l p.tenor t j := by
    intro l j hj
    rw [Finset.mem_Icc] at hj
    exact wVal_eq_loading _ _ _ _ (hR j (by omega) (by omega)).ne'
  unfold fmmVariance quadOn
  congr 1
  · congr 1
    · congr 1
      · congr 1
        · congr 1
          exact Finset.sum_congr rfl fun i hi => Finset.sum_congr rfl fun j hj => by
            beta_reduce; rw [hload _ i hi, hload _ j hj]
        · exact Finset.sum_congr rfl fun i hi => Finset.sum_congr rfl fun j hj => by
            beta_reduce; rw [hload _ i hi, hload _ j hj]
      · congr 2
        exact Finset.sum_congr rfl fun i hi => by beta_reduce; rw [hload _ i hi]
    · congr 2
      exact Finset.sum_congr rfl fun i hi => by beta_reduce; rw [hload _ i hi]
  · congr 1
    exact Finset.sum_congr rfl fun i hi => Finset.sum_congr rfl fun j hj => by
      beta_reduce; rw [hload _ i hi, hload _ j hj]

example (t : ℝ) : ∃ e f, exFmm.tenor.eta t = .ok e ∧ fmmF exFmm t e = .ok f := by
  obtain ⟨e, _, _, _, _, _, f, he, -, -, -, -, -, hf, -⟩ := C65_variance (p := exFmm)
    exFmmTenor_ordered exFmm_valid exSide_symm exSide_symm exFmmTenor_rates (by norm_num [exFmm]) t
  exact ⟨e, f, he, hf⟩

/-- **C65.** The evaluator's cached copy of the cross terms agrees with the one computed from the
parameters. -/
theorem C65_f_cached {p : FmmParams} (h : p.tenor.Ordered) (hv : p.Valid)
    (hk : 0 < p.heston.kappa) (h0 : p.tenor.T 0 = 0 ∨ 1 / 10 ^ 12 < p.tenor.T 0)
    {T : ℝ} (hT : 0 < T) {n m : ℕ} (hn : 0 < n) (hm : 0 < m) :
    ∃ q, FmmChf.withResolution p T n (2 * m) = .ok q ∧
      ∀ (t : ℝ) (a : ℕ), 1 ≤ a → q.fAt t a = fmmF p t a := by
  obtain ⟨segs, h1, -⟩ := withResolution_ok h hv h0 hT hn hm
  refine ⟨_, h1, fun t a ha => ?_⟩
  rw [fmmF_eq h hv hk t ha]
  exact fAt_eq (c := fmmBuilt p T segs n m) h hv hk (fmmBuilt_cached _ _ _ _ _) t ha

example : ∃ q, FmmChf.withResolution exFmm 2 4 (2 * 16) = .ok q ∧
    ∀ (t : ℝ) (a : ℕ), 1 ≤ a → q.fAt t a = fmmF exFmm t a :=
  C65_f_cached (p := exFmm) exFmmTenor_ordered exFmm_valid (by norm_num [exFmm]) exFmm_start
    (by norm_num) (by norm_num) (by norm_num)

/-! ## The segments -/

/-- **C65.** The evaluator is not built with a non-positive expiry, no sub-segments, an odd number of
intervals or fewer than two, invalid parameters or no rate. -/
theorem C65_panics (p : FmmParams) (T : ℝ) (k n : ℕ)
    (h : T ≤ 0 ∨ k = 0 ∨ n < 2 ∨ n % 2 = 1 ∨ ¬ p.Valid ∨ p.tenor.m = 0) :
    FmmChf.withResolution p T k n = .panic := by
  rw [FmmChf.withResolution]
  by_cases hc : 0 < T ∧ 1 ≤ k ∧ (2 ≤ n ∧ n % 2 = 0) ∧ p.Valid
  · rw [if_pos hc, fmmTauBoundaries, if_pos, panic_bind]
    obtain ⟨h3, h4, ⟨h1, h2⟩, h5⟩ := hc
    rcases h with h | h | h | h | h | h
    · linarith
    · omega
    · omega
    · omega
    · exact absurd h5 h
    · exact h
  · rw [if_neg hc]

example : FmmChf.withResolution exFmm 1 0 32 = .panic := C65_panics _ _ _ _ (.inr (.inl rfl))

/-- **C65.** The segments tile the life of the option and cut every interval between neighbouring
cut points into equal parts; each carries the variances of the two currencies at its midpoint, which
differ from the variances elsewhere on it by at most half its length times their speed. -/
theorem C65_segments {p : FmmParams} (h : p.tenor.Ordered) (hv : p.Valid)
    (hcd : UnitSymm p.domestic.rateCorr p.tenor.m) (hcf : UnitSymm p.foreign.rateCorr p.tenor.m)
    (hR : ∀ k, 1 ≤ k → k ≤ p.tenor.m → 0 < 1 + (p.tenor.T k - p.tenor.T (k - 1)) * p.tenor.R k)
    (h0 : p.tenor.T 0 = 0 ∨ 1 / 10 ^ 12 < p.tenor.T 0) {T : ℝ} (hT : 0 < T)
    {n m : ℕ} (hn : 0 < n) (hm : 0 < m) :
    ∃ q, FmmChf.withResolution p T n (2 * m) = .ok q ∧ q.params = p ∧ q.expiry = T
      ∧ q.nSub = n ∧ q.nSimpson = 2 * m ∧ Tiles T 0 q.subSegments
      ∧ ∀ s ∈ q.subSegments,
        (∃ a b, CutInterval p.tenor T a b ∧ n * s.length = b - a ∧ a ≤ s.tau - s.length ∧ s.tau ≤ b)
        ∧ s.ad = sideVariance p.domestic p.tenor (T - (s.tau - s.length / 2))
        ∧ s.af = sideVariance p.foreign p.tenor (T - (s.tau - s.length / 2))
        ∧ Finset.Icc s.startIdx p.tenor.m = liveRates p.tenor (T - (s.tau - s.length / 2))
        ∧ ∀ t ∈ Set.Icc (s.tau - s.length) s.tau,
          |s.ad - sideVariance p.domestic p.tenor (T - t)|
            ≤ sideSpeed p.domestic p.tenor * (s.length / 2)
          ∧ |s.af - sideVariance p.foreign p.tenor (T - t)|
            ≤ sideSpeed p.foreign p.tenor * (s.length / 2) := by
  obtain ⟨segs, h1, h2, h3⟩ := withResolution_ok h hv h0 hT hn hm
  refine ⟨_, h1, rfl, rfl, rfl, rfl, h2, fun s hs => ?_⟩
  obtain ⟨s1, s2, s3, s4, s5, a, b, hc, hl, ha, hb⟩ := h3 s hs
  have had : s.ad = sideVariance p.domestic p.tenor (T - (s.tau - s.length / 2)) := by
    rw [s3, s2, triForm_side h hcd hR]
  have haf : s.af = sideVariance p.foreign p.tenor (T - (s.tau - s.length / 2)) := by
    rw [s4, s2, triForm_side h hcf hR]
  refine ⟨⟨a, b, hc, hl, ha, hb⟩, had, haf, by rw [liveRates_eq h, ← s2], fun t ht => ?_⟩
  have hd : |T - (s.tau - s.length / 2) - (T - t)| ≤ s.length / 2 := by
    rw [abs_le]
    constructor <;> linarith [ht.1, ht.2]
  have hsp : ∀ l : FmmSide, 0 ≤ sideSpeed l p.tenor := by
    intro l
    refine Finset.sum_nonneg fun i hi => Finset.sum_nonneg fun j hj => ?_
    rw [Finset.mem_Icc] at hi hj
    have := FmmTenor.tau_pos h hi.1 hi.2
    have := FmmTenor.tau_pos h hj.1 hj.2
    positivity
  constructor
  · rw [had]
    exact (sideVariance_lip h hR _ _).trans (mul_le_mul_of_nonneg_left hd (hsp _))
  · rw [haf]
    exact (sideVariance_lip h hR _ _).trans (mul_le_mul_of_nonneg_left hd (hsp _))

example : ∃ q, FmmChf.withResolution exFmm 2 4 (2 * 16) = .ok q ∧ Tiles 2 0 q.subSegments := by
  obtain ⟨q, h1, -, -, -, -, h2, -⟩ := C65_segments (p := exFmm) exFmmTenor_ordered exFmm_valid
    exSide_symm exSide_symm exFmmTenor_rates exFmm_start
    (T := 2) (by norm_num) (n := 4) (by norm_num) (m := 16) (by norm_num)
  exact ⟨q, h1, h2⟩

/-- **C65.** The length of a segment is at most the expiry divided by the resolution, so the frozen
variances converge with the resolution. -/
theorem C65_resolution {p : FmmParams} (h : p.tenor.Ordered) (hv : p.Valid)
    (hcd : UnitSymm p.domestic.rateCorr p.tenor.m) (hcf : UnitSymm p.foreign.rateCorr p.tenor.m)
    (hR : ∀ k, 1 ≤ k → k ≤ p.tenor.m → 0 < 1 + (p.tenor.T k - p.tenor.T (k - 1)) * p.tenor.R k)
    (h0 : p.tenor.T 0 = 0 ∨ 1 / 10 ^ 12 < p.tenor.T 0) {T : ℝ} (hT : 0 < T)
    {m : ℕ} (hm : 0 < m) {ε : ℝ} (hε : 0 < ε) :
    ∃ N, 0 < N ∧ ∀ n, N ≤ n → ∃ q, FmmChf.withResolution p T n (2 * m) = .ok q
      ∧ ∀ s ∈ q.subSegments, ∀ t ∈ Set.Icc (s.tau - s.length) s.tau,
          |s.ad - sideVariance p.domestic p.tenor (T - t)| ≤ ε
          ∧ |s.af - sideVariance p.foreign p.tenor (T - t)| ≤ ε := by
  set K := |sideSpeed p.domestic p.tenor| + |sideSpeed p.foreign p.tenor| + 1 with hK
  have hKpos : 0 < K := by positivity
  obtain ⟨N, hN⟩ := exists_nat_gt (K * T / ε)
  have hNpos : (0 : ℝ) < N := lt_of_le_of_lt (by positivity) hN
  refine ⟨N, by exact_mod_cast hNpos, fun n hn => ?_⟩
  have hnN : (N : ℝ) ≤ n := by exact_mod_cast hn
  obtain ⟨q, q1, -, -, -, -, -, q6⟩ := C65_segments h hv hcd hcf hR h0 hT (n := n) (m := m)
    (by exact_mod_cast hNpos.trans_le hnN) hm
  refine ⟨q, q1, fun s hs t ht => ?_⟩
  obtain ⟨⟨a, b, ⟨-, -, ha, hab, hb, -⟩, hl, -, -⟩, -, -, -, herr⟩ := q6 s hs
  obtain ⟨e1, e2⟩ := herr t ht
  have hlen0 : 0 ≤ s.length := by linarith [ht.1.trans ht.2]
  have hlen : K * s.length ≤ ε := by
    have h1 : K * T < ε * n := by
      rw [div_lt_iff₀ hε] at hN
      calc K * T < N * ε := hN
        _ ≤ n * ε := by gcongr
        _ = ε * n := mul_comm _ _
    have h2 : (n : ℝ) * (K * s.length) ≤ n * ε := by
      have : (n : ℝ) * (K * s.length) = K * (b - a) := by rw [← hl]; ring
      rw [this]
      have : K * (b - a) ≤ K * T := mul_le_mul_of_nonneg_left (by linarith) hKpos.le
      linarith
    exact le_of_mul_le_mul_left h2 (hNpos.trans_le hnN)
  have hb : ∀ x : ℝ, x ≤ K → x * (s.length / 2) ≤ ε := by
    intro x hx
    have := mul_le_mul_of_nonneg_right hx (show 0 ≤ s.length / 2 by linarith)
    nlinarith
  refine ⟨e1.trans (hb _ ?_), e2.trans (hb _ ?_)⟩
  · have := le_abs_self (sideSpeed p.domestic p.tenor)
    have := abs_nonneg (sideSpeed p.foreign p.tenor)
    linarith
  · have := le_abs_self (sideSpeed p.foreign p.tenor)
    have := abs_nonneg (sideSpeed p.domestic p.tenor)
    linarith

example : ∃ N, 0 < N ∧ ∀ n, N ≤ n → ∃ q, FmmChf.withResolution exFmm 2 n (2 * 16) = .ok q := by
  obtain ⟨N, h1, h2⟩ := C65_resolution (p := exFmm) exFmmTenor_ordered exFmm_valid
    exSide_symm exSide_symm exFmmTenor_rates exFmm_start
    (T := 2) (by norm_num) (m := 16) (by norm_num) (ε := 1 / 10 ^ 9) (by norm_num)
  refine ⟨N, h1, fun n hn => ?_⟩
  obtain ⟨q, h, -⟩ := h2 n hn
  exact ⟨q, h⟩

/-- **C65.** Up to the last tenor date the live rates do not change inside a segment, and the cross
terms used on a segment, including its ends, are those of the live rates.  Missing: later expiries,
where this fails (`C65_tail_false`). -/
theorem C65_live_partial {p : FmmParams} (h : p.tenor.Ordered) (hv : p.Valid)
    (hk : 0 < p.heston.kappa)
    (h0 : p.tenor.T 0 = 0 ∨ 1 / 10 ^ 12 < p.tenor.T 0) {T : ℝ} (hT : 0 < T)
    (hTm : T ≤ p.tenor.T p.tenor.m) {n m : ℕ} (hn : 0 < n) (hm : 0 < m) :
    ∃ q, FmmChf.withResolution p T n (2 * m) = .ok q ∧ ∀ s ∈ q.subSegments,
      (∀ t ∈ Set.Ioo (s.tau - s.length) s.tau,
        liveRates p.tenor (T - t) = Finset.Icc s.startIdx p.tenor.m)
      ∧ ∀ t ∈ Set.Icc (s.tau - s.length) s.tau, ∃ e, p.tenor.eta (T - t) = .ok e
        ∧ fmmF p (T - t) s.startIdx = fmmF p (T - t) e := by
  obtain ⟨segs, h1, h2, h3⟩ := withResolution_ok h hv h0 hT hn hm
  refine ⟨_, h1, fun s hs => ⟨fun t ht => ?_, fun t ht => ?_⟩⟩
  · rw [liveRates_eq h, subOk_start h (h3 s hs) hTm ht.1 ht.2]
  · obtain ⟨s1, s2, -, -, s5, a, b, ⟨-, -, ha0, hab, hbT, hgap⟩, -, ha, hb⟩ := h3 s hs
    obtain ⟨-, m1, m2, m3, m4⟩ := FmmTenor.eta_spec h (T - (s.tau - s.length / 2))
    rw [← s2] at m1 m2 m3 m4
    obtain ⟨e1, e2, e3, e4, -⟩ := FmmTenor.eta_spec h (T - t)
    refine ⟨_, e1, ?_⟩
    have hle : s.startIdx ≤ p.tenor.m := by
      by_contra hc
      have := m3 p.tenor.m h.1 (by omega)
      linarith
    have hpast : ∀ j, 1 ≤ j → j < s.startIdx → p.tenor.T j ≤ T - t := by
      intro j j1 j2
      have k1 := m3 j j1 j2
      by_contra hc
      exact hgap j (by omega) ⟨by linarith, by linarith [ht.2]⟩
    rw [fmmF_eq h hv hk _ s1, fmmF_eq h hv hk _ e2,
      fmmCross_full s1 (fun j j1 j2 j3 => wVal_past h _ j1 j3 (hpast j j1 j2))
        (fun j j1 j2 j3 => wVal_past h _ j1 j3 (hpast j j1 j2)),
      fmmCross_full e2 (fun j j1 j2 j3 => wVal_past h _ j1 j3 (e4 j j1 j2).le)
        (fun j j1 j2 j3 => wVal_past h _ j1 j3 (e4 j j1 j2).le)]

example : ∃ q, FmmChf.withResolution exFmm 2 4 (2 * 16) = .ok q ∧ ∀ s ∈ q.subSegments,
    ∀ t ∈ Set.Ioo (s.tau - s.length) s.tau,
      liveRates exFmm.tenor (2 - t) = Finset.Icc s.startIdx exFmm.tenor.m := by
  obtain ⟨q, h1, h2⟩ := C65_live_partial (p := exFmm) exFmmTenor_ordered exFmm_valid
    (by norm_num [exFmm]) exFmm_start (T := 2) (by norm_num)
    (by norm_num [exFmm, exFmmTenor, FmmTenor.T, FmmTenor.m]) (n := 4) (by norm_num) (m := 16)
    (by norm_num)
  exact ⟨q, h1, fun s hs => (h2 s hs).1⟩

/-- **C65.** By default there is one segment per interval between cut points, with 32 Simpson
intervals. -/
theorem C65_default (p : FmmParams) (T : ℝ) :
    FmmChf.new p T = FmmChf.withResolution p T 1 32 := rfl

/-! ## The components -/

/-- **C65.** The closed forms are the ones of the FX-HLMM1 characteristic function, about which
`C63_heston_a`, `C63_heston_c` and `C63_advance` speak. -/
theorem C65_closed_forms :
    fmmHestonC = hestonCFn ∧ fmmHestonA = hestonAClosed ∧ fmmHestonAIncrement = hestonAIncrement
      ∧ fmmAdvanceD = advanceD := ⟨rfl, rfl, rfl, rfl⟩

example : fmmHestonC (3 : ℝ) (1 / 2) (3 / 10) (-2 / 5) 0 = 0 := by
  rw [C65_closed_forms.1]
  exact (C63_heston_c (by norm_num) (by norm_num [abs_of_neg]) 3).1

/-- **C65.** The components are the solutions of the Riccati equations with the segments'
coefficients; `A` is the integral of `κθ C + λ_d v_d D_d + λ_f v_f D_f` plus the Simpson sums of
`f` times `((iu)² - iu)/2`.  That the Simpson sums converge to the
integral is C83. -/
theorem C65_components_partial {p : FmmParams} (h : p.tenor.Ordered) (hv : p.Valid)
    (hcd : UnitSymm p.domestic.rateCorr p.tenor.m) (hcf : UnitSymm p.foreign.rateCorr p.tenor.m)
    (hpd : ∀ w, 0 ≤ quadOn p.domestic.rateCorr w (Finset.Icc 1 p.tenor.m))
    (hpf : ∀ w, 0 ≤ quadOn p.foreign.rateCorr w (Finset.Icc 1 p.tenor.m))
    (h0 : p.tenor.T 0 = 0 ∨ 1 / 10 ^ 12 < p.tenor.T 0)
    (hk : 0 < p.heston.kappa) (hg : p.heston.gamma ≠ 0) (hr : |p.correlations.xiSigma| ≤ 1)
    {T : ℝ} (hT : 0 < T) {n m : ℕ} (hn : 0 < n) (hm : 0 < m) :
    ∃ q, FmmChf.withResolution p T n (2 * m) = .ok q ∧ ∀ u : ℝ, ∃ Dd Df : ℝ → ℂ,
        ∃ F : Segment → ℝ → ℝ,
      SolvesD q.subSegments Segment.ad p.domestic.lambda p.domestic.eta T
        ((Complex.I * u) ^ 2 - Complex.I * u) Dd
      ∧ SolvesD q.subSegments Segment.af p.foreign.lambda p.foreign.eta T
        ((Complex.I * u) ^ 2 - Complex.I * u) Df
      ∧ (∀ t ∈ Set.Icc 0 T, (Dd t).re ≤ 0 ∧ (Df t).re ≤ 0)
      ∧ (∀ s ∈ q.subSegments, ∀ t, fmmF p (T - t) s.startIdx = .ok (F s t))
      ∧ q.components u = .ok
        ⟨((p.heston.kappa * p.heston.theta : ℝ) : ℂ) * (∫ t in (0 : ℝ)..T,
              hestonCFn u p.heston.kappa p.heston.gamma p.correlations.xiSigma t)
            + ((p.domestic.lambda * p.domestic.v0 : ℝ) : ℂ) * (∫ t in (0 : ℝ)..T, Dd t)
            + ((p.foreign.lambda * p.foreign.v0 : ℝ) : ℂ) * (∫ t in (0 : ℝ)..T, Df t)
            + ((Complex.I * u) ^ 2 - Complex.I * u) / 2
              * (((q.subSegments.map fun s => simpsonOn m (s.tau - s.length) s.tau (F s)).sum : ℝ) : ℂ),
          Complex.I * u,
          hestonCFn u p.heston.kappa p.heston.gamma p.correlations.xiSigma T, Dd T, Df T⟩ := by
  obtain ⟨segs, h1, h2, h3⟩ := withResolution_ok h hv h0 hT hn hm
  refine ⟨_, h1, fun u => ?_⟩
  have hqe : (Complex.I * (u : ℂ)) ^ 2 - Complex.I * u = chfQ u := by unfold chfQ; ring
  have had : ∀ s ∈ segs, 0 ≤ s.ad := by
    intro s hs
    obtain ⟨s1, -, s6, -⟩ := h3 s hs
    rw [s6, triForm_eq _ _ _ hcd _ _ s1 rfl]
    exact quadOn_nonneg hpd _ s1
  have haf : ∀ s ∈ segs, 0 ≤ s.af := by
    intro s hs
    obtain ⟨s1, -, -, s7, -⟩ := h3 s hs
    rw [s7, triForm_eq _ _ _ hcf _ _ s1 rfl]
    exact quadOn_nonneg hpf _ s1
  obtain ⟨Dd, d1, d2, d3, d4, d5⟩ := path_exists (v0 := p.domestic.v0) hv.1.2.2.2.2.1.1
    hv.1.2.2.2.2.1.2.1.ne' Segment.ad u segs 0 0 h2 le_rfl had
  obtain ⟨Df, f1, f2, f3, f4, f5⟩ := path_exists (v0 := p.foreign.v0) hv.2.1.2.2.2.2.1.1
    hv.2.1.2.2.2.2.1.2.1.ne' Segment.af u segs 0 0 h2 le_rfl haf
  refine ⟨Dd, Df, fun s t => fmmCross p (T - t) (phiOf p.heston (T - t))
      (phiOf p.domestic.cir (T - t))
      (phiOf p.foreign.cir (T - t)) s.startIdx, ⟨d1, d2, ?_⟩, ⟨f1, f2, ?_⟩,
      fun t ht => ⟨d3 t ht, f3 t ht⟩, ?_, ?_⟩
  · rw [hqe]; exact d4
  · rw [hqe]; exact f4
  · intro s hs t
    exact fmmF_eq h hv hk _ (h3 s hs).1
  · rw [FmmChf.components]
    dsimp only
    have hp := fmmPass_fold (n := n) h hv hk T segs hm u segs ⟨0, 0, 0, 0⟩ h2 fun s hs => (h3 s hs).1
    have hp' : List.foldlM ((fmmBuilt p T segs n m).pass u) ⟨0, 0, 0, 0⟩
      (fmmBuilt p T segs n m).subSegments = _ := hp
    rw [hp', ok_bind]
    dsimp only
    rw [d5, f5, hestonAIncrement_eq hk hg hr u le_rfl hT.le, zero_add, hqe]
    rfl

example : ∃ q, FmmChf.withResolution exFmm 2 4 (2 * 16) = .ok q ∧
    ∀ u : ℝ, ∃ c, q.components u = .ok c := by
  obtain ⟨q, h1, h2⟩ := C65_components_partial (p := exFmm) exFmmTenor_ordered exFmm_valid exSide_symm
    exSide_symm exSide_psd exSide_psd exFmm_start (by norm_num [exFmm]) (by norm_num [exFmm])
    (by norm_num [exFmm, abs_of_neg]) (T := 2) (by norm_num) (n := 4) (by norm_num) (m := 16)
    (by norm_num)
  refine ⟨q, h1, fun u => ?_⟩
  obtain ⟨_, _, _, -, -, -, -, h⟩ := h2 u
  exact ⟨_, h⟩

/-! ## Values at particular frequencies -/

/-- At a frequency with `u² + iu = 0` all components but `B` vanish. -/
theorem fmmComponents_zero_q {p : FmmParams} (h : p.tenor.Ordered) (hv : p.Valid)
    (h0 : p.tenor.T 0 = 0 ∨ 1 / 10 ^ 12 < p.tenor.T 0)
    (hk : 0 < p.heston.kappa) {T : ℝ} (hT : 0 < T) {n m : ℕ} (hn : 0 < n) (hm : 0 < m) {u : ℂ}
    (hu : chfQ u = 0)
    (hx : 0 < (hX p.heston.kappa p.heston.gamma p.correlations.xiSigma u).re) :
    ∃ segs, FmmChf.withResolution p T n (2 * m) = .ok (fmmBuilt p T segs n m) ∧
      (fmmBuilt p T segs n m).components u = .ok ⟨0, Complex.I * u, 0, 0, 0⟩ := by
  obtain ⟨segs, h1, h2, h3⟩ := withResolution_ok h hv h0 hT hn hm
  refine ⟨segs, h1, ?_⟩
  have hu' : u * u + Complex.I * u = 0 := by
    have := chfQ_eq u; rw [hu] at this; exact neg_eq_zero.1 this.symm
  rw [FmmChf.components]
  have hp := fmmPass_fold (n := n) h hv hk T segs hm u segs ⟨0, 0, 0, 0⟩ h2 fun s hs => (h3 s hs).1
  have hp' : List.foldlM ((fmmBuilt p T segs n m).pass u) ⟨0, 0, 0, 0⟩
    (fmmBuilt p T segs n m).subSegments = _ := hp
  rw [hp', ok_bind]
  dsimp only
  have hC : fmmHestonC u (fmmBuilt p T segs n m).params.heston.kappa
      (fmmBuilt p T segs n m).params.heston.gamma (fmmBuilt p T segs n m).params.correlations.xiSigma
      (fmmBuilt p T segs n m).expiry = 0 := by
    change hestonCFn u p.heston.kappa p.heston.gamma p.correlations.xiSigma T = 0
    rw [hestonCFn_eq _ _ _ _ hT.le, hu]
    simp [hestonC]
  rw [dFold_zero_q hv.1.2.2.2.2.1.1 _ hu', dFold_zero_q hv.2.1.2.2.2.2.1.1 _ hu', hu,
    hestonAIncrement, hestonAClosed_zero_q hu hx hT.le, hestonAClosed_zero_q hu hx le_rfl, hC]
  simp

/-- **C65.** The characteristic function is one at zero. -/
theorem C65_zero {p : FmmParams} (h : p.tenor.Ordered) (hv : p.Valid)
    (hR : ∀ k, 1 ≤ k → k ≤ p.tenor.m → 0 < 1 + (p.tenor.T k - p.tenor.T (k - 1)) * p.tenor.R k)
    (h0 : p.tenor.T 0 = 0 ∨ 1 / 10 ^ 12 < p.tenor.T 0)
    (hk : 0 < p.heston.kappa) {T : ℝ} (hT : 0 < T) {n m : ℕ} (hn : 0 < n) (hm : 0 < m) :
    ∃ q, FmmChf.withResolution p T n (2 * m) = .ok q ∧ q.evaluate 0 = .ok 1 := by
  obtain ⟨segs, h1, h2⟩ := fmmComponents_zero_q h hv h0 hk hT hn hm (u := 0) (by simp [chfQ])
    (by simpa [hX] using hk)
  obtain ⟨P, hP, -⟩ := rateDiscounts_ok h hR T
  refine ⟨_, h1, ?_⟩
  rw [FmmChf.evaluate]
  dsimp only
  rw [h2, ok_bind, show rateDiscounts (fmmBuilt p T segs n m).params (fmmBuilt p T segs n m).expiry
    = .ok (P, P) from hP, ok_bind]
  simp [HlmmComponents.assemble]

/-- **C65.** The forward is a martingale: at `-i` the characteristic function is the spot, provided
`γ ρ < κ`.  (Both discount factors come from the one curve, so the forward is the spot.) -/
theorem C65_martingale {p : FmmParams} (h : p.tenor.Ordered) (hv : p.Valid)
    (hR : ∀ k, 1 ≤ k → k ≤ p.tenor.m → 0 < 1 + (p.tenor.T k - p.tenor.T (k - 1)) * p.tenor.R k)
    (h0 : p.tenor.T 0 = 0 ∨ 1 / 10 ^ 12 < p.tenor.T 0)
    (hk : 0 < p.heston.kappa) (hkg : p.heston.gamma * p.correlations.xiSigma < p.heston.kappa)
    (hfx : 0 < p.fx0) {T : ℝ} (hT : 0 < T) {n m : ℕ} (hn : 0 < n) (hm : 0 < m) :
    ∃ q, FmmChf.withResolution p T n (2 * m) = .ok q
      ∧ q.evaluate (-Complex.I) = .ok (p.fx0 : ℂ) := by
  have hiu : Complex.I * -Complex.I = 1 := by
    rw [mul_neg, Complex.I_mul_I, neg_neg]
  obtain ⟨segs, h1, h2⟩ := fmmComponents_zero_q h hv h0 hk hT hn hm (u := -Complex.I)
    (by rw [chfQ, hiu]; ring) (by rw [hX, hiu, mul_one]; simpa using hkg)
  obtain ⟨P, hP, hPpos⟩ := rateDiscounts_ok h hR T
  refine ⟨_, h1, ?_⟩
  rw [FmmChf.evaluate]
  dsimp only
  rw [h2, ok_bind, show rateDiscounts (fmmBuilt p T segs n m).params (fmmBuilt p T segs n m).expiry
    = .ok (P, P) from hP, ok_bind]
  dsimp only
  rw [mul_div_assoc, div_self hPpos.ne', mul_one, HlmmComponents.assemble, hiu]
  simp only [zero_mul, add_zero, zero_add, one_mul]
  change Outcome.ok (Complex.exp ((Real.log p.fx0 : ℝ) : ℂ)) = _
  rw [← Complex.ofReal_exp, Real.exp_log hfx]

example : ∃ q, FmmChf.withResolution exFmm 2 4 (2 * 16) = .ok q
    ∧ q.evaluate (-Complex.I) = .ok ((27 / 20 : ℝ) : ℂ) :=
  C65_martingale (p := exFmm) exFmmTenor_ordered exFmm_valid exFmmTenor_rates exFmm_start
    (by norm_num [exFmm]) (by norm_num [exFmm]) (by norm_num [exFmm]) (by norm_num) (by norm_num)
    (by norm_num)

example : ∃ q, FmmChf.withResolution exFmm 2 4 (2 * 16) = .ok q ∧ q.evaluate 0 = .ok 1 :=
  C65_zero (p := exFmm) exFmmTenor_ordered exFmm_valid exFmmTenor_rates exFmm_start
    (by norm_num [exFmm]) (by norm_num) (by norm_num) (by norm_num)

/-- **C65.** For real frequencies the modulus is at most `exp(-u²/2 · Σ Simpson(f))`: the stochastic
variances only damp. -/
theorem C65_modulus {p : FmmParams} (h : p.tenor.Ordered) (hv : p.Valid)
    (hcd : UnitSymm p.domestic.rateCorr p.tenor.m) (hcf : UnitSymm p.foreign.rateCorr p.tenor.m)
    (hpd : ∀ w, 0 ≤ quadOn p.domestic.rateCorr w (Finset.Icc 1 p.tenor.m))
    (hpf : ∀ w, 0 ≤ quadOn p.foreign.rateCorr w (Finset.Icc 1 p.tenor.m))
    (hR : ∀ k, 1 ≤ k → k ≤ p.tenor.m → 0 < 1 + (p.tenor.T k - p.tenor.T (k - 1)) * p.tenor.R k)
    (h0 : p.tenor.T 0 = 0 ∨ 1 / 10 ^ 12 < p.tenor.T 0)
    (hk : 0 < p.heston.kappa) (hg : p.heston.gamma ≠ 0) (hr : |p.correlations.xiSigma| ≤ 1)
    (hth : 0 ≤ p.heston.theta) (hs0 : 0 ≤ p.heston.sigma0)
    {T : ℝ} (hT : 0 < T) {n m : ℕ} (hn : 0 < n) (hm : 0 < m) :
    ∃ q, FmmChf.withResolution p T n (2 * m) = .ok q ∧ ∀ u : ℝ, ∃ z : ℂ, ∃ F : Segment → ℝ → ℝ,
      (∀ s ∈ q.subSegments, ∀ t, fmmF p (T - t) s.startIdx = .ok (F s t))
      ∧ q.evaluate u = .ok z
      ∧ ‖z‖ ≤ Real.exp (-(u ^ 2) / 2
        * (q.subSegments.map fun s => simpsonOn m (s.tau - s.length) s.tau (F s)).sum) := by
  obtain ⟨q, h1, h2⟩ := C65_components_partial h hv hcd hcf hpd hpf h0 hk hg hr hT hn hm
  obtain ⟨q', h1', hqp, hqT, -⟩ := C65_segments h hv hcd hcf hR h0 hT hn hm
  have hqq : q' = q := by rw [h1] at h1'; injection h1' with e; exact e.symm
  subst hqq
  refine ⟨q', h1, fun u => ?_⟩
  obtain ⟨Dd, Df, F, ⟨-, d2, -⟩, ⟨-, f2, -⟩, hre, hF, hc⟩ := h2 u
  obtain ⟨P, hP, -⟩ := rateDiscounts_ok h hR T
  suffices hev : ∃ z, q'.evaluate u = .ok z ∧ ‖z‖ ≤ Real.exp (-(u ^ 2) / 2
        * (q'.subSegments.map fun s => simpsonOn m (s.tau - s.length) s.tau (F s)).sum) by
    obtain ⟨z, hz, hze⟩ := hev
    exact ⟨z, F, hF, hz, hze⟩
  rw [FmmChf.evaluate]
  dsimp only
  rw [hc, ok_bind, hqp, hqT, hP, ok_bind]
  refine ⟨_, rfl, ?_⟩
  rw [HlmmComponents.assemble, Complex.norm_exp, Real.exp_le_exp]
  obtain ⟨r1, r2, r3⟩ := h_regular (gamma := p.heston.gamma) hk hr u
  have hCre : ∀ t, 0 ≤ t → (hestonCFn u p.heston.kappa p.heston.gamma p.correlations.xiSigma t).re
      ≤ 0 := by
    intro t ht
    rw [hestonCFn_eq _ _ _ _ ht]
    exact hestonC_re_nonpos (g := p.heston.gamma * p.heston.gamma)
      (mul_self_pos.2 hg) (hD_sq _ _ _ _) r1 r2 r3 ht
  have hCc : ContinuousOn (hestonCFn u p.heston.kappa p.heston.gamma p.correlations.xiSigma)
      (Set.Icc 0 T) := by
    refine ((continuousOn_hestonC r1 r2 ((sq_nonneg _).trans r3)).mono
      (fun t ht => ht.1)).congr fun t ht => hestonCFn_eq _ _ _ _ ht.1
  have hint : ∀ f : ℝ → ℂ, ContinuousOn f (Set.Icc 0 T) → (∀ t ∈ Set.Icc 0 T, (f t).re ≤ 0) →
      (∫ t in (0 : ℝ)..T, f t).re ≤ 0 := by
    intro f hf hr
    have hi : IntervalIntegrable f volume 0 T :=
      (hf.mono (by rw [Set.uIcc_of_le hT.le])).intervalIntegrable
    have := Complex.reCLM.intervalIntegral_comp_comm hi
    have e : (∫ t in (0 : ℝ)..T, f t).re = ∫ t in (0 : ℝ)..T, (f t).re := this.symm
    rw [e, ← neg_nonneg, ← intervalIntegral.integral_neg]
    refine intervalIntegral.integral_nonneg hT.le fun t ht => ?_
    linarith [hr t ht]
  have i1 := hint _ hCc fun t ht => hCre t ht.1
  have i2 := hint _ d2 fun t ht => (hre t ht).1
  have i3 := hint _ f2 fun t ht => (hre t ht).2
  have hTT : T ∈ Set.Icc 0 T := ⟨hT.le, le_rfl⟩
  have j1 := hCre T hT.le
  have j2 := (hre T hTT).1
  have j3 := (hre T hTT).2
  have hq : (((Complex.I * (u : ℂ)) ^ 2 - Complex.I * u) / 2).re = -(u ^ 2) / 2 := by
    have e2 : ((2 : ℂ)) = ((2 : ℝ) : ℂ) := by norm_num
    have : (Complex.I * (u : ℂ)) ^ 2 = ((-(u ^ 2) : ℝ) : ℂ) := by
      rw [mul_pow, Complex.I_sq]; push_cast; ring
    have hi : (Complex.I * (u : ℂ)).re = 0 := by simp
    rw [this, e2, Complex.div_ofReal_re, Complex.sub_re, Complex.ofReal_re, hi, sub_zero]
  set S := (q'.subSegments.map fun s => simpsonOn m (s.tau - s.length) s.tau (F s)).sum with hS
  simp only [Complex.add_re, Complex.re_ofReal_mul, Complex.re_mul_ofReal, hq]
  rw [Complex.I_re, zero_mul, zero_mul]
  have k1 : p.heston.kappa * p.heston.theta * (∫ t in (0 : ℝ)..T,
      hestonCFn u p.heston.kappa p.heston.gamma p.correlations.xiSigma t).re ≤ 0 :=
    mul_nonpos_of_nonneg_of_nonpos (mul_nonneg hk.le hth) i1
  obtain ⟨hld, -, hvd⟩ := hv.1.2.2.2.2.1
  obtain ⟨hlf, -, hvf⟩ := hv.2.1.2.2.2.2.1
  have k2 : p.domestic.lambda * p.domestic.v0 * (∫ t in (0 : ℝ)..T, Dd t).re ≤ 0 :=
    mul_nonpos_of_nonneg_of_nonpos (mul_nonneg hld.le hvd.le) i2
  have k3 : p.foreign.lambda * p.foreign.v0 * (∫ t in (0 : ℝ)..T, Df t).re ≤ 0 :=
    mul_nonpos_of_nonneg_of_nonpos (mul_nonneg hlf.le hvf.le) i3
  have k4 := mul_nonpos_of_nonpos_of_nonneg j1 hs0
  have k5 := mul_nonpos_of_nonpos_of_nonneg j2 hvd.le
  have k6 := mul_nonpos_of_nonpos_of_nonneg j3 hvf.le
  linarith

example : ∃ q, FmmChf.withResolution exFmm 2 4 (2 * 16) = .ok q ∧
    ∀ u : ℝ, ∃ z, q.evaluate u = .ok z := by
  obtain ⟨q, h1, h2⟩ := C65_modulus (p := exFmm) exFmmTenor_ordered exFmm_valid exSide_symm
    exSide_symm exSide_psd exSide_psd exFmmTenor_rates exFmm_start (by norm_num [exFmm])
    (by norm_num [exFmm])
    (by norm_num [exFmm, abs_of_neg]) (by norm_num [exFmm]) (by norm_num [exFmm]) (T := 2)
    (by norm_num) (n := 4) (by norm_num) (m := 16) (by norm_num)
  refine ⟨q, h1, fun u => ?_⟩
  obtain ⟨z, _, -, h, -⟩ := h2 u
  exact ⟨z, h⟩

/-! ## Expiries other than the last tenor date -/

/-- **C65.** When the tenor ends by the expiry, the live rates are those whose application period
ends by the expiry.  Missing: expiries before the end of the tenor, where this
fails (`C65_expiry_false`). -/
theorem C65_expiry_partial {q : FmmTenor} (h : q.Ordered) {T : ℝ} (hT : q.T q.m ≤ T) (t : ℝ) :
    liveRates q t = liveUntil q t T := by
  rw [liveUntil, Finset.filter_true_of_mem]
  intro j hj
  rw [liveRates, Finset.mem_filter, Finset.mem_Icc] at hj
  exact (h.mono hj.1.2 le_rfl).trans hT

example : liveRates exFmmTenor (1 / 2) = liveUntil exFmmTenor (1 / 2) 2 :=
  C65_expiry_partial exFmmTenor_ordered (by norm_num [exFmmTenor, FmmTenor.T, FmmTenor.m]) _

theorem exFmm_w (t : ℝ) (j : ℕ) (h1 : 1 ≤ j) (h2 : j ≤ 2) :
    fmmLoading exSide exFmmTenor t j = 1 / 105 * ahead exFmmTenor j t := by
  rw [← wVal_eq_loading _ _ _ _ (exFmmTenor_rates j h1 h2).ne', wVal]
  congr 1
  interval_cases j <;> norm_num [baseVal, exSide, exFmmTenor, FmmTenor.T, FmmTenor.R]

/-- **C65.** For an expiry inside the tenor the code keeps rates that accrue after the expiry: with
dates 0, 1, 2 and expiry 1 the bond maturing at the expiry depends on the first rate only, but the
only segment carries the larger variance of both. -/
theorem C65_expiry_false :
    ∃ (q : FmmChf) (s : Segment), FmmChf.new exFmm 1 = .ok q ∧ s ∈ q.subSegments
      ∧ s.tau = 1 ∧ s.length = 1 ∧ liveUntil exFmm.tenor (1 / 2) 1 = {1}
      ∧ quadOn exFmm.domestic.rateCorr (fmmLoading exFmm.domestic exFmm.tenor (1 / 2))
        (liveUntil exFmm.tenor (1 / 2) 1) < s.ad := by
  obtain ⟨q, h1, h2, h3, -, -, h5, h6⟩ := C65_segments (p := exFmm) exFmmTenor_ordered exFmm_valid
    exSide_symm exSide_symm exFmmTenor_rates exFmm_start (T := 1) (by norm_num) (n := 1)
    (by norm_num) (m := 16) (by norm_num)
  have hm : exFmm.tenor.m = 2 := rfl
  have hlive : liveRates exFmm.tenor (1 / 2) = {1, 2} := by
    ext j
    rw [liveRates, hm, Finset.mem_filter, Finset.mem_Icc, Finset.mem_insert, Finset.mem_singleton]
    constructor
    · rintro ⟨⟨h1, h2⟩, -⟩; omega
    · rintro (rfl | rfl) <;> norm_num [exFmm, exFmmTenor, FmmTenor.T]
  have huntil : liveUntil exFmm.tenor (1 / 2) 1 = {1} := by
    ext j
    rw [liveUntil, hlive, Finset.mem_filter, Finset.mem_insert, Finset.mem_singleton,
      Finset.mem_singleton]
    constructor
    · rintro ⟨rfl | rfl, h⟩
      · rfl
      · norm_num [exFmm, exFmmTenor, FmmTenor.T] at h
    · rintro rfl
      norm_num [exFmm, exFmmTenor, FmmTenor.T]
  have hseg : ∃ s ∈ q.subSegments, s.tau = 1 ∧ s.length = 1 := by
    generalize hss : q.subSegments = ss at h5
    cases ss with
    | nil => exact absurd h5 (by change ¬ (0 : ℝ) = 1; norm_num)
    | cons s rest =>
      obtain ⟨t1, t2, t3⟩ := h5
      obtain ⟨⟨a, b, ⟨-, hb, ha0, hab, hb1, hgap⟩, hl, ha, hsb⟩, -⟩ := h6 s (by rw [hss]; exact List.mem_cons_self)
      refine ⟨s, List.mem_cons_self, ?_⟩
      norm_num at hl
      have hbs : b = s.tau := by linarith
      have : b = 1 := by
        rcases hb with hb | hb | ⟨k, hk, hb⟩
        · linarith
        · exact hb
        · rw [hm] at hk
          interval_cases k <;> norm_num [exFmm, exFmmTenor, FmmTenor.T] at hb <;> linarith
      constructor <;> linarith
  obtain ⟨s, hs, hs1, hs2⟩ := hseg
  have had := (h6 s hs).2.1
  refine ⟨q, s, h1, hs, hs1, hs2, huntil, ?_⟩
  rw [had, huntil, hs1, hs2, sideVariance, show (1 : ℝ) - (1 - 1 / 2) = 1 / 2 by norm_num, hlive]
  have w1 := exFmm_w (1 / 2) 1 le_rfl (by norm_num)
  have w2 := exFmm_w (1 / 2) 2 (by norm_num) le_rfl
  have a1 : ahead exFmmTenor 1 (1 / 2) = 1 / 2 := by
    rw [ahead_inside] <;> norm_num [exFmmTenor, FmmTenor.T]
  have a2 : ahead exFmmTenor 2 (1 / 2) = 1 := by
    rw [ahead_before] <;> norm_num [exFmmTenor, FmmTenor.T]
  rw [a1] at w1
  rw [a2] at w2
  change quadOn exSide.rateCorr (fmmLoading exSide exFmmTenor (1 / 2)) {1}
    < quadOn exSide.rateCorr (fmmLoading exSide exFmmTenor (1 / 2)) {1, 2}
  unfold quadOn
  rw [Finset.sum_pair (by norm_num), Finset.sum_pair (by norm_num), Finset.sum_pair (by norm_num),
    Finset.sum_singleton, Finset.sum_singleton, w1, w2]
  norm_num [matAt, exSide]

/-- **C65.** For an expiry after the last tenor date the code makes no cut at that date: with dates
0, 1, 2 and expiry 4 the last segment by calendar time runs from 1 to 4, its midpoint is after the
end of the tenor, so it carries no rate variance and no live rate, although the second rate is
random until 2. -/
theorem C65_tail_false :
    ∃ (q : FmmChf) (s : Segment), FmmChf.new exFmm 4 = .ok q ∧ s ∈ q.subSegments
      ∧ s.tau = 3 ∧ s.length = 3 ∧ s.ad = 0 ∧ s.af = 0 ∧ Finset.Icc s.startIdx exFmm.tenor.m = ∅
      ∧ liveRates exFmm.tenor (4 - 5 / 2) = {2}
      ∧ 0 < sideVariance exFmm.domestic exFmm.tenor (4 - 5 / 2) := by
  obtain ⟨q, h1, h2, h3, -, -, h5, h6⟩ := C65_segments (p := exFmm) exFmmTenor_ordered exFmm_valid
    exSide_symm exSide_symm exFmmTenor_rates exFmm_start (T := 4) (by norm_num) (n := 1)
    (by norm_num) (m := 16) (by norm_num)
  have hm : exFmm.tenor.m = 2 := rfl
  have hdead : liveRates exFmm.tenor (4 - 3 / 2) = ∅ := by
    ext j
    rw [liveRates, hm, Finset.mem_filter, Finset.mem_Icc]
    simp only [Finset.notMem_empty, iff_false]
    rintro ⟨⟨h1, h2⟩, h3⟩
    interval_cases j <;> norm_num [exFmm, exFmmTenor, FmmTenor.T] at h3
  have hlive : liveRates exFmm.tenor (4 - 5 / 2) = {2} := by
    ext j
    rw [liveRates, hm, Finset.mem_filter, Finset.mem_Icc, Finset.mem_singleton]
    constructor
    · rintro ⟨⟨h1, h2⟩, h3⟩
      interval_cases j
      · norm_num [exFmm, exFmmTenor, FmmTenor.T] at h3
      · rfl
    · rintro rfl
      norm_num [exFmm, exFmmTenor, FmmTenor.T]
  have hT1 : exFmm.tenor.T 1 = 1 := by norm_num [exFmm, exFmmTenor, FmmTenor.T]
  have hseg : ∃ s ∈ q.subSegments, s.tau = 3 ∧ s.length = 3 := by
    generalize hss : q.subSegments = ss at h5
    cases ss with
    | nil => exact absurd h5 (by change ¬ (0 : ℝ) = 4; norm_num)
    | cons s rest =>
      obtain ⟨t1, t2, t3⟩ := h5
      obtain ⟨⟨a, b, ⟨-, hb, ha0, hab, hb1, hgap⟩, hl, ha, hsb⟩, -⟩ := h6 s (by rw [hss]; exact List.mem_cons_self)
      refine ⟨s, List.mem_cons_self, ?_⟩
      norm_num at hl
      have hbs : b = s.tau := by linarith
      have hg1 := hgap 1 (by rw [hm]; norm_num)
      rw [hT1] at hg1
      have : b = 3 := by
        rcases hb with hb | hb | ⟨k, hk, hb⟩
        · linarith
        · exact absurd ⟨by linarith, by linarith⟩ hg1
        · rw [hm] at hk
          interval_cases k
          · norm_num [exFmm, exFmmTenor, FmmTenor.T] at hb
            exact absurd ⟨by linarith, by linarith⟩ hg1
          · norm_num [exFmm, exFmmTenor, FmmTenor.T] at hb
            linarith
      constructor <;> linarith
  obtain ⟨s, hs, hs1, hs2⟩ := hseg
  obtain ⟨-, had, haf, hst, -⟩ := h6 s hs
  have hmid : (4 : ℝ) - (s.tau - s.length / 2) = 4 - 3 / 2 := by rw [hs1, hs2]; norm_num
  rw [hmid] at had haf hst
  rw [sideVariance, hdead] at had haf
  refine ⟨q, s, h1, hs, hs1, hs2, by rw [had]; simp [quadOn], by rw [haf]; simp [quadOn],
    by rw [hst, hdead], hlive, ?_⟩
  rw [sideVariance, hlive]
  have w2 := exFmm_w (4 - 5 / 2) 2 (by norm_num) le_rfl
  have a2 : ahead exFmmTenor 2 (4 - 5 / 2) = 1 / 2 := by
    rw [ahead_inside] <;> norm_num [exFmmTenor, FmmTenor.T]
  rw [a2] at w2
  change 0 < quadOn exSide.rateCorr (fmmLoading exSide exFmmTenor (4 - 5 / 2)) {2}
  unfold quadOn
  rw [Finset.sum_singleton, Finset.sum_singleton, w2]
  norm_num [matAt, exSide]

end Verif
