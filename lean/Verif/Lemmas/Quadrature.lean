import Verif.Props.CirLaw
import Verif.Spec.Quadrature
import Verif.Lemmas.HhwChf
import Mathlib.Analysis.Normed.Group.FunctionSeries
import Mathlib.MeasureTheory.Integral.IntervalIntegral.Basic

/-!
# Convergence of the composite Simpson rule for continuous integrands, and the root mean as a
continuous function of time
-/

namespace Verif

open MeasureTheory Filter Topology

/-! ## The Simpson rule -/

theorem simpsonOn_le {m : ℕ} {a b : ℝ} (hab : a ≤ b) {f g : ℝ → ℝ}
    (h : ∀ t ∈ Set.Icc a b, f t ≤ g t) : simpsonOn m a b f ≤ simpsonOn m a b g := by
  rcases Nat.eq_zero_or_pos m with rfl | hm
  · simp [simpsonOn]
  have hm' : (0 : ℝ) < m := by exact_mod_cast hm
  have hh : 0 ≤ (b - a) / (2 * m) := div_nonneg (by linarith) (by positivity)
  have node : ∀ k : ℕ, k ≤ 2 * m → a + (k : ℝ) * ((b - a) / (2 * m)) ∈ Set.Icc a b := by
    intro k hk
    have hk' : (k : ℝ) ≤ 2 * m := by exact_mod_cast hk
    have e : (2 * m : ℝ) * ((b - a) / (2 * m)) = b - a := by field_simp
    have h1 := mul_le_mul_of_nonneg_right hk' hh
    have h2 : 0 ≤ (k : ℝ) * ((b - a) / (2 * m)) := mul_nonneg (Nat.cast_nonneg k) hh
    exact ⟨by linarith, by linarith⟩
  refine Finset.sum_le_sum fun j hj => ?_
  have hj' := Finset.mem_range.1 hj
  refine mul_le_mul_of_nonneg_left ?_ (by linarith)
  have h0 := h _ (node (2 * j) (by omega))
  have h1 := h _ (node (2 * j + 1) (by omega))
  have h2 := h _ (node (2 * j + 2) (by omega))
  linarith

theorem simpsonOn_add (m : ℕ) (a b : ℝ) (f g : ℝ → ℝ) :
    simpsonOn m a b (fun t => f t + g t) = simpsonOn m a b f + simpsonOn m a b g := by
  rw [simpsonOn, simpsonOn, simpsonOn, ← Finset.sum_add_distrib]
  exact Finset.sum_congr rfl fun j _ => by ring

/-- The composite Simpson rule converges for continuous integrands. -/
theorem simpsonOn_tendsto {a b : ℝ} (hab : a ≤ b) {g : ℝ → ℝ} (hg : ContinuousOn g (Set.Icc a b)) :
    Tendsto (fun m => simpsonOn m a b g) atTop (𝓝 (∫ t in a..b, g t)) := by
  rw [Metric.tendsto_atTop]
  intro ε hε
  have hu := isCompact_Icc.uniformContinuousOn_of_continuous hg
  rw [Metric.uniformContinuousOn_iff] at hu
  obtain ⟨δ, hδ, hu⟩ := hu (ε / (b - a + 1)) (div_pos hε (by linarith))
  obtain ⟨N, hN⟩ := exists_nat_gt ((b - a) / δ)
  refine ⟨N + 1, fun m hm => ?_⟩
  have hmp : 0 < m := by omega
  have hm' : (0 : ℝ) < m := by exact_mod_cast hmp
  have hNm : (N : ℝ) ≤ m := by exact_mod_cast (by omega : N ≤ m)
  set h := (b - a) / (2 * m) with hh
  have hh0 : 0 ≤ h := div_nonneg (by linarith) (by positivity)
  have e2 : (2 * m : ℝ) * h = b - a := by rw [hh]; field_simp
  have hsmall : 2 * h < δ := by
    have h1 : (b - a) / δ < m := lt_of_lt_of_le hN hNm
    rw [div_lt_iff₀ hδ] at h1
    nlinarith
  have node : ∀ k : ℕ, k ≤ 2 * m → a + (k : ℝ) * h ∈ Set.Icc a b := by
    intro k hk
    have hk' : (k : ℝ) ≤ 2 * m := by exact_mod_cast hk
    have h1 := mul_le_mul_of_nonneg_right hk' hh0
    have h2 : 0 ≤ (k : ℝ) * h := mul_nonneg (Nat.cast_nonneg k) hh0
    exact ⟨by linarith, by linarith⟩
  set x : ℕ → ℝ := fun j => a + ((2 * j : ℕ) : ℝ) * h with hx
  have hx0 : x 0 = a := by simp [hx]
  have hxm : x m = b := by simp only [hx]; push_cast; linarith
  have hxs : ∀ j, x (j + 1) = x j + 2 * h := by intro j; simp only [hx]; push_cast; ring
  have hsub : ∀ j < m, Set.Icc (x j) (x (j + 1)) ⊆ Set.Icc a b := by
    intro j hj
    exact Set.Icc_subset_Icc (node _ (by omega)).1 (node (2 * (j + 1)) (by omega)).2
  have hint : ∀ j < m, IntervalIntegrable g volume (x j) (x (j + 1)) := by
    intro j hj
    refine ContinuousOn.intervalIntegrable ?_
    rw [Set.uIcc_of_le (by rw [hxs]; linarith)]
    exact hg.mono (hsub j hj)
  have hsum : ∫ t in a..b, g t = ∑ j ∈ Finset.range m, ∫ t in x j..x (j + 1), g t := by
    rw [intervalIntegral.sum_integral_adjacent_intervals hint, hx0, hxm]
  have hpanel : ∀ j ∈ Finset.range m, |h / 3 * (g (a + (2 * j : ℕ) * h) + 4 * g (a + (2 * j + 1 : ℕ) * h)
      + g (a + (2 * j + 2 : ℕ) * h)) - ∫ t in x j..x (j + 1), g t| ≤ ε / (b - a + 1) * (2 * h) := by
    intro j hj
    have hj := Finset.mem_range.1 hj
    set A := g (a + (2 * j : ℕ) * h)
    set B := g (a + (2 * j + 1 : ℕ) * h)
    set C := g (a + (2 * j + 2 : ℕ) * h)
    have hc : h / 3 * (A + 4 * B + C) = ∫ _ in x j..x (j + 1), (A + 4 * B + C) / 6 := by
      rw [intervalIntegral.integral_const, hxs, smul_eq_mul]; ring
    rw [hc, ← intervalIntegral.integral_sub (by simp) (hint j hj)]
    have hb := intervalIntegral.norm_integral_le_of_norm_le_const (a := x j) (b := x (j + 1))
      (f := fun t => (A + 4 * B + C) / 6 - g t) (C := ε / (b - a + 1)) ?_
    · rw [Real.norm_eq_abs, hxs, show x j + 2 * h - x j = 2 * h by ring, abs_of_nonneg (by linarith : 0 ≤ 2 * h)] at hb
      rw [hxs]
      exact hb
    · intro t ht
      rw [Set.uIoc_of_le (by rw [hxs]; linarith)] at ht
      have htb : t ∈ Set.Icc a b := hsub j hj ⟨ht.1.le, ht.2⟩
      rw [hxs] at ht
      have d : ∀ k : ℕ, 2 * j ≤ k → k ≤ 2 * j + 2 → |g (a + (k : ℝ) * h) - g t| ≤ ε / (b - a + 1) := by
        intro k k1 k2
        have k1' : ((2 * j : ℕ) : ℝ) ≤ k := by exact_mod_cast k1
        have k2' : (k : ℝ) ≤ ((2 * j : ℕ) : ℝ) + 2 := by exact_mod_cast k2
        have m1 := mul_le_mul_of_nonneg_right k1' hh0
        have m2 := mul_le_mul_of_nonneg_right k2' hh0
        have hd := hu _ (node k (by omega)) _ htb (by
          rw [Real.dist_eq, abs_lt]
          have h1 := ht.1
          have h2 := ht.2
          simp only [hx] at h1 h2
          constructor <;> nlinarith)
        rw [Real.dist_eq] at hd
        exact hd.le
      have dA := abs_le.1 (d (2 * j) le_rfl (by omega))
      have dB := abs_le.1 (d (2 * j + 1) (by omega) (by omega))
      have dC := abs_le.1 (d (2 * j + 2) (by omega) le_rfl)
      rw [Real.norm_eq_abs, abs_le]
      constructor <;> linarith [dA.1, dA.2, dB.1, dB.2, dC.1, dC.2]
  rw [Real.dist_eq, hsum, simpsonOn, ← Finset.sum_sub_distrib]
  refine (Finset.abs_sum_le_sum_abs _ _).trans_lt ?_
  refine (Finset.sum_le_sum hpanel).trans_lt ?_
  rw [Finset.sum_const, Finset.card_range, nsmul_eq_mul]
  have e3 : (m : ℝ) * (ε / (b - a + 1) * (2 * h)) = ε * ((b - a) / (b - a + 1)) := by
    rw [← e2]; ring
  rw [e3]
  have : (b - a) / (b - a + 1) < 1 := by rw [div_lt_one (by linarith)]; linarith
  nlinarith

/-- The Simpson sums of `f` come as close to the integral of `g` as `f` is to `g`. -/
theorem simpsonOn_near {a b : ℝ} (hab : a ≤ b) {f g e : ℝ → ℝ} (hg : ContinuousOn g (Set.Icc a b))
    (he : ContinuousOn e (Set.Icc a b)) (h : ∀ t ∈ Set.Icc a b, |f t - g t| ≤ e t) {ε : ℝ} (hε : 0 < ε) :
    ∃ N, ∀ m ≥ N, |simpsonOn m a b f - ∫ t in a..b, g t| ≤ (∫ t in a..b, e t) + ε := by
  obtain ⟨N1, h1⟩ := Metric.tendsto_atTop.1 (simpsonOn_tendsto hab hg) (ε / 2) (by linarith)
  obtain ⟨N2, h2⟩ := Metric.tendsto_atTop.1 (simpsonOn_tendsto hab he) (ε / 2) (by linarith)
  refine ⟨max N1 N2, fun m hm => ?_⟩
  have k1 := abs_lt.1 (Real.dist_eq _ _ ▸ h1 m (le_trans (le_max_left _ _) hm))
  have k2 := abs_lt.1 (Real.dist_eq _ _ ▸ h2 m (le_trans (le_max_right _ _) hm))
  have u : simpsonOn m a b f ≤ simpsonOn m a b g + simpsonOn m a b e := by
    rw [← simpsonOn_add]
    exact simpsonOn_le hab fun t ht => by have := abs_le.1 (h t ht); linarith
  have l : simpsonOn m a b g ≤ simpsonOn m a b f + simpsonOn m a b e := by
    rw [← simpsonOn_add]
    exact simpsonOn_le hab fun t ht => by have := abs_le.1 (h t ht); linarith
  rw [abs_le]
  constructor <;> linarith [k1.1, k1.2, k2.1, k2.2]

/-! ## The root mean -/

theorem continuousOn_sqrtSum {a : ℝ} (ha : 0 < a) :
    ContinuousOn (fun x => ∑' k, sqrtTerm x a (a + 1 / 2) k) (Set.Ici 0) := by
  have key : ∀ R : ℝ, 0 ≤ R → ContinuousOn (fun x => ∑' k, sqrtTerm x a (a + 1 / 2) k) (Set.Icc 0 R) := by
    intro R hR
    refine continuousOn_tsum (fun k => ?_) (sqrtTerm_summable hR ha) fun k x hx => ?_
    · unfold sqrtTerm; fun_prop
    · rw [Real.norm_eq_abs, abs_of_nonneg (sqrtTerm_nonneg hx.1 ha k)]
      have h2 : 0 < Real.Gamma (a + k) := Real.Gamma_pos_of_pos (by positivity)
      have h3 : 0 < Real.Gamma (a + 1 / 2 + k) := Real.Gamma_pos_of_pos (by positivity)
      unfold sqrtTerm
      have := pow_le_pow_left₀ hx.1 hx.2 k
      gcongr
  intro x hx
  have h := key (x + 1) (by have : (0 : ℝ) ≤ x := hx; linarith) x ⟨hx, by linarith⟩
  refine h.mono_of_mem_nhdsWithin ?_
  have : Set.Iio (x + 1) ∈ 𝓝 x := Iio_mem_nhds (by linarith)
  filter_upwards [self_mem_nhdsWithin, mem_nhdsWithin_of_mem_nhds this] with y h1 h2
  exact ⟨h1, le_of_lt h2⟩

variable {p : Cir}

theorem continuousOn_rootMean (hk : 0 < p.kappa) (hθ : 0 < p.theta) (hg : p.gamma ≠ 0) (hs : 0 < p.sigma0) :
    ContinuousOn p.rootMean (Set.Ici 0) := by
  intro t ht
  have ht0 : (0 : ℝ) ≤ t := ht
  have h1 : ∀ t : ℝ, 0 < t → 0 < 1 - Real.exp (-p.kappa * t) := by
    intro t ht
    have : Real.exp (-p.kappa * t) < 1 := (Real.exp_lt_exp.2 (show -p.kappa * t < 0 by
      have := mul_pos hk ht; linarith)).trans_eq Real.exp_zero
    linarith
  have hg2 : 0 < p.gamma ^ 2 := by positivity
  rcases ht0.eq_or_lt with h | h
  · subst h
    have h2 := (C81_start hk hθ hg hs (1 / 10 ^ 14)).2
    have e : p.rootMean 0 = √p.sigma0 := by rw [Cir.rootMean, if_pos le_rfl]
    rw [← Set.Ioi_insert, continuousWithinAt_insert_self, ContinuousWithinAt, e]
    refine h2.congr' ?_
    filter_upwards [self_mem_nhdsWithin] with t ht
    rw [Cir.rootMean, if_neg (not_le.2 ht)]
  · set X : ℝ → ℝ := fun t => 2 * p.kappa * p.sigma0 * Real.exp (-p.kappa * t) / (p.gamma ^ 2 * (1 - Real.exp (-p.kappa * t))) with hX
    set R : ℝ → ℝ := fun t => 2 * p.kappa / (p.gamma ^ 2 * (1 - Real.exp (-p.kappa * t))) with hR
    set a := 2 * p.kappa * p.theta / p.gamma ^ 2 with ha
    have ha0 : 0 < a := by positivity
    have hXc : ContinuousAt X t := by
      refine ContinuousAt.div (by fun_prop) (by fun_prop) (mul_pos hg2 (h1 t h)).ne'
    have hRc : ContinuousAt R t := by
      refine ContinuousAt.div (by fun_prop) (by fun_prop) (mul_pos hg2 (h1 t h)).ne'
    have hX0 : ∀ t, 0 < t → 0 < X t := fun t ht => by have := h1 t ht; simp only [hX]; positivity
    have hR0 : ∀ t, 0 < t → 0 < R t := fun t ht => by have := h1 t ht; simp only [hR]; positivity
    have hS : ContinuousAt (fun x => ∑' k, sqrtTerm x a (a + 1 / 2) k) (X t) :=
      (continuousOn_sqrtSum ha0).continuousAt (Ici_mem_nhds (hX0 t h))
    have hc : ContinuousAt (fun t => √(1 / R t) * Real.exp (-X t) * ∑' k, sqrtTerm (X t) a (a + 1 / 2) k) t := by
      refine ((ContinuousAt.sqrt (continuousAt_const.div hRc (hR0 t h).ne')).mul hXc.neg.rexp).mul ?_
      exact ContinuousAt.comp (f := X) (g := fun x => ∑' k, sqrtTerm x a (a + 1 / 2) k) hS hXc
    refine ContinuousAt.continuousWithinAt (hc.congr ?_)
    filter_upwards [Ioi_mem_nhds h] with s hs'
    rw [Cir.rootMean, if_neg (not_le.2 hs'), Cir.law]
    exact ((mixedGamma_root (hX0 s hs').le ha0 (hR0 s hs')).2).symm

theorem rootMean_nonneg (t : ℝ) : 0 ≤ p.rootMean t := by
  rw [Cir.rootMean]
  split
  · exact Real.sqrt_nonneg _
  · exact integral_nonneg fun y => Real.sqrt_nonneg y

/-- Parameters away from the code's thresholds. -/
structure Cir.Fine (p : Cir) : Prop where
  kappa : 0 < p.kappa
  theta : 1 / 10 ^ 300 ≤ p.theta
  gamma : 1 / 10 ^ 14 ≤ |p.gamma|
  sigma0 : 1 / 10 ^ 300 ≤ p.sigma0

theorem Cir.Fine.pos (h : p.Fine) : 0 < p.theta ∧ p.gamma ≠ 0 ∧ 0 < p.sigma0 := by
  refine ⟨lt_of_lt_of_le (by positivity) h.theta, ?_, lt_of_lt_of_le (by positivity) h.sigma0⟩
  intro e
  have := h.gamma
  rw [e, abs_zero] at this
  norm_num at this

theorem phiOf_series (h : p.Fine) {t : ℝ} (ht : 0 < t) (hb : p.SeriesBranch t) :
    |phiOf p t - p.rootMean t| ≤ 1 / 10 ^ 12 * p.rootMean t := by
  obtain ⟨h1, h2, h3⟩ := h.pos
  obtain ⟨v, e, l, u⟩ := C81_sqrt_mean h.kappa h1 h.gamma h3.le ht hb
  have ev : phiOf p t = v := by rw [phiOf, e]
  rw [ev, Cir.rootMean, if_neg (not_le.2 ht), abs_le]
  have : (0 : ℝ) ≤ ∫ y, √y ∂p.law t := integral_nonneg fun y => Real.sqrt_nonneg y
  constructor
  · have : v * (1 / 10 ^ 12) ≤ (∫ y, √y ∂p.law t) * (1 / 10 ^ 12) :=
      mul_le_mul_of_nonneg_right l (by positivity)
    linarith
  · nlinarith

theorem phiOf_near (h : p.Fine) {t : ℝ} (ht : 0 ≤ t) :
    |phiOf p t - p.rootMean t| ≤ 1 / 249 * p.rootMean t := by
  obtain ⟨h1, h2, h3⟩ := h.pos
  rcases ht.eq_or_lt with h0 | h0
  · subst h0
    rw [phiOf_of_nonpos p le_rfl, max_eq_left h3.le, Cir.rootMean, if_pos le_rfl, sub_self, abs_zero]
    positivity
  · by_cases hb : p.SeriesBranch t
    · refine (phiOf_series h h0 hb).trans (mul_le_mul_of_nonneg_right ?_ (rootMean_nonneg t))
      norm_num
    · have hm : 1 / 10 ^ 300 ≤ p.mean t := by
        rw [cir_mean_eq p h0.le]
        have e0 := Real.exp_pos (-p.kappa * t)
        have e1 : Real.exp (-p.kappa * t) ≤ 1 := by
          rw [Real.exp_le_one_iff]; have := mul_pos h.kappa h0; linarith
        have a1 := h.theta
        have a2 := h.sigma0
        generalize Real.exp (-p.kappa * t) = d at *
        generalize (1 / 10 ^ 300 : ℝ) = c at *
        nlinarith
      obtain ⟨v, e, l, u, w⟩ := C81_small_time (tol := 1 / 10 ^ 14) h.kappa h1 h.gamma h3.le h0 hb hm
      have ev : phiOf p t = v := by rw [phiOf, Cir.sqrtMean, e]
      obtain ⟨x, a, r, hx, ha, hr, hl, -, -, -, em, ew⟩ := law_params h.kappa h1 h2 h3.le h0
      have lo := (mixedGamma_root_bounds hx ha hr).1
      rw [← hl] at lo
      rw [ev, Cir.rootMean, if_neg (not_le.2 h0)]
      have em' : p.variance t / (2 * p.mean t ^ 2) = (a + 2 * x) / (2 * (a + x) ^ 2) := by
        rw [em, ew]; field_simp
      rw [← em', ← em] at lo
      have hroot : 0 ≤ √(p.mean t) := Real.sqrt_nonneg _
      have hw0 : 0 ≤ p.variance t / (2 * p.mean t ^ 2) := by rw [em']; positivity
      have hw1 : 0 ≤ √(p.mean t) * (p.variance t / (20 * p.mean t ^ 2)) := by
        refine mul_nonneg hroot ?_
        rw [em, ew]; positivity
      generalize p.variance t / (2 * p.mean t ^ 2) = q at *
      have k1 : √(p.mean t) * q ≤ √(p.mean t) * (1 / 250) := mul_le_mul_of_nonneg_left w.le hroot
      rw [abs_le]
      constructor
      · have : (0 : ℝ) ≤ ∫ y, √y ∂p.law t := integral_nonneg fun y => Real.sqrt_nonneg y
        linarith
      · linarith

end Verif
